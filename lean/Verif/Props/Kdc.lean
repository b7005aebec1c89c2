import Verif.Proofs.Kdc
import Verif.Props.PackedRows
import Mathlib.Tactic.NormNum
/-! # C90: Kodak KDC files -/

namespace Verif.Props
open Verif Verif.Kdc Verif.Spec Verif.Packed

theorem dc120_eq (load : List Nat → Option Jpeg) (file offs : List Nat) (comp : Option (List Nat)) (white : Nat) :
    dc120 load file (some ⟨some offs, comp⟩) white = (untilEof file (offs.getD 0 0)).bind fun src => (fetch comp).bind fun comp =>
      if comp.getD 0 0 = 1 then (decodeDc120 src 848 976).bind fun img => .ok (img, white)
      else if comp.getD 0 0 = 7 then (decodeDc120Jpeg load src 848 976).bind fun img => .ok (img, 510)
      else fail' := rfl

/-- **C90** for uncompressed files of the DC120 with all their data: each row of the picture is a row of the file, turned. -/
theorem C90_dc120_partial (load : List Nat → Option Jpeg) (file offs comp : List Nat) (white : Nat) (hc : comp.getD 0 0 = 1)
    (hl : offs.getD 0 0 + 848 * 976 ≤ file.length) :
    ∃ img, dc120 load file (some ⟨some offs, some comp⟩) white = .ok (img, white) ∧ img.length = 976 * 848 ∧
      ∀ r, r < 976 → Spec.Kdc.row img 848 r = (Spec.Kdc.row (file.drop (offs.getD 0 0)) 848 r).rotate (Spec.Kdc.turn r) := by
  have hd : 976 * 848 ≤ (file.drop (offs.getD 0 0)).length := by rw [List.length_drop]; omega
  obtain ⟨img, hi, hh⟩ := decodeDc120_ok (file.drop (offs.getD 0 0)) 976 hd
  refine ⟨img, ?_, hh.1, fun r hr => rows_turned _ img 976 hd hh r hr⟩
  rw [dc120_eq, untilEof]
  simp only [fetch, Except.bind]
  rw [if_pos (by omega)]
  simp only
  rw [if_pos hc, hi]

/-- No sample of such a file is lost or doubled. -/
theorem C90_dc120_all_samples (load : List Nat → Option Jpeg) (file offs comp img : List Nat) (white v : Nat) (hc : comp.getD 0 0 = 1)
    (hl : offs.getD 0 0 + 848 * 976 ≤ file.length) (hi : dc120 load file (some ⟨some offs, some comp⟩) white = .ok (img, v)) (r : Nat) (hr : r < 976) :
    (Spec.Kdc.row img 848 r).Perm (Spec.Kdc.row (file.drop (offs.getD 0 0)) 848 r) := by
  obtain ⟨img', h, _, hrow⟩ := C90_dc120_partial load file offs comp white hc hl
  rw [h] at hi
  cases hi
  rw [hrow r hr]
  exact List.rotate_perm _ _

/-- Missing data aborts. -/
theorem C90_dc120_short_aborts (load : List Nat → Option Jpeg) (file offs comp : List Nat) (white : Nat) (hc : comp.getD 0 0 = 1)
    (h1 : offs.getD 0 0 ≤ file.length) (h2 : file.length < offs.getD 0 0 + 848 * 976) :
    dc120 load file (some ⟨some offs, some comp⟩) white = panic' := by
  rw [dc120_eq, untilEof]
  simp only [fetch, Except.bind]
  rw [if_pos h1]
  simp only
  rw [if_pos hc, decodeDc120_short _ (by rw [List.length_drop]; omega)]

/-- **C90** for JPEG files of the DC120: with a picture of 848 columns, 488 rows and three colours, the samples are those of its mosaic. -/
theorem C90_dc120_jpeg_partial (load : List Nat → Option Jpeg) (file offs comp jpeg : List Nat) (white : Nat) (hc : comp.getD 0 0 = 7)
    (hl : offs.getD 0 0 ≤ file.length) (hj : load (Spec.Kdc.swapPairs (file.drop (offs.getD 0 0))) = some ⟨848, 488, some jpeg⟩)
    (hn : jpeg.length = 488 * 848 * 3) :
    ∃ img, dc120 load file (some ⟨some offs, some comp⟩) white = .ok (img, 510) ∧ Holds img 848 976 (Spec.Kdc.mosaic jpeg 848) := by
  obtain ⟨img, hi, hh⟩ := mosaic_ok jpeg 848 488 (by decide) hn
  refine ⟨img, ?_, hh⟩
  rw [dc120_eq, untilEof]
  simp only [fetch, Except.bind]
  rw [if_pos hl]
  simp only
  rw [if_neg (by omega), if_pos hc, decodeDc120Jpeg, swapped_ok]
  simp only [bind, Except.bind]
  rw [hj]
  simp only [assert', decide_true, if_true]
  rw [show forN 488 (blockRow 848 jpeg) (List.replicate (848 * 976) 0) = .ok img from hi]

/-- The white level of these files is the largest sample there can be. -/
theorem C90_dc120_jpeg_white (jpeg : List Nat) (hb : IsBytes jpeg) (r c : Nat) : Spec.Kdc.mosaic jpeg 848 r c ≤ 510 := by
  have hp : ∀ r c k, Spec.Kdc.rgb jpeg 848 r c k ≤ 255 := by
    intro r c k
    rw [Spec.Kdc.rgb, List.getD_eq_getElem?_getD]
    cases e : jpeg[(r * 848 + c) * 3 + k]? with
    | none => exact Nat.zero_le _
    | some v => have := hb v (List.mem_of_getElem? e); show v ≤ 255; omega
  rw [Spec.Kdc.mosaic]
  have h1 := hp (r / 2) (c / 2 * 2)
  have h2 := hp (r / 2) (c / 2 * 2 + 1)
  have a1 := h1 0; have a2 := h1 1; have a3 := h1 2
  have b1 := h2 0; have b2 := h2 1; have b3 := h2 2
  split <;> omega

/-- A JPEG of another size aborts, -/
theorem C90_dc120_jpeg_size_aborts (load : List Nat → Option Jpeg) (file offs comp : List Nat) (white : Nat) (hc : comp.getD 0 0 = 7)
    (hl : offs.getD 0 0 ≤ file.length) (j : Jpeg) (hj : load (Spec.Kdc.swapPairs (file.drop (offs.getD 0 0))) = some j)
    (hs : j.width ≠ 848 ∨ j.height ≠ 488) : dc120 load file (some ⟨some offs, some comp⟩) white = panic' := by
  rw [dc120_eq, untilEof]
  simp only [fetch, Except.bind]
  rw [if_pos hl]
  simp only
  rw [if_neg (by omega), if_pos hc, decodeDc120Jpeg, swapped_ok]
  simp only [bind, Except.bind]
  rw [hj]
  by_cases hw : 848 = j.width
  · have hh : ¬ 976 = j.height * 2 := by omega
    simp only [assert', hw, decide_true, if_true]
    simp [hh]
  · simp [assert', hw]

theorem forN_blocked {σ : Type} (n : Nat) (f : Nat → σ → R σ) (i : Nat) (hi : i < n) (hf : ∀ s t, f i s ≠ .ok t) : ∀ s t, forN n f s ≠ .ok t := by
  induction n with
  | zero => omega
  | succ n ih =>
    intro s t h
    rw [forN_succ] at h
    cases e : forN n f s with
    | error x => rw [e] at h; cases h
    | ok s1 =>
      rw [e] at h
      by_cases hin : i = n
      · exact hf s1 t (by rw [hin]; exact h)
      · exact ih (by omega) s s1 e

/-- and so does one without colours. -/
theorem C90_dc120_jpeg_gray_aborts (load : List Nat → Option Jpeg) (file offs comp jpeg : List Nat) (white : Nat) (hc : comp.getD 0 0 = 7)
    (hl : offs.getD 0 0 ≤ file.length) (hj : load (Spec.Kdc.swapPairs (file.drop (offs.getD 0 0))) = some ⟨848, 488, some jpeg⟩)
    (hn : jpeg.length = 488 * 848) : ∀ r, dc120 load file (some ⟨some offs, some comp⟩) white ≠ .ok r := by
  intro r h
  rw [dc120_eq, untilEof] at h
  simp only [fetch, Except.bind] at h
  rw [if_pos hl] at h
  simp only at h
  rw [if_neg (by omega), if_pos hc, decodeDc120Jpeg, swapped_ok] at h
  simp only [bind, Except.bind] at h
  rw [hj] at h
  simp only [assert', decide_true, if_true] at h
  have hb := forN_blocked 488 (blockRow 848 jpeg) 400 (by decide) (fun s t ht => by
    rw [blockRow, from', if_neg (by omega)] at ht
    cases ht) (List.replicate (848 * 976) 0)
  cases e : forN 488 (blockRow 848 jpeg) (List.replicate (848 * 976) 0) with
  | error x => rw [e] at h; cases h
  | ok o => exact hb o e

/-- Other codings, a JPEG that cannot be read, missing tags and data that begin behind the end give an error. -/
theorem C90_dc120_errors (load : List Nat → Option Jpeg) (file : List Nat) (white : Nat) :
    dc120 load file none white = fail' ∧ (∀ c, dc120 load file (some ⟨none, c⟩) white = fail') ∧
    (∀ offs, dc120 load file (some ⟨some offs, none⟩) white = fail') ∧
    (∀ offs comp, file.length < offs.getD 0 0 → dc120 load file (some ⟨some offs, comp⟩) white = fail') ∧
    (∀ offs comp, comp.getD 0 0 ≠ 1 → comp.getD 0 0 ≠ 7 → dc120 load file (some ⟨some offs, some comp⟩) white = fail') ∧
    (∀ offs comp, comp.getD 0 0 = 7 → load (Spec.Kdc.swapPairs (file.drop (offs.getD 0 0))) = none →
      dc120 load file (some ⟨some offs, some comp⟩) white = fail') := by
  refine ⟨rfl, fun _ => rfl, ?_, ?_, ?_, ?_⟩
  · intro offs
    rw [dc120_eq, untilEof]
    simp only [fetch, Except.bind]
    by_cases h : offs.getD 0 0 ≤ file.length
    · rw [if_pos h]
    · rw [if_neg h]
  · intro offs comp h
    rw [dc120_eq, untilEof]
    simp only [fetch, Except.bind]
    rw [if_neg (by omega)]
  · intro offs comp h1 h7
    rw [dc120_eq, untilEof]
    simp only [fetch, Except.bind]
    by_cases h : offs.getD 0 0 ≤ file.length
    · rw [if_pos h]
      simp only
      rw [if_neg h1, if_neg h7]
    · rw [if_neg h]
  · intro offs comp h7 hj
    rw [dc120_eq, untilEof]
    simp only [fetch, Except.bind]
    by_cases h : offs.getD 0 0 ≤ file.length
    · rw [if_pos h]
      simp only
      rw [if_neg (by omega), if_pos h7, decodeDc120Jpeg, swapped_ok]
      simp only [bind, Except.bind]
      rw [hj]
    · rw [if_neg h]

/-- **C90** for other cameras with pictures of even width: 80 columns and 70 rows more than in the header, 12 bits per sample, from the place that is the sum of
the fifth and thirteenth numbers of the offset tag, or one of two fixed places for some cameras; an error if data is missing. -/
theorem C90_packed_partial (file : List Nat) (hb : IsBytes file) (kw kh ko : List Nat) (hack : Bool) (h2 : kw.getD 0 0 % 2 = 0) (h13 : 13 ≤ ko.length)
    (off : Nat) (hoff : off = if hack then (if ko.getD 4 0 + ko.getD 12 0 < 86016 then 86016 else 94208) else ko.getD 4 0 + ko.getD 12 0)
    (hf : off ≤ file.length) (w h : Nat) (hw : w = kw.getD 0 0 + 80) (hh : h = kh.getD 0 0 + 70) :
    if h * w * 12 ≤ 8 * (file.length - off) then
      ∃ img, kdcImage file (some ⟨some kw, some kh, some ko⟩) hack = .ok (w, h, img) ∧ Holds img w h fun r c => fieldMSB 12 (file.drop off) (r * w + c)
    else kdcImage file (some ⟨some kw, some kh, some ko⟩) hack = fail' := by
  have hbd : IsBytes (file.drop off) := fun b hm => hb b (List.mem_of_mem_drop hm)
  have key := C13_12be (file.drop off) hbd w h (by omega) (by omega)
  have e : kdcImage file (some ⟨some kw, some kh, some ko⟩) hack =
      (dec12be (file.drop off) w h).bind fun image => .ok (w, h, image) := by
    rw [kdcImage]
    simp only [fetch, bind, Except.bind]
    rw [if_neg (by omega)]
    have : dataOffset ko hack = off := by
      rw [hoff]; rfl
    rw [this, untilEof, if_pos hf]
    simp only [force, ← hw, ← hh]
  rw [List.length_drop] at key
  by_cases hl : h * w * 12 ≤ 8 * (file.length - off)
  · rw [if_pos hl] at key ⊢
    obtain ⟨img, hi, hs⟩ := key
    exact ⟨img, by rw [e, hi]; rfl, hs⟩
  · rw [if_neg hl] at key ⊢
    rw [e, key]; rfl

/-- The white balance: three numbers of the maker note; or two numbers in a block of bytes, in 256ths, red before blue; none without a maker note. -/
theorem C90_white_balance (r g b : Rat) (k : Option Entry) (d : List Nat) (hd : d.length = 734 ∨ d.length = 1502 ∨ d.length = 1512 ∨ d.length = 2288) :
    getWb none = .ok none ∧ getWb (some ⟨some [r, g, b], k⟩) = .ok (some (r, g, b)) ∧
    getWb (some ⟨none, some (.bytes d)⟩) = .ok (some ((Spec.Kdc.number d 148 : Rat) / 256, 1, (Spec.Kdc.number d 150 : Rat) / 256)) := by
  refine ⟨rfl, rfl, ?_⟩
  have hl : 152 ≤ d.length := by omega
  have hm : [734, 1502, 1512, 2288].contains d.length = true := by
    rcases hd with h | h | h | h <;> rw [h] <;> rfl
  rw [getWb]
  simp only [fetch, bind, Except.bind, Entry.count, hm, not_true, if_false, Entry.data]
  rw [Kdc.be16, Kdc.be16, idx_getD d 148 (by omega), idx_getD d (148 + 1) (by omega), idx_getD d 150 (by omega), idx_getD d (150 + 1) (by omega)]
  simp only [bind, Except.bind, Spec.Kdc.number]

/-- Blocks of other sizes, another count of numbers and missing blocks give an error; -/
theorem C90_white_balance_errors (l : List Rat) (k : Option Entry) (e : Entry) (hl : l.length ≠ 3)
    (he : e.count ≠ 734 ∧ e.count ≠ 1502 ∧ e.count ≠ 1512 ∧ e.count ≠ 2288) :
    getWb (some ⟨some l, k⟩) = fail' ∧ getWb (some ⟨none, none⟩) = fail' ∧ getWb (some ⟨none, some e⟩) = fail' := by
  refine ⟨?_, rfl, ?_⟩
  · rw [getWb]; simp only; rw [if_pos hl]
  · rw [getWb]
    simp only [fetch, bind, Except.bind]
    rw [if_pos]
    simp [he]

/-- a block that is not of bytes aborts. -/
theorem C90_white_balance_aborts : getWb (some ⟨none, some (.other 734)⟩) = panic' := rfl

/-- Row 5 of a picture is turned by 1596 places, that is by 748. A JPEG of four pixels. -/
example : Spec.Kdc.turn 5 % 848 = 748 ∧
    forN 1 (blockRow 4 [1, 2, 3, 4, 5, 6, 7, 8, 9, 10, 11, 12]) (List.replicate 8 0) = .ok [4, 5, 16, 17, 9, 10, 21, 22] ∧
    swapped [1, 2, 3, 4, 5] = .ok [2, 1, 4, 3] := ⟨by decide, by decide +kernel, by decide +kernel⟩

/-- Files as in the theorems -/
example : ∃ (file offs comp : List Nat), comp.getD 0 0 = 1 ∧ offs.getD 0 0 + 848 * 976 ≤ file.length :=
  ⟨List.replicate 827748 7, [100], [1], rfl, by rw [List.length_replicate]; decide⟩

example : ∃ (load : List Nat → Option Jpeg) (file jpeg : List Nat), load (Spec.Kdc.swapPairs (file.drop 2)) = some ⟨848, 488, some jpeg⟩ ∧
    jpeg.length = 488 * 848 * 3 :=
  ⟨fun s => if s = [2, 1] then some ⟨848, 488, some (List.replicate 1241472 9)⟩ else none, [0, 0, 1, 2], List.replicate 1241472 9, rfl,
    by rw [List.length_replicate]⟩

example : ∃ ko : List Nat, 13 ≤ ko.length ∧ ko.getD 4 0 + ko.getD 12 0 = 17 := ⟨[0, 0, 0, 0, 5, 0, 0, 0, 0, 0, 0, 0, 12], by decide, rfl⟩

end Verif.Props
