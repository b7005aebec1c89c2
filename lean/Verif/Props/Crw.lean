import Verif.Proofs.CrwFile
import Verif.Proofs.CrxBytes
import Verif.Proofs.JpegBitWriter
/-! # C71: Canon CRW pictures -/

namespace Verif.Props
open Verif Verif.Pumps Verif.Ljpeg Verif.Spec Verif.Spec.Jpeg Verif.Crw
open Verif.Orf (ok_bind)

theorem holds_raster {w h : Nat} {f : Nat → Nat → Nat} {out : List Nat} (hl : out.length = w * h)
    (hk : ∀ k, k < w * h → out[k]? = some (f (k / w) (k % w))) : Holds out w h f := by
  refine ⟨by rw [hl, Nat.mul_comm], fun r c hr hc => ?_⟩
  have h1 := Verif.mul_add_lt hr hc
  rw [hk _ (by rw [Nat.mul_comm w h]; exact h1)]
  have e1 : (r * w + c) / w = r := by rw [Nat.mul_comm, Nat.mul_add_div (by omega), Nat.div_eq_of_lt hc, Nat.add_zero]
  have e2 : (r * w + c) % w = c := by rw [Nat.mul_comm, Nat.mul_add_mod, Nat.mod_eq_of_lt hc]
  rw [e1, e2]

theorem raster_lt {w h m : Nat} {px : Nat → Nat → Nat} (hw : 0 < w) (hpx : ∀ r c, r < h → c < w → px r c < m) (k : Nat) (hk : k < w * h) :
    Crw.raster w px k < m := hpx _ _ (Nat.div_lt_of_lt_mul hk) (Nat.mod_lt _ hw)

/-- A picture of 10 bits: the scan begins at byte 540 of the file. -/
theorem C71_crw10 (n w h : Nat) (px : Nat → Nat → Nat) (head words tail : List Nat) (pad : List Bool) (hn : n < 3) (hw : 0 < w) (h64 : w * h % 64 = 0)
    (hpx : ∀ r c, r < h → c < w → px r c < 1024) (hhead : head.length = 540) (hb : IsBytes words) (htail : IsBytes tail) (hend : ProperEnd tail)
    (hscan : bytesMSB words = Crw.scan n w h (Crw.raster w px) ++ pad) :
    ∃ out, decodeCompressed (head ++ (stuff words ++ tail)) false n w h = .ok out ∧ Holds out w h px := by
  have hr := PumpJPEG.rep_new (stuff words ++ tail) (fun b hm => by
    rcases List.mem_append.1 hm with hm | hm
    · exact isBytes_stuff hb b hm
    · exact htail b hm) ((properEnd_stuff words tail).2 hend)
  rw [unstuff_stuff, bytesMSB_append, hscan, List.append_assoc] at hr
  obtain ⟨out, e, l, hk⟩ := doDecode_ok (head ++ (stuff words ++ tail)) false n w h (Crw.raster w px) hn hw h64 (raster_lt hw hpx) (by simp)
    (by rw [List.length_append]; simp only [Bool.false_eq_true, if_false]; omega) _
    (by simp only [Bool.false_eq_true, if_false, Nat.add_zero]; rw [List.drop_left' hhead]; exact hr)
  refine ⟨out, ?_, holds_raster l (by simpa [Crw.raster] using hk)⟩
  unfold decodeCompressed
  rw [if_neg (by omega), e]

/-- A picture of 12 bits: the low bits begin at byte 26, the scan 514 bytes after them. -/
theorem C71_crw12 (n w h : Nat) (px : Nat → Nat → Nat) (head gap words tail : List Nat) (pad : List Bool) (hn : n < 3) (hw : 0 < w) (h64 : w * h % 64 = 0)
    (hpx : ∀ r c, r < h → c < w → px r c < 4096) (hhead : head.length = 26) (hgap : gap.length = 514) (hb : IsBytes words) (htail : IsBytes tail)
    (hend : ProperEnd tail) (hscan : bytesMSB words = Crw.scan n w h (fun k => Crw.raster w px k / 4) ++ pad) :
    ∃ out, decodeCompressed (head ++ (Crw.lows w h (Crw.raster w px) ++ (gap ++ (stuff words ++ tail)))) true n w h = .ok out ∧
      Holds out w h (fun r c => Crw.adjusted w (px r c)) := by
  have hll : (Crw.lows w h (Crw.raster w px)).length = w * h / 4 := by simp [Crw.lows]
  have hr := PumpJPEG.rep_new (stuff words ++ tail) (fun b hm => by
    rcases List.mem_append.1 hm with hm | hm
    · exact isBytes_stuff hb b hm
    · exact htail b hm) ((properEnd_stuff words tail).2 hend)
  rw [unstuff_stuff, bytesMSB_append, hscan, List.append_assoc] at hr
  obtain ⟨out, e, l, hk⟩ := doDecode_ok (head ++ (Crw.lows w h (Crw.raster w px) ++ (gap ++ (stuff words ++ tail)))) true n w h (Crw.raster w px) hn hw h64
    (raster_lt hw hpx) (by
      intro _ i hi
      rw [List.getElem?_append_right (by omega), hhead, Nat.add_sub_cancel_left, List.getElem?_append_left (by rw [hll]; exact hi), Crw.lows,
        List.getElem?_map, List.getElem?_range hi, Option.map_some])
    (by simp only [List.length_append, if_true]; omega) _
    (by
      simp only [if_true]
      rw [show head ++ (Crw.lows w h (Crw.raster w px) ++ (gap ++ (stuff words ++ tail))) = (head ++ Crw.lows w h (Crw.raster w px) ++ gap) ++ (stuff words ++ tail) by
        simp only [List.append_assoc], List.drop_left' (by simp only [List.length_append]; omega)]
      exact hr)
  refine ⟨out, ?_, holds_raster l (by simpa [Crw.raster] using hk)⟩
  unfold decodeCompressed
  rw [if_neg (by omega), e]

/-- The word for 255, which all tables for the first difference have: it stands for a difference of zero, as the word for 0. -/
theorem C71_word_255 (n : Nat) (hn : n < 3) (l : List Int) (hl : ∀ d ∈ l, catOf d ≤ 10) (hll : l.length = 63) (p : PumpJPEG) (rest : List Bool)
    (h : p.Rep (Crw.symbol (Crw.firstTable n) 255 ++ Crw.runs (Crw.otherTable n) 0 l ++ rest)) :
    ∃ f s t0 t1, idx firstTree n = .ok f ∧ idx secondTree n = .ok s ∧ createTable f = .ok t0 ∧ createTable s = .ok t1 ∧
      ∃ p', blockLoop t0 t1 64 0 (List.replicate 64 0) p = .ok (0 :: l, p') ∧ p'.Rep rest := by
  obtain ⟨f, s, t0, t1, a1, a2, a3, a4, hT⟩ := tables_ok n hn
  refine ⟨f, s, t0, t1, a1, a2, a3, a4, ?_⟩
  have hm : 255 ∈ (Crw.firstTable n).vals := by
    have : n = 0 ∨ n = 1 ∨ n = 2 := by omega
    rcases this with rfl | rfl | rfl <;> decide
  rw [List.append_assoc] at h
  obtain ⟨p1, e1, r1⟩ := hT.r0 p 255 _ hm h
  rw [blockLoop, if_pos (by omega), if_neg (by omega), e1, ok_bind]
  simp only
  rw [if_neg (by omega), if_pos trivial]
  exact runs_ok (t0 := t0) hT.r1 hT.f1 l 0 63 [0] p1 rest (by simp) (by simp; omega) (by simp) hl r1

/-- Every picture can be stored. -/
theorem C71_every_crw (n w h : Nat) (x : Nat → Nat) : ∃ words pad, IsBytes words ∧ bytesMSB words = Crw.scan n w h x ++ pad := by
  obtain ⟨pad, e, hb, _⟩ := CrxSpec.toBytes_spec _ (Crw.scan n w h x) (Nat.le_refl _)
  exact ⟨_, pad, hb, e⟩

/-! ## What is not decoded -/

theorem forN_keeps {σ : Type} (n : Nat) (f : Nat → σ → R σ) (I : σ → Prop) (hf : ∀ i s s', i < n → I s → f i s = .ok s' → I s') (s s' : σ) (h0 : I s)
    (h : forN n f s = .ok s') : I s' := by
  induction n generalizing s' with
  | zero => cases h; exact h0
  | succ n ih =>
    rw [forN_succ] at h
    cases e : forN n f s with
    | error x => rw [e] at h; simp [bind, Except.bind] at h
    | ok s1 =>
      rw [e] at h
      exact hf n s1 s' (by omega) (ih (fun i s s' hi => hf i s s' (by omega)) s1 e) h

theorem bind_ok {α β : Type} {a : R α} {f : α → R β} {b : β} (h : (a >>= f) = .ok b) : ∃ x, a = .ok x ∧ f x = .ok b := by
  cases a with
  | error e => simp [bind, Except.bind] at h
  | ok x => exact ⟨x, rfl, h⟩

/-- Samples after the last whole block of 64 are left at zero. -/
theorem C71_last_samples_zero (file : List Nat) (n w h : Nat) (out : List Nat) (hres : doDecode file false n w h = .ok out) (k : Nat)
    (hk : w * h / 64 * 64 ≤ k) (hk2 : k < w * h) : out[k]? = some 0 := by
  unfold doDecode at hres
  obtain ⟨f, _, hres⟩ := bind_ok hres
  obtain ⟨s, _, hres⟩ := bind_ok hres
  obtain ⟨t0, _, hres⟩ := bind_ok hres
  obtain ⟨t1, _, hres⟩ := bind_ok hres
  simp only [Bool.false_eq_true, if_false] at hres
  split at hres
  · cases hres
  · obtain ⟨st, e, hres⟩ := bind_ok hres
    cases hres
    rw [List.length_replicate] at e
    refine forN_keeps _ _ (fun st => st.out[k]? = some 0) ?_ _ _ (by simp [hk2]) e
    intro b st st' hb h0 hs
    unfold block at hs
    obtain ⟨⟨ds, p⟩, _, hs⟩ := bind_ok hs
    simp only at hs
    obtain ⟨d0, _, hs⟩ := bind_ok hs
    obtain ⟨d, _, hs⟩ := bind_ok hs
    refine forN_keeps _ _ (fun st => st.out[k]? = some 0) ?_ _ _ h0 hs
    intro i st st' hi h0 hs
    unfold savePixel at hs
    split at hs
    · cases hs
    · simp only at hs
      obtain ⟨d, _, hs⟩ := bind_ok hs
      obtain ⟨v, _, hs⟩ := bind_ok hs
      obtain ⟨o, ho, hs⟩ := bind_ok hs
      cases hs
      simp only
      unfold upd at ho
      split at ho
      · cases ho
        rw [List.getElem?_set_ne (by omega)]
        exact h0
      · cases ho

/-- A table number above 2 is refused, and so is a file that ends before the scan. -/
theorem C71_refused (file : List Nat) (low : Bool) (n w h : Nat) (hbad : 2 < n ∨ (n < 3 ∧ file.length < 540 + (if low then w * h / 4 else 0))) :
    decodeCompressed file low n w h = fail' := by
  unfold decodeCompressed
  rcases hbad with hb | ⟨hn, hb⟩
  · rw [if_pos hb]
  · rw [if_neg (by omega)]
    obtain ⟨f, s, t0, t1, a1, a2, a3, a4, _⟩ := tables_ok n hn
    have hoff : 540 + (if low then 1 else 0) * h * w / 4 = 540 + if low then w * h / 4 else 0 := by
      cases low
      · simp
      · simp [Nat.mul_comm]
    unfold doDecode
    rw [a1, ok_bind, a2, ok_bind, a3, ok_bind, a4, ok_bind]
    simp only
    rw [hoff, if_pos (by omega)]

/-! ## Examples -/

/-- A PowerShot G1 sized picture with 10 bits, and an EOS D30 sized one with 12 bits. -/
example : ∃ file out, decodeCompressed file false 0 2144 1560 = .ok out ∧ Holds out 2144 1560 (fun r c => (r * 31 + c * c) % 1024) := by
  obtain ⟨words, pad, hb, e⟩ := C71_every_crw 0 2144 1560 (Crw.raster 2144 fun r c => (r * 31 + c * c) % 1024)
  obtain ⟨out, h⟩ := C71_crw10 0 2144 1560 (fun r c => (r * 31 + c * c) % 1024) (List.replicate 540 0) words [] pad (by decide) (by decide) (by decide)
    (fun r c _ _ => Nat.mod_lt _ (by decide)) (List.length_replicate ..) hb (by simp [IsBytes]) (by simp [ProperEnd]) e
  exact ⟨_, out, h⟩

example : ∃ file out, decodeCompressed file true 2 2176 1448 = .ok out ∧ Holds out 2176 1448 (fun r c => (r * 31 + c * c) % 4096) := by
  obtain ⟨words, pad, hb, e⟩ := C71_every_crw 2 2176 1448 (fun k => Crw.raster 2176 (fun r c => (r * 31 + c * c) % 4096) k / 4)
  obtain ⟨out, h⟩ := C71_crw12 2 2176 1448 (fun r c => (r * 31 + c * c) % 4096) (List.replicate 26 0) (List.replicate 514 0) words [] pad (by decide) (by decide)
    (by decide) (fun r c _ _ => Nat.mod_lt _ (by decide)) (List.length_replicate ..) (List.length_replicate ..) hb (by simp [IsBytes]) (by simp [ProperEnd]) e
  exact ⟨_, out, h⟩

/-- The words of a block whose differences are 0, 3, 63 - 2 zeros. -/
example : Crw.blockBits 0 0 (3 :: List.replicate 62 0) =
    Crw.symbol (Crw.firstTable 0) 0 ++ (Crw.symbol (Crw.otherTable 0) 2 ++ [true, true] ++ Crw.symbol (Crw.otherTable 0) 0) := by decide +kernel

example : decodeCompressed (List.replicate 600 0) true 1 64 10 = fail' := C71_refused _ _ _ _ _ (Or.inr ⟨by decide, by rw [List.length_replicate]; decide⟩)

end Verif.Props
