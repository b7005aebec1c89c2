import Verif.Proofs.Small
/-! # C92: ARRI, Epson, Mamiya, Kodak DCS and headerless pictures -/

namespace Verif.Props
open Verif Verif.Spec Verif.Packed Verif.Kdc Verif.Small

/-- The white balance of an ARRI file -/
def ariFactors (file : List Nat) : Nat × Nat × Nat := (Spec.Small.num32 file 100, Spec.Small.num32 file 104, Spec.Small.num32 file 108)

theorem ariWb_ok (file : List Nat) (hl : 112 ≤ file.length) : ariWb file = .ok (ariFactors file) := by
  rw [ariWb, Small.subview, if_pos (by omega)]
  simp only [bind, Except.bind]
  rw [le32_sub file 0 (100 + 12) 100 (by omega) (by omega), le32_sub file 0 (100 + 12) 104 (by omega) (by omega),
    le32_sub file 0 (100 + 12) 108 (by omega) (by omega)]
  rfl

theorem ariImage_eq (le : Bool) (file : List Nat) (hl : 100 ≤ file.length) :
    ariImage le file = (do
      let src ← untilEofPadded file (Spec.Small.num32 file 8)
      let image ← if le then dec12le src (Spec.Small.num32 file 20) (Spec.Small.num32 file 24)
        else dec12beMsb32 src (Spec.Small.num32 file 20) (Spec.Small.num32 file 24)
      let wb ← ariWb file
      .ok (⟨Spec.Small.num32 file 20, Spec.Small.num32 file 24, image⟩, wb)) := by
  rw [ariImage, Small.subview, if_pos (by omega)]
  simp only [bind, Except.bind]
  rw [le32_sub file 0 100 8 (by omega) (by omega)]
  simp only []
  rw [le32_sub file 0 100 20 (by omega) (by omega)]
  simp only []
  rw [le32_sub file 0 100 24 (by omega) (by omega)]

/-- **C92, ARRI, least significant bit first.** The header gives the place of the data, the size of the picture and the white balance. Every sample has the
12 bits that are stored for it. Up to 16 bytes that are missing at the end of the file are taken as zeros; with fewer bytes there is an error. -/
theorem C92_ari_le_partial (file : List Nat) (hb : IsBytes file) (hl : 112 ≤ file.length) (off w h : Nat) (ho : Spec.Small.num32 file 8 = off)
    (hw : Spec.Small.num32 file 20 = w) (hh : Spec.Small.num32 file 24 = h) (hoff : off < file.length) (h0 : 0 < w) (h2 : w % 2 = 0) :
    if h * w * 12 / 8 ≤ file.length - off + 16 then ∃ img, ariImage true file = .ok (⟨w, h, img⟩, ariFactors file) ∧
      Holds img w h (fun r c => fieldLSB 12 (Spec.Small.bytes file off (h * w * 12 / 8)) (r * w + c))
    else ariImage true file = fail' := by
  have := ari_le file hb off w h h0 h2
  rw [ariImage_eq true file (by omega), ho, hw, hh, untilEofPadded, if_pos hoff, ariWb_ok file hl]
  simp only [bind, Except.bind, if_true]
  split
  · rename_i hc
    rw [if_pos hc] at this
    obtain ⟨img, h1, h2⟩ := this
    exact ⟨img, by rw [h1], h2⟩
  · rename_i hc
    rw [if_neg hc] at this
    rw [this]

/-- **C92, ARRI, words of 32 bits.** The same for data in words whose most significant bits come first. -/
theorem C92_ari_be_partial (file : List Nat) (hb : IsBytes file) (hl : 112 ≤ file.length) (off w h : Nat) (ho : Spec.Small.num32 file 8 = off)
    (hw : Spec.Small.num32 file 20 = w) (hh : Spec.Small.num32 file 24 = h) (hoff : off < file.length) (h2 : w * h % 8 = 0) :
    if h * w * 12 / 8 ≤ file.length - off + 16 then ∃ img, ariImage false file = .ok (⟨w, h, img⟩, ariFactors file) ∧
      Holds img w h (fun r c => fieldMSB 12 (swapWords (Spec.Small.bytes file off (h * w * 12 / 8))) (r * w + c))
    else ariImage false file = fail' := by
  have := ari_be file hb off w h h2
  rw [ariImage_eq false file (by omega), ho, hw, hh, untilEofPadded, if_pos hoff, ariWb_ok file hl]
  simp only [bind, Except.bind, Bool.false_eq_true, if_false]
  split
  · rename_i hc
    rw [if_pos hc] at this
    obtain ⟨img, h1, h2⟩ := this
    exact ⟨img, by rw [h1], h2⟩
  · rename_i hc
    rw [if_neg hc] at this
    rw [this]

/-- An ARRI file with a picture of 8 by 1 samples -/
def ariFile (n : Nat) : List Nat := [65, 82, 82, 73, 0, 0, 0, 0, 112, 0, 0, 0] ++ List.replicate 8 0 ++ [8, 0, 0, 0, 1, 0, 0, 0] ++ List.replicate 72 0 ++
  [1, 0, 0, 0, 2, 0, 0, 0, 0, 1, 0, 0] ++ (List.range 12).take n

example : (Spec.Small.num32 (ariFile 12) 8, Spec.Small.num32 (ariFile 12) 20, Spec.Small.num32 (ariFile 12) 24) = (112, 8, 1) := by decide +kernel
example : ariImage true (ariFile 12) = .ok (⟨8, 1, [0x100, 0x020, 0x403, 0x050, 0x706, 0x080, 0xa09, 0x0b0]⟩, (1, 2, 256)) := by decide +kernel
example : ariImage false (ariFile 12) = .ok (⟨8, 1, [0x030, 0x201, 0x000, 0x706, 0x050, 0x40b, 0x0a0, 0x908]⟩, (1, 2, 256)) := by decide +kernel

/-- For a file that has all the data these are the bytes of the file. -/
theorem C92_complete_data (file : List Nat) (off n : Nat) (h : n ≤ file.length - off) : Spec.Small.bytes file off n = (file.drop off).take n :=
  bytes_complete file off n h

/-- A file that lacks the last bytes is accepted: the samples that are not there are 0. -/
theorem C92_truncated_accepted : ∃ img wb, ariImage true (ariFile 3) = .ok (⟨8, 1, img⟩, wb) ∧ img.drop 2 = [0, 0, 0, 0, 0, 0] :=
  ⟨[0x100, 0x020, 0, 0, 0, 0, 0, 0], (1, 2, 256), by decide +kernel, rfl⟩

/-- A header that is not complete, or data that begin at the end of the file or later, give an error. -/
theorem C92_ari_errors (le : Bool) (file : List Nat) (h : file.length < 100 ∨ (112 ≤ file.length ∧ file.length ≤ Spec.Small.num32 file 8)) : ariImage le file = fail' := by
  rcases h with h | ⟨h, ho⟩
  · rw [ariImage, Small.subview, if_neg (by omega)]; rfl
  · rw [ariImage_eq le file (by omega), untilEofPadded, if_neg (by omega)]; rfl

/-- A picture of width 0 aborts (least significant bit first). -/
theorem C92_ari_zero_width_aborts (file : List Nat) (hl : 112 ≤ file.length) (hw : Spec.Small.num32 file 20 = 0) (hoff : Spec.Small.num32 file 8 < file.length) :
    ariImage true file = panic' := by
  rw [ariImage_eq true file (by omega), hw, untilEofPadded, if_pos hoff]
  simp only [bind, Except.bind, if_true]
  rw [dec12le, rowsAt, if_neg (by simp), linesFn, if_pos rfl]

/-- **C92, ARRI model.** The name of the model is the text at byte 668. -/
theorem C92_ari_model (file : List Nat) : ariModel file = if 698 ≤ file.length then .ok (Spec.Small.text file 668 30) else fail' := by
  rw [ariModel, Small.subview]
  split <;> rfl

/-- **C92, ARRI metadata.** -/
theorem C92_ari_metadata (file : List Nat) (hl : 2712 ≤ file.length) :
    ariMeta file = .ok ⟨Spec.Small.num32 file 116, Spec.Small.num32 file 396, Spec.Small.num32 file 892, Spec.Small.text file 920 32⟩ := by
  rw [ariMeta, Small.subview, if_pos (by omega)]
  simp only [bind, Except.bind]
  rw [le32_sub file 0 2712 116 (by omega) (by omega)]
  simp only []
  rw [slice, if_pos (by rw [List.length_take, List.length_drop]; omega)]
  simp only []
  rw [le32_sub file 0 2712 396 (by omega) (by omega)]
  simp only []
  rw [le32_sub file 0 2712 892 (by omega) (by omega)]
  simp only [Spec.Small.text, List.drop_zero, Nat.zero_add, List.drop_take, List.take_take]
  rfl

/-- Shorter files give an error. -/
theorem C92_ari_metadata_short (file : List Nat) (hl : file.length < 2712) : ariMeta file = fail' := by
  rw [ariMeta, Small.subview, if_neg (by omega)]; rfl

/-- **C92, Mamiya.** Every sample has the 12 bits that are stored for it, most significant bit first. If there are not enough data, there is an error. -/
theorem C92_mef_partial (file : List Nat) (hb : IsBytes file) (off w h : Nat) (ws hs os : List Nat) (hoff : off ≤ file.length) (h0 : 0 < w) (h2 : w % 2 = 0) :
    if h * w * 12 ≤ 8 * (file.length - off) then ∃ img, mefImage file (some ⟨some (w :: ws), some (h :: hs), some (off :: os)⟩) = .ok ⟨w, h, img⟩ ∧
      Holds img w h (fun r c => fieldMSB 12 (file.drop off) (r * w + c))
    else mefImage file (some ⟨some (w :: ws), some (h :: hs), some (off :: os)⟩) = fail' := by
  have := C13_12be (file.drop off) (fun b hm => hb b (List.mem_of_mem_drop hm)) w h h0 h2
  rw [List.length_drop] at this
  have e : mefImage file (some ⟨some (w :: ws), some (h :: hs), some (off :: os)⟩) = (do
      let image ← dec12be (file.drop off) w h
      .ok ⟨w, h, image⟩) := by
    rw [mefImage]
    simp only [fetch, bind, Except.bind, Kdc.force, List.getD_cons_zero, untilEof, if_pos hoff]
  rw [e]
  split
  · rename_i hc
    rw [if_pos hc] at this
    obtain ⟨img, h1, h2⟩ := this
    exact ⟨img, by rw [h1]; rfl, h2⟩
  · rename_i hc
    rw [if_neg hc] at this
    rw [this]; rfl

example : mefImage [9, 0x12, 0x34, 0x56, 0x78, 0x9a, 0xbc] (some ⟨some [2], some [2], some [1]⟩) = .ok ⟨2, 2, [0x123, 0x456, 0x789, 0xabc]⟩ := by decide +kernel

/-- Without the directory or one of the tags, or with data beyond the end of the file, there is an error. -/
theorem C92_mef_errors (file : List Nat) (dir : Option Dir)
    (h : ∀ d, dir = some d → d.width = none ∨ d.length = none ∨ d.stripOffsets = none ∨ ∃ o l, d.stripOffsets = some (o :: l) ∧ file.length < o) :
    mefImage file dir = fail' := by
  cases dir with
  | none => rfl
  | some d =>
    obtain ⟨dw, dl, ds⟩ := d
    cases dw with
    | none => rfl
    | some a =>
      cases dl with
      | none => rfl
      | some b =>
        cases ds with
        | none => rfl
        | some c =>
          rcases h _ rfl with h | h | h | ⟨o, l, e, h⟩
          · cases h
          · cases h
          · cases h
          · cases e
            rw [mefImage]
            simp only [fetch, bind, Except.bind, Kdc.force, List.getD_cons_zero, untilEof]
            rw [if_neg (by omega)]

/-- The factors of red and blue of an Epson file with these 256 bytes -/
theorem C92_erf_wb (d : List Nat) (hl : d.length = 256) :
    erfWb (some (.bytes d)) = .ok (((d.getD 48 0 * 256 + d.getD 49 0 : Nat) : Rat) * 508 * (1078 / 1000) / 65536,
      ((d.getD 50 0 * 256 + d.getD 51 0 : Nat) : Rat) * 382 * (1173 / 1000) / 65536) := by
  rw [erfWb]
  simp only [fetch, bind, Except.bind, Entry.count, Entry.data, hl, ne_eq, not_true_eq_false, if_false]
  rw [Kdc.be16, Kdc.be16, idx_getD d 48 (by omega), idx_getD d (48 + 1) (by omega), idx_getD d 50 (by omega), idx_getD d (50 + 1) (by omega)]
  rfl

/-- **C92, Epson.** Every sample has the 12 bits that are stored for it; a control byte after each ten samples is left out. -/
theorem C92_erf_partial (file : List Nat) (hb : IsBytes file) (off w h : Nat) (ws hs os : List Nat) (hoff : off ≤ file.length) (h0 : 0 < w) (h2 : w % 10 = 0)
    (black : Option (List Nat)) (e : Option Entry) (wb : Rat × Rat) (hwb : erfWb e = .ok wb) :
    if h * (w / 10 * 16) ≤ file.length - off then
      ∃ img, erfImage file (some ⟨some (w :: ws), some (h :: hs), some (off :: os)⟩) black e =
        .ok (⟨w, h, img⟩, black.map (fun l => [l.getD 0 0, l.getD 1 0, l.getD 2 0, l.getD 3 0]), wb) ∧
      Holds img w h (fun r c => fieldMSB 12 (dropControl (file.drop off)) (r * w + c))
    else erfImage file (some ⟨some (w :: ws), some (h :: hs), some (off :: os)⟩) black e = fail' := by
  have e : erfImage file (some ⟨some (w :: ws), some (h :: hs), some (off :: os)⟩) black e = (do
      let image ← dec12beWcontrol (file.drop off) w h
      .ok (⟨w, h, image⟩, black.map (fun l => [l.getD 0 0, l.getD 1 0, l.getD 2 0, l.getD 3 0]), wb)) := by
    rw [erfImage]
    simp only [fetch, bind, Except.bind, Kdc.force, List.getD_cons_zero, untilEof, if_pos hoff, hwb]
    rfl
  rw [e]
  split
  · rename_i hc
    obtain ⟨img, h1, h2⟩ := C13_12be_wcontrol (file.drop off) (fun b hm => hb b (List.mem_of_mem_drop hm)) w h h0 h2 (by rw [List.length_drop]; exact hc)
    exact ⟨img, by rw [h1]; rfl, h2⟩
  · rename_i hc
    have : w * 12 / 8 + (w + 2) / 10 = w / 10 * 16 := by omega
    rw [dec12beWcontrol, rowsAt, this, if_pos (by rw [List.length_drop]; omega)]; rfl

/-- The white balance of Epson: other counts are an error, 256 values that are not bytes abort. -/
theorem C92_erf_wb_errors : erfWb none = fail' ∧ (∀ e, e.count ≠ 256 → erfWb (some e) = fail') ∧ erfWb (some (.other 256)) = panic' := by
  refine ⟨rfl, fun e h => ?_, rfl⟩
  rw [erfWb]
  simp only [fetch, bind, Except.bind]
  rw [if_pos h]

example : (erfImage (5 :: List.range 16) (some ⟨some [10], some [1], some [1]⟩) (some [1, 2, 3, 4]) (some (.bytes (List.replicate 256 1)))).map (fun x => x.1.data) =
    .ok [0x000, 0x102, 0x030, 0x405, 0x060, 0x708, 0x090, 0xa0b, 0x0c0, 0xd0e] := by decide +kernel

/-- **C92, Kodak DCS.** Each byte selects an entry of the table in the file; the sample is that entry up to the dither. -/
theorem C92_dcs_partial (file : List Nat) (hb : IsBytes file) (off w h : Nat) (ws hs os : List Nat) (hoff : off < file.length) (h4 : 4 ≤ w)
    (gray : List Nat) (hg : Gentle ((List.range 256).map fun i => gray.getD i 0 % 65536)) :
    if h * w ≤ file.length - off + 16 then ∃ img, dcsImage file (some ⟨some (w :: ws), some (h :: hs), some (off :: os)⟩) (some gray) = .ok ⟨w, h, img⟩ ∧
      img.length = h * w ∧ ∀ r c, r < h → c < w →
        Near ((List.range 256).map fun i => gray.getD i 0 % 65536) ((Spec.Small.bytes file off (h * w)).getD (r * w + c) 0) (img.getD (r * w + c) 0)
    else dcsImage file (some ⟨some (w :: ws), some (h :: hs), some (off :: os)⟩) (some gray) = fail' := by
  have hlen : (dcsTable gray).length = 256 := by rw [dcsTable, List.length_map, List.length_range]
  have ht := newWithBits_ok _ hg 8
  have hnew : Linearize.newWithBits (dcsTable gray) 8 = Linearize.new (dcsTable gray) := by
    rw [Linearize.newWithBits]
    cases hl : (dcsTable gray).getLast? with
    | none => rw [List.getLast?_eq_none_iff.mp hl] at hlen; cases hlen
    | some x => simp only []; rw [if_pos (by rw [hlen])]
  obtain ⟨tbl, ht⟩ : ∃ tbl, Linearize.newWithBits (dcsTable gray) 8 = .ok tbl := ⟨_, ht⟩
  have e : dcsImage file (some ⟨some (w :: ws), some (h :: hs), some (off :: os)⟩) (some gray) = (do
      let image ← Linearize.decompress8bitWtable (file.drop off ++ List.replicate 16 0) tbl w h
      .ok ⟨w, h, image⟩) := by
    rw [dcsImage]
    simp only [fetch, bind, Except.bind, Kdc.force, List.getD_cons_zero, untilEofPadded, if_pos hoff]
    rw [← hnew, ht]
  rw [e]
  split
  · rename_i hc
    obtain ⟨out, h1, h2, h3⟩ := C16_8bit_table_partial _ hg w h h4 (file.drop off ++ List.replicate 16 0) (padded_bytes file hb off)
      (by rw [padded_length]; exact hc) tbl ht
    refine ⟨out, by rw [h1]; rfl, h2, fun r c hr hc' => ?_⟩
    have := h3 r c hr hc'
    obtain ⟨rest, e2, el⟩ := padded_split file off _ hc
    rw [e2, List.getD_eq_getElem?_getD, List.getElem?_append_left (by rw [el]; exact Verif.mul_add_lt hr hc'), ← List.getD_eq_getElem?_getD] at this
    exact this
  · rename_i hc
    rw [Linearize.decompress8bitWtable, if_pos (by rw [padded_length]; omega)]; rfl

/-- A table of 256 values that rise slowly -/
def dcsGray : List Nat := List.replicate 256 700

example : dcsImage (7 :: [1, 2, 3, 4]) (some ⟨some [4], some [1], some [1]⟩) (some dcsGray) = .ok ⟨4, 1, [700, 700, 700, 700]⟩ := by decide +kernel
example : Gentle ((List.range 256).map fun i => dcsGray.getD i 0 % 65536) := gentle_of_check _ (by decide +kernel) (by decide +kernel) (by decide +kernel)

/-- Errors of Kodak DCS: a directory or tag that is missing, no table, or data that begin at the end of the file or later -/
theorem C92_dcs_errors (file : List Nat) (dir : Option Dir) (gray : Option (List Nat))
    (h : gray = none ∨ ∀ d, dir = some d → d.width = none ∨ d.length = none ∨ d.stripOffsets = none ∨ ∃ o l, d.stripOffsets = some (o :: l) ∧ file.length ≤ o) :
    dcsImage file dir gray = fail' := by
  cases dir with
  | none => rfl
  | some d =>
    obtain ⟨dw, dl, ds⟩ := d
    cases dw with
    | none => rfl
    | some a =>
      cases dl with
      | none => rfl
      | some b =>
        cases ds with
        | none => rfl
        | some c =>
          rcases h with h | h
          · subst h
            rw [dcsImage]
            simp only [fetch, bind, Except.bind, untilEofPadded]
            split <;> rename_i hx
            · split at hx
              · cases hx
              · cases hx; rfl
            · rfl
          · rcases h _ rfl with h | h | h | ⟨o, l, e, h⟩
            · cases h
            · cases h
            · cases h
            · cases e
              rw [dcsImage]
              simp only [fetch, bind, Except.bind, Kdc.force, List.getD_cons_zero, untilEofPadded]
              rw [if_neg (by omega)]

/-- A table whose values fall aborts. -/
theorem C92_dcs_falling_table_aborts : dcsImage [0] (some ⟨some [4], some [1], some [0]⟩) (some [5, 1]) = panic' := by decide +kernel

/-- Pictures of width 0 abort. -/
theorem C92_zero_width_aborts (file : List Nat) (off h : Nat) (hoff : off ≤ file.length) (black : Option (List Nat)) (e : Option Entry) :
    mefImage file (some ⟨some [0], some [h], some [off]⟩) = panic' ∧ erfImage file (some ⟨some [0], some [h], some [off]⟩) black e = panic' := by
  constructor
  · rw [mefImage]
    simp only [fetch, bind, Except.bind, Kdc.force, List.getD_cons_zero, untilEof, if_pos hoff]
    rfl
  · rw [erfImage]
    simp only [fetch, bind, Except.bind, Kdc.force, List.getD_cons_zero, untilEof, if_pos hoff]
    rw [dec12beWcontrol, rowsAt, if_neg (by simp), linesFn, if_pos rfl]

/-- **C92, files without a header.** The size of the file in the camera description gives the number of bits of a sample: 10 or 12, in words of 16 bits. -/
theorem C92_naked_partial (file : List Nat) (hb : IsBytes file) (w h size : Nat) (h0 : 0 < w) (h1 : 0 < h) (h8 : w % 8 = 0) (bits : Nat)
    (hbits : size * 8 / w / h = bits) :
    if bits = 10 ∨ bits = 12 then
      if h * w * bits ≤ 8 * file.length then ∃ img, nakedImage file w h size false = .ok ⟨w, h, img⟩ ∧
        Holds img w h (fun r c => fieldMSB bits (swapPairs file) (r * w + c))
      else nakedImage file w h size false = fail'
    else nakedImage file w h size false = fail' := by
  have hz : ¬ (w = 0 ∨ h = 0) := by omega
  rw [nakedImage, if_neg hz]
  simp only [hbits, Bool.false_eq_true, if_false, bind, Except.bind]
  split
  · rename_i hc
    rcases hc with rfl | rfl
    · rw [if_pos rfl]
      split
      · rename_i hl
        obtain ⟨img, e1, e2⟩ := C13_10le_lsb16 file hb w h h0 h8 hl
        exact ⟨img, by rw [e1], e2⟩
      · rename_i hl
        rw [dec10leLsb16, rowsAt, if_pos (by omega)]
    · simp only [if_neg (by decide : ¬ (12 = 10)), if_true]
      split
      · rename_i hl
        have h4 : w * h % 4 = 0 := by
          obtain ⟨q, rfl⟩ : ∃ q, w = 4 * (2 * q) := ⟨w / 8, by omega⟩
          rw [Nat.mul_assoc]; omega
        obtain ⟨img, e1, e2⟩ := C13_12be_msb16 file hb w h h4 hl
        exact ⟨img, by rw [e1], e2⟩
      · rename_i hl
        rw [dec12beMsb16, wholeImage, if_pos (by omega)]
  · rename_i hc
    rw [if_neg (fun e => hc (Or.inl e)), if_neg (fun e => hc (Or.inr e))]

/-- The number of bits that belongs to a file that is just as long as its samples -/
theorem C92_naked_bits (w h n : Nat) (h0 : 0 < w) (h1 : 0 < h) (size : Nat) (hs : size * 8 = w * h * n) : size * 8 / w / h = n := by
  rw [hs, Nat.mul_assoc, Nat.mul_div_cancel_left _ h0, Nat.mul_div_cancel_left _ h1]

/-- **C92, rows of whole words.** With the hint the rows begin at even places and the samples have 12 bits, whatever the size of the file. -/
theorem C92_naked_aligned_partial (file : List Nat) (hb : IsBytes file) (w h size : Nat) (h0 : 0 < w) (h1 : 0 < h) (h2 : w % 2 = 0)
    (hlen : h * ((w * 12 / 8 + 1) / 2 * 2) ≤ file.length) :
    ∃ img, nakedImage file w h size true = .ok ⟨w, h, img⟩ ∧ Holds img w h (fun r c => fieldMSB 12 (file.drop (r * ((w * 12 / 8 + 1) / 2 * 2))) c) := by
  obtain ⟨img, e1, e2⟩ := C13_12le_16bitaligned file hb w h h0 h2 hlen
  refine ⟨img, ?_, e2⟩
  rw [nakedImage, if_neg (by omega)]
  simp only [if_true, bind, Except.bind, e1]

/-- A camera description without a size aborts. -/
theorem C92_naked_no_size_aborts (file : List Nat) (w h size : Nat) (a : Bool) (hz : w = 0 ∨ h = 0) : nakedImage file w h size a = panic' := by
  rw [nakedImage, if_pos hz]

example : nakedImage [1, 0, 3, 2, 5, 4, 7, 6, 9, 8] 8 1 10 false = .ok ⟨8, 1, [0, 16, 128, 772, 20, 96, 450, 9]⟩ := by decide +kernel
example : nakedImage [1, 0, 3, 2, 5, 4] 4 1 6 false = .ok ⟨4, 1, [0, 258, 48, 1029]⟩ := by decide +kernel
example : nakedImage [0x12, 0x34, 0x56, 0xff, 0x78, 0x9a, 0xbc, 0xff] 2 2 1 true = .ok ⟨2, 2, [0x123, 0x456, 0x789, 0xabc]⟩ := by decide +kernel

end Verif.Props
