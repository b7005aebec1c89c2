import Verif.Props.Packed
/-! # C14: row-parallel and whole-strip decoding agree -/

namespace Verif.Props
open Verif Verif.Pumps Verif.Spec Verif.Packed

/-- A decompressor that computes each line from the data and the line's number alone. -/
structure RowWise (D : Dec) (src : List Nat) (w : Nat) (nd : Nat → Nat) (G : Nat → List Nat → List Nat) : Prop where
  mono : ∀ a b, a ≤ b → nd a ≤ nd b
  zero : nd 0 ≤ src.length
  eq : ∀ skip lines, (∀ l ∈ lines, l.length = w) → D src skip lines w =
    if src.length < nd (skip + lines.length) then fail' else .ok (lines.zipIdx.map fun p => G (skip + p.2) p.1)

theorem need_mono (w n a b : Nat) (h : a ≤ b) : need a w n ≤ need b w n := by
  have : a * w * n ≤ b * w * n := Nat.mul_le_mul_right _ (Nat.mul_le_mul_right _ h)
  rw [need, need]; omega

theorem unpackRows_eq (k m : Nat) (f : List Nat → List Nat) (off : Nat → Nat) (src : List Nat) (skip : Nat) (lines : List (List Nat))
    (h : ∀ r, r < skip + lines.length → off r ≤ src.length) :
    unpackRows k m f off src skip lines = .ok (lines.zipIdx.map fun p => unpackLine k m f p.1 (src.drop (off (skip + p.2)))) := by
  rw [unpackRows]
  refine mapM_ok_of _ _ _ ?_
  rintro ⟨l, r⟩ hr
  have hr' := List.snd_lt_add_of_mem_zipIdx hr
  simp only [] at hr' ⊢
  rw [from', if_pos (h _ (by omega))]
  rfl

theorem rowWise_rows (D : Dec) (src : List Nat) (w n k m : Nat) (f : List Nat → List Nat) (off : Nat → Nat)
    (hoff : ∀ r, off r ≤ need r w n)
    (hD : ∀ skip lines, D src skip lines w =
      if src.length < need (skip + lines.length) w n then fail' else unpackRows k m f off src skip lines) :
    RowWise D src w (fun r => need r w n) (fun r l => unpackLine k m f l (src.drop (off r))) where
  mono := need_mono w n
  zero := by simp [need]
  eq skip lines _ := by
    rw [hD]
    by_cases h : src.length < need (skip + lines.length) w n
    · rw [if_pos h, if_pos h]
    · rw [if_neg h, if_neg h, unpackRows_eq]
      intro r hr
      have := need_mono w n r _ (Nat.le_of_lt hr)
      have := hoff r
      omega

/-- Sample sizes and widths for which rows start on a byte boundary or are addressed by the byte. -/
def RowAligned (n w : Nat) : Prop := n = 8 ∨ n = 10 ∨ n = 12 ∨ n = 16 ∨ w * n % 8 = 0

instance (n w : Nat) : Decidable (RowAligned n w) := by unfold RowAligned; infer_instance

theorem zipIdx_map_const {α : Type} (l : List (List Nat)) (s : Nat) (g : Nat → α) :
    (l.zipIdx).map (fun p => g (s + p.2)) = (List.range l.length).map fun r => g (s + r) := by
  apply List.ext_getElem?
  intro i
  rw [List.getElem?_map, List.getElem?_zipIdx, List.getElem?_map]
  by_cases h : i < l.length
  · rw [List.getElem?_eq_getElem h, List.getElem?_range h]; simp
  · rw [List.getElem?_eq_none (by omega), List.getElem?_eq_none (by simp; omega)]; rfl

theorem rowWise_packed (e : Endian) (n : Nat) (hn : 1 ≤ n ∧ n ≤ 16) (src : List Nat) (hb : IsBytes src) (w : Nat) (ha : RowAligned n w) :
    ∃ nd G, RowWise (decompress e n) src w nd G := by
  by_cases h16 : n = 16
  · subst h16
    cases e with
    | big => exact ⟨_, _, rowWise_rows _ src w 16 1 2 g16be (fun r => r * w * 2) (fun r => by rw [need]; omega) (fun skip lines => rfl)⟩
    | little => exact ⟨_, _, rowWise_rows _ src w 16 1 2 g16le (fun r => r * w * 2) (fun r => by rw [need]; omega) (fun skip lines => rfl)⟩
  by_cases h12 : n = 12
  · subst h12
    exact ⟨_, _, rowWise_rows _ src w 12 2 3 g12be (fun r => r * w * 12 / 8) (fun r => by rw [need]; omega) (fun skip lines => rfl)⟩
  by_cases h10 : n = 10
  · subst h10
    exact ⟨_, _, rowWise_rows _ src w 10 4 5 g10be (fun r => r * w * 10 / 8) (fun r => by rw [need]; omega) (fun skip lines => rfl)⟩
  by_cases h8 : n = 8
  · subst h8
    exact ⟨_, _, rowWise_rows _ src w 8 1 1 g8 (fun r => r * w) (fun r => by rw [need]; omega) (fun skip lines => rfl)⟩
  refine ⟨fun r => need r w n, fun r _ => (List.range w).map fun i => natMSB (((bytesMSB src).drop ((r * w + i) * n)).take n),
    need_mono w n, by simp [need], ?_⟩
  intro skip lines hl
  have hal : w * n % 8 = 0 := by rcases ha with h | h | h | h | h <;> omega
  rw [decompress.eq_def, if_neg h16, if_neg h12, if_neg h10, if_neg h8, if_pos (by omega)]
  by_cases h : src.length < need (skip + lines.length) w n
  · rw [unpackGeneric, if_pos h, if_pos h]
  · rw [if_neg h, unpackGeneric_ok src hb skip lines w hn.2 hl (by omega) (by rw [Nat.mul_assoc, Nat.mul_mod, hal]; simp),
      zipIdx_map_const lines skip (fun r => (List.range w).map fun i => natMSB (((bytesMSB src).drop ((r * w + i) * n)).take n))]

theorem mapM_fail {α β : Type} (F : β → R α) (l : List β) (h : ∀ x ∈ l, F x = fail' ∨ ∃ y, F x = .ok y) (hx : ∃ x ∈ l, F x = fail') :
    l.mapM F = fail' := by
  induction l with
  | nil => obtain ⟨x, hx, _⟩ := hx; simp at hx
  | cons a l ih =>
    rw [List.mapM_cons]
    rcases h a (by simp) with e | ⟨y, e⟩
    · rw [e]; rfl
    · rw [e]
      simp only [bind, Except.bind]
      obtain ⟨x, hx, ex⟩ := hx
      rcases List.mem_cons.mp hx with rfl | hx
      · rw [ex] at e; simp [fail'] at e
      · rw [ih (fun x hx => h x (by simp [hx])) ⟨x, hx, ex⟩]

variable {D : Dec} {src : List Nat} {w : Nat} {nd : Nat → Nat} {G : Nat → List Nat → List Nat}

/-- The whole image in one call. -/
theorem RowWise.whole (H : RowWise D src w nd G) (h skip : Nat) :
    D src skip (List.replicate h (List.replicate w 0)) w =
      if src.length < nd (skip + h) then fail' else .ok ((List.range h).map fun r => G (skip + r) (List.replicate w 0)) := by
  rw [H.eq skip _ (fun l hl => by rw [List.eq_of_mem_replicate hl, List.length_replicate]), List.length_replicate]
  split
  · rfl
  · congr 1
    apply List.ext_getElem?
    intro i
    rw [List.getElem?_map, List.getElem?_zipIdx, List.getElem?_map, List.getElem?_replicate]
    by_cases h : i < h
    · rw [if_pos h, List.getElem?_range h]; simp
    · rw [if_neg h, List.getElem?_eq_none (by simp; omega)]; rfl

theorem RowWise.line (H : RowWise D src w nd G) (r : Nat) :
    oneLine D src w (List.replicate w 0) r = if src.length < nd (r + 1) then fail' else .ok (G r (List.replicate w 0)) := by
  have := H.whole 1 r
  rw [List.replicate_one] at this
  rw [oneLine, this]
  split
  · rfl
  · simp [bind, Except.bind]

theorem RowWise.lines (H : RowWise D src w nd G) (hw : 0 < w) (h : Nat) :
    decompressLines D src w h =
      if src.length < nd h then fail' else .ok ((List.range h).map fun r => G r (List.replicate w 0)).flatten := by
  rw [decompressLines, linesFn, if_neg (by omega)]
  by_cases hs : src.length < nd h
  · rw [if_pos hs, mapM_fail]
    · rfl
    · intro r _
      rw [H.line]
      by_cases h : src.length < nd (r + 1)
      · rw [if_pos h]; exact Or.inl rfl
      · rw [if_neg h]; exact Or.inr ⟨_, rfl⟩
    · have : h ≠ 0 := by rintro rfl; have := H.zero; omega
      exact ⟨h - 1, List.mem_range.mpr (by omega), by rw [H.line, if_pos (by rw [Nat.sub_add_cancel (by omega)]; exact hs)]⟩
  · rw [if_neg hs, mapM_ok_of _ (fun r => G r (List.replicate w 0))]
    · rfl
    · intro r hr
      have := H.mono (r + 1) h (List.mem_range.mp hr)
      rw [H.line, if_neg (by omega)]

/-- **C14**, when rows start on byte boundaries or the sample size has its own unpacker (full statement: every width and bit
depth; false otherwise, see `C14_unaligned_rows_panic`).  Decoding row by row, each row with its row number as offset, gives
exactly the result (image or error) of decoding the whole image in one call. -/
theorem C14_row_parallel_partial (e : Endian) (n : Nat) (hn : 1 ≤ n ∧ n ≤ 16) (src : List Nat) (hb : IsBytes src) (w h : Nat) (hw : 0 < w)
    (ha : RowAligned n w) :
    decompressLines (decompress e n) src w h = (do
      let rows ← decompress e n src 0 (List.replicate h (List.replicate w 0)) w
      .ok rows.flatten) := by
  obtain ⟨nd, G, H⟩ := rowWise_packed e n hn src hb w ha
  rw [H.lines hw, H.whole h 0]
  simp only [Nat.zero_add]
  split <;> rfl

theorem mul_min' (a b c : Nat) : a * min b c = min (a * b) (a * c) := by
  rcases Nat.le_total b c with h | h
  · rw [Nat.min_eq_left h, Nat.min_eq_left (Nat.mul_le_mul_left _ h)]
  · rw [Nat.min_eq_right h, Nat.min_eq_right (Nat.mul_le_mul_left _ h)]

/-- The strips of a zero image. -/
theorem strips_of_zero (w h s : Nat) (hw : 0 < w) (hs : 0 < s) :
    chunks (List.replicate (w * h) 0) (w * s) =
      .ok ((List.range ((h + s - 1) / s)).map fun i => List.replicate (w * min s (h - i * s)) 0) := by
  have hws : 0 < w * s := Nat.mul_pos hw hs
  rw [chunks, if_neg (by omega), List.length_replicate]
  have hc : (w * h + w * s - 1) / (w * s) = (h + s - 1) / s := by
    rw [← Nat.div_div_eq_div_mul]
    congr 1
    rw [← Nat.mul_add, show w * (h + s) - 1 = w * (h + s - 1) + (w - 1) by
      rw [Nat.mul_sub, Nat.mul_one]
      have : w ≤ w * (h + s) := Nat.le_mul_of_pos_right _ (by omega)
      omega, Nat.mul_add_div hw, Nat.div_eq_of_lt (by omega), Nat.add_zero]
  rw [hc]
  congr 1
  apply List.map_congr_left
  intro i _
  rw [List.drop_replicate, List.take_replicate, mul_min', Nat.mul_sub, Nat.mul_left_comm]

theorem flatten_strips {α : Type} (h s : Nat) (g : Nat → List α) (N : Nat) :
    ((List.range N).map fun i => ((List.range (min s (h - i * s))).map fun r => g (i * s + r)).flatten).flatten =
      ((List.range (min h (N * s))).map g).flatten := by
  induction N with
  | zero => simp
  | succ N ih =>
    rw [List.range_succ, List.map_append, List.flatten_append, ih]
    simp only [List.map_cons, List.map_nil, List.flatten_cons, List.flatten_nil, List.append_nil]
    rw [Nat.add_mul, Nat.one_mul]
    by_cases hh : N * s ≤ h
    · rw [Nat.min_eq_right hh, show min h (N * s + s) = N * s + min s (h - N * s) by omega, List.range_add, List.map_append,
        List.flatten_append, List.map_map]
      rfl
    · rw [Nat.min_eq_left (by omega : h ≤ N * s), Nat.min_eq_left (by omega : h ≤ N * s + s), show min s (h - N * s) = 0 by omega]
      simp

theorem RowWise.strip (H : RowWise D src w nd G) (hw : 0 < w) (skip c : Nat) :
    stripLines D src skip w (List.replicate (w * c) 0) =
      if src.length < nd (skip + c) then fail' else .ok ((List.range c).map fun r => G (skip + r) (List.replicate w 0)).flatten := by
  have h1 : chunksExact (List.replicate (w * c) 0) w = .ok (List.replicate c (List.replicate w 0)) := by
    rw [chunksExact, if_neg (by omega), List.length_replicate, Nat.mul_div_cancel_left c hw]
    congr 1
    apply List.ext_getElem?
    intro i
    rw [List.getElem?_map, List.getElem?_replicate]
    by_cases h : i < c
    · have : w * (i + 1) ≤ w * c := Nat.mul_le_mul_left _ h
      rw [Nat.mul_add, Nat.mul_one] at this
      rw [if_pos h, List.getElem?_range h, Option.map_some, List.drop_replicate, List.take_replicate, Nat.mul_comm i w,
        Nat.min_eq_left (by omega)]
    · rw [if_neg h, List.getElem?_eq_none (by simp; omega)]; rfl
  rw [stripLines, h1]
  simp only [bind, Except.bind]
  rw [H.whole c skip]
  by_cases h : src.length < nd (skip + c)
  · rw [if_pos h, if_pos h]
  · rw [if_neg h, if_neg h, List.length_replicate, Nat.mul_div_cancel_left c hw, Nat.mul_comm c w]
    simp only []
    rw [List.drop_of_length_le (by rw [List.length_replicate]; omega), List.append_nil]

theorem RowWise.strips (H : RowWise D src w nd G) (hw : 0 < w) (h s : Nat) (hs : 0 < s) :
    decompressStrips D src w h s =
      if src.length < nd h then fail' else .ok ((List.range h).map fun r => G r (List.replicate w 0)).flatten := by
  have hN : (h + s - 1) / s * s ≥ h ∧ ((h + s - 1) / s) * s < h + s := by
    have h1 := Nat.div_add_mod (h + s - 1) s
    have h2 := Nat.mod_lt (h + s - 1) hs
    rw [Nat.mul_comm] at h1; omega
  rw [decompressStrips, stripsFn, strips_of_zero w h s hw hs]
  simp only [bind, Except.bind]
  have hstep : ∀ x ∈ ((List.range ((h + s - 1) / s)).map fun i => List.replicate (w * min s (h - i * s)) 0).zipIdx,
      stripLines D src (x.2 * s) w x.1 = if src.length < nd (x.2 * s + min s (h - x.2 * s)) then fail'
        else .ok ((List.range (min s (h - x.2 * s))).map fun r => G (x.2 * s + r) (List.replicate w 0)).flatten := by
    rintro ⟨x, i⟩ hx
    rw [List.mem_zipIdx_iff_getElem?, List.getElem?_map] at hx
    by_cases hi : i < (h + s - 1) / s
    · simp only [] at hx
      rw [List.getElem?_range hi] at hx
      simp only [Option.map_some, Option.some.injEq] at hx
      subst hx
      rw [H.strip hw]
    · simp only [] at hx
      rw [List.getElem?_eq_none (by simp; omega)] at hx; simp at hx
  by_cases hlt : src.length < nd h
  · rw [if_pos hlt, mapM_fail]
    · intro x hx
      rw [hstep x hx]
      split
      · exact Or.inl rfl
      · exact Or.inr ⟨_, rfl⟩
    · have h0 : h ≠ 0 := by rintro rfl; have := H.zero; omega
      have hNp : 0 < (h + s - 1) / s := by
        apply Nat.pos_of_ne_zero
        intro e; rw [e] at hN; omega
      have hmem : (List.replicate (w * min s (h - ((h + s - 1) / s - 1) * s)) 0, (h + s - 1) / s - 1) ∈
          ((List.range ((h + s - 1) / s)).map fun i => List.replicate (w * min s (h - i * s)) 0).zipIdx := by
        rw [List.mem_zipIdx_iff_getElem?, List.getElem?_map, List.getElem?_range (by omega)]; rfl
      refine ⟨_, hmem, ?_⟩
      rw [hstep _ hmem]
      simp only []
      have e1 : ((h + s - 1) / s - 1) * s + s = (h + s - 1) / s * s := by
        rw [Nat.sub_mul, Nat.one_mul]
        have : 1 * s ≤ (h + s - 1) / s * s := Nat.mul_le_mul_right _ hNp
        omega
      rw [show ((h + s - 1) / s - 1) * s + min s (h - ((h + s - 1) / s - 1) * s) = h by omega, if_pos hlt]
  · rw [if_neg hlt, mapM_ok_of _ (fun x => ((List.range (min s (h - x.2 * s))).map fun r => G (x.2 * s + r) (List.replicate w 0)).flatten)]
    · simp only []
      rw [show ((List.range ((h + s - 1) / s)).map fun i => List.replicate (w * min s (h - i * s)) 0).zipIdx.map
          (fun x => ((List.range (min s (h - x.2 * s))).map fun r => G (x.2 * s + r) (List.replicate w 0)).flatten) =
          (List.range ((h + s - 1) / s)).map fun i =>
            ((List.range (min s (h - i * s))).map fun r => G (i * s + r) (List.replicate w 0)).flatten from ?_]
      · rw [flatten_strips h s (fun r => G r (List.replicate w 0)), Nat.min_eq_left (by omega)]
      · apply List.ext_getElem?
        intro i
        rw [List.getElem?_map, List.getElem?_zipIdx, List.getElem?_map, List.getElem?_map]
        by_cases hi : i < (h + s - 1) / s
        · rw [List.getElem?_range hi]; simp
        · rw [List.getElem?_eq_none (by simp; omega)]; rfl
    · intro x hx
      rw [hstep x hx, if_neg]
      have := H.mono (x.2 * s + min s (h - x.2 * s)) h
      by_cases hle : x.2 * s ≤ h
      · have := this (by omega); omega
      · rw [List.mem_zipIdx_iff_getElem?] at hx
        have hi : x.2 < (h + s - 1) / s := by
          apply Classical.byContradiction
          intro hc
          rw [List.getElem?_eq_none (by simp; omega)] at hx; simp at hx
        have : (x.2 + 1) * s ≤ (h + s - 1) / s * s := Nat.mul_le_mul_right _ hi
        rw [Nat.add_mul, Nat.one_mul] at this
        omega

/-- **C14** for strips of any height over one buffer. -/
theorem C14_strips_partial (e : Endian) (n : Nat) (hn : 1 ≤ n ∧ n ≤ 16) (src : List Nat) (hb : IsBytes src) (w h s : Nat) (hw : 0 < w)
    (hs : 0 < s) (ha : RowAligned n w) :
    decompressStrips (decompress e n) src w h s = (do
      let rows ← decompress e n src 0 (List.replicate h (List.replicate w 0)) w
      .ok rows.flatten) := by
  obtain ⟨nd, G, H⟩ := rowWise_packed e n hn src hb w ha
  rw [H.strips hw h s hs, H.whole h 0]
  simp only [Nat.zero_add]
  split <;> rfl

example : decompressStrips (decompress .big 8) [1, 2, 3, 4, 5, 6, 7, 8, 9, 10] 2 5 2 = .ok [1, 2, 3, 4, 5, 6, 7, 8, 9, 10] := by
  decide +kernel

/-- two rows of three 12 bit samples (the odd width is decoded badly, but in both ways alike) and of four 14 bit ones -/
example : RowAligned 12 3 ∧ RowAligned 14 4 ∧
    decompressLines (decompress .big 14) (List.replicate 14 0xff) 4 2 = .ok (List.replicate 8 16383) := by decide +kernel

/-- **C14 is false** when a row of 14 bit samples does not end on a byte boundary: in one call the image decodes, row by row
the decoder panics. -/
theorem C14_unaligned_rows_panic : ∃ src, IsBytes src ∧
    decompress .big 14 src 0 [[0, 0, 0], [0, 0, 0]] 3 = .ok [[1, 2, 3], [4, 5, 6]] ∧
    decompressLines (decompress .big 14) src 3 2 = panic' :=
  ⟨[0x00, 0x04, 0x00, 0x20, 0x00, 0xc0, 0x04, 0x00, 0x14, 0x00, 0x60], by decide, by decide +kernel, by decide +kernel⟩

/-- Row-parallel unpacking of whole images of big-endian samples. -/
theorem lines_hold (n : Nat) (hn : 1 ≤ n ∧ n ≤ 16) (buf : List Nat) (hb : IsBytes buf) (w h : Nat) (hw : 0 < w) (ha : RowAligned n w) (hal : Aligned n w 0) :
    if (h * w * n + 7) / 8 ≤ buf.length then
      ∃ img, decompressLines (decompress .big n) buf w h = .ok img ∧ Holds img w h fun r c => fieldMSB n buf (r * w + c)
    else decompressLines (decompress .big n) buf w h = fail' := by
  rw [C14_row_parallel_partial .big n hn buf hb w h hw ha, C13_packed_partial n hn buf hb 0 _ w (fun l hl => by
    rw [List.eq_of_mem_replicate hl, List.length_replicate]) hal, List.length_replicate, Nat.zero_add]
  by_cases hlen : (h * w * n + 7) / 8 ≤ buf.length
  · rw [if_pos hlen, if_pos hlen]
    refine ⟨_, rfl, ?_, ?_⟩
    · rw [← List.flatMap_def, flatMap_len _ w _ (by simp)]
    · intro r c hr hc
      rw [← List.flatMap_def, flatMap_get _ w _ (by simp) r c hr hc]
      simp [hc]
  · rw [if_neg hlen, if_neg hlen]; rfl

/-- **C13** for 10 bit big-endian images whose rows are whole groups of four samples; an error if data is missing. -/
theorem C13_10be (buf : List Nat) (hb : IsBytes buf) (w h : Nat) (hw : 0 < w) (h4 : w % 4 = 0) :
    if h * w * 10 ≤ 8 * buf.length then ∃ img, dec10be buf w h = .ok img ∧ Holds img w h fun r c => fieldMSB 10 buf (r * w + c)
    else dec10be buf w h = fail' := by
  have := lines_hold 10 (by decide) buf hb w h hw (by simp [RowAligned]) (by simp [Aligned]; omega)
  rw [dec10be]
  by_cases hl : h * w * 10 ≤ 8 * buf.length
  · rw [if_pos (by omega)] at this
    rw [if_pos hl, if_neg (by omega)]; exact this
  · rw [if_neg hl, if_pos (by omega)]

/-- **C13** for 12 bit big-endian images of even width. -/
theorem C13_12be (buf : List Nat) (hb : IsBytes buf) (w h : Nat) (hw : 0 < w) (h2 : w % 2 = 0) :
    if h * w * 12 ≤ 8 * buf.length then ∃ img, dec12be buf w h = .ok img ∧ Holds img w h fun r c => fieldMSB 12 buf (r * w + c)
    else dec12be buf w h = fail' := by
  have := lines_hold 12 (by decide) buf hb w h hw (by simp [RowAligned]) (by simp [Aligned]; omega)
  rw [dec12be]
  by_cases hl : h * w * 12 ≤ 8 * buf.length
  · rw [if_pos (by omega)] at this
    rw [if_pos hl]; exact this
  · rw [if_neg (by omega)] at this
    rw [if_neg hl]; exact this

/-- **C13** for 8 bit images of any width. -/
theorem C13_8bit (buf : List Nat) (hb : IsBytes buf) (w h : Nat) (hw : 0 < w) :
    if h * w ≤ buf.length then ∃ img, dec8 buf w h = .ok img ∧ Holds img w h fun r c => fieldMSB 8 buf (r * w + c)
    else dec8 buf w h = fail' := by
  have := lines_hold 8 (by decide) buf hb w h hw (by simp [RowAligned]) (by simp [Aligned])
  rw [dec8, show decompress .little 8 = decompress .big 8 from by funext a b c d; simp only [decompress, if_neg (show ¬ (8 : Nat) = 16 by decide)]]
  by_cases hl : h * w ≤ buf.length
  · rw [if_pos (by omega)] at this
    rw [if_pos hl, if_neg (by omega)]; exact this
  · rw [if_neg hl, if_pos (by omega)]

/-- two rows of four 10 bit samples; two of two 12 bit samples; two of three bytes -/
example : dec10be [0x00, 0x40, 0x20, 0x0c, 0x04, 0x01, 0x41, 0x81, 0xc0, 0x08] 4 2 = .ok [1, 2, 3, 4, 5, 24, 112, 8] ∧
    dec12be [0x12, 0x34, 0x56, 0xab, 0xcd, 0xef] 2 2 = .ok [0x123, 0x456, 0xabc, 0xdef] ∧ dec8 [1, 2, 3, 4, 5, 6] 3 2 = .ok [1, 2, 3, 4, 5, 6] ∧
    dec10be [1, 2, 3, 4] 4 1 = fail' :=
  ⟨by decide +kernel, by decide +kernel, by decide +kernel, by decide +kernel⟩

end Verif.Props
