import Verif.Proofs.PackedGeneric
/-! # C13: packed samples unpack to the stored bit fields -/

namespace Verif.Props
open Verif Verif.Pumps Verif.Spec Verif.Packed

/-- Widths for which the decoder's groups and byte offsets line up with the rows. -/
def Aligned (n width skip : Nat) : Prop :=
  n = 8 ∨ n = 16 ∨ (n = 12 ∧ width % 2 = 0) ∨ (n = 10 ∧ width % 4 = 0) ∨
    (n ≠ 12 ∧ n ≠ 10 ∧ skip * width * n % 8 = 0)

instance (n width skip : Nat) : Decidable (Aligned n width skip) := by unfold Aligned; infer_instance

/-- **C13**, for widths whose rows end on a group boundary (full statement: every width; see `C13_twelve_bit_odd_width_wrong`
and its companions for why the restriction is needed).  With enough data the packed decoder fills line `r`, column `i`, with the
`n` bit field number `(skip + r) * width + i` of the data, most significant bit first.  With too little data it reports an error. -/
theorem C13_packed_partial (n : Nat) (hn : 1 ≤ n ∧ n ≤ 16) (src : List Nat) (hb : IsBytes src) (skip : Nat)
    (lines : List (List Nat)) (width : Nat) (hl : ∀ l ∈ lines, l.length = width) (hal : Aligned n width skip) :
    decompress .big n src skip lines width =
      if ((skip + lines.length) * width * n + 7) / 8 ≤ src.length then
        .ok ((List.range lines.length).map fun r => (List.range width).map fun i => fieldMSB n src ((skip + r) * width + i))
      else fail' := by
  have go : ∀ (n' : Nat) (X : R (List (List Nat))), n' = n → (need (skip + lines.length) width n ≤ src.length → X =
        .ok ((List.range lines.length).map fun r => (List.range width).map fun i => fieldMSB n src ((skip + r) * width + i))) →
      (if src.length < need (skip + lines.length) width n' then (fail' : R (List (List Nat))) else X) =
      if ((skip + lines.length) * width * n + 7) / 8 ≤ src.length then
        .ok ((List.range lines.length).map fun r => (List.range width).map fun i => fieldMSB n src ((skip + r) * width + i))
      else fail' := by
    intro n' X e hX
    subst e
    by_cases h : need (skip + lines.length) width n' ≤ src.length
    · rw [if_neg (by omega), if_pos (by simpa [need] using h), hX h]
    · rw [if_pos (by omega), if_neg (by simpa [need] using h)]
  by_cases h16 : n = 16
  · rw [decompress, if_pos h16]
    refine go 16 _ h16.symm (fun h => ?_)
    rw [h16, need] at h
    rw [pk16be.rows width skip lines src _ hb (fun r => Nat.mul_assoc ..) (by simpa using hl)
      (by rw [← Nat.mul_assoc]; omega), h16, Nat.mul_one]; rfl
  by_cases h12 : n = 12
  · rw [decompress, if_neg h16, if_pos h12]
    refine go 12 _ h12.symm (fun h => ?_)
    rw [h12, need] at h
    obtain ⟨q, rfl⟩ : ∃ q, width = q * 2 := ⟨width / 2, by rcases hal with h | h | h | h | h <;> omega⟩
    have e1 : ∀ r, r * (q * 2) * 12 / 8 = r * (q * 3) := by
      intro r; rw [show r * (q * 2) * 12 = r * (q * 3) * 8 by rw [Nat.mul_assoc, Nat.mul_assoc, Nat.mul_assoc r]; congr 1; omega]; omega
    rw [pk12be.rows q skip lines src _ hb e1 hl (by have := e1 (skip + lines.length); omega), h12]; rfl
  by_cases h10 : n = 10
  · rw [decompress, if_neg h16, if_neg h12, if_pos h10]
    refine go 10 _ h10.symm (fun h => ?_)
    rw [h10, need] at h
    obtain ⟨q, rfl⟩ : ∃ q, width = q * 4 := ⟨width / 4, by rcases hal with h | h | h | h | h <;> omega⟩
    have e1 : ∀ r, r * (q * 4) * 10 / 8 = r * (q * 5) := by
      intro r; rw [show r * (q * 4) * 10 = r * (q * 5) * 8 by rw [Nat.mul_assoc, Nat.mul_assoc, Nat.mul_assoc r]; congr 1; omega]; omega
    rw [pk10be.rows q skip lines src _ hb e1 hl (by have := e1 (skip + lines.length); omega), h10]; rfl
  by_cases h8 : n = 8
  · rw [decompress, if_neg h16, if_neg h12, if_neg h10, if_pos h8]
    refine go 8 _ h8.symm (fun h => ?_)
    rw [h8, need] at h
    rw [pk8.rows width skip lines src _ hb (fun r => by rw [Nat.mul_one]) (by simpa using hl)
      (by rw [Nat.mul_one]; omega), h8, Nat.mul_one]; rfl
  · rw [decompress, if_neg h16, if_neg h12, if_neg h10, if_neg h8, if_pos (by omega)]
    have ha : skip * width * n % 8 = 0 := by rcases hal with h | h | h | h | h <;> omega
    by_cases h : need (skip + lines.length) width n ≤ src.length
    · rw [unpackGeneric_ok src hb skip lines width hn.2 hl h ha, if_pos (by simpa [need] using h)]; rfl
    · rw [unpackGeneric, if_pos (by omega), if_neg (by simpa [need] using h)]

/-- two rows of four 10 bit samples, first row skipped -/
example : Aligned 10 4 1 ∧ decompress .big 10 [0, 0, 0, 0, 0, 0x00, 0x40, 0x20, 0x0c, 0x04] 1 [[9, 9, 9, 9]] 4 = .ok [[1, 2, 3, 4]] := by
  decide +kernel
/-- 14 bit samples, width 3 -/
example : Aligned 14 3 0 ∧ decompress .big 14 (List.replicate 11 0xff) 0 [[0, 0, 0], [0, 0, 0]] 3 =
    .ok [[16383, 16383, 16383], [16383, 16383, 16383]] := by decide +kernel

/-- Little-endian 16 bit words. -/
theorem C13_sixteen_le (src : List Nat) (hb : IsBytes src) (skip : Nat) (lines : List (List Nat)) (width : Nat)
    (hl : ∀ l ∈ lines, l.length = width) :
    decompress .little 16 src skip lines width =
      if (skip + lines.length) * width * 2 ≤ src.length then
        .ok ((List.range lines.length).map fun r => (List.range width).map fun i => fieldMSB 16 (swapPairs src) ((skip + r) * width + i))
      else fail' := by
  rw [decompress, if_pos rfl]
  simp only [unpack16le]
  by_cases h : (skip + lines.length) * width * 2 ≤ src.length
  · rw [if_neg (by rw [need]; omega), if_pos h, pk16le.rows width skip lines src _ hb (fun r => Nat.mul_assoc ..) (by simpa using hl)
      (by rw [← Nat.mul_assoc]; omega), Nat.mul_one]; rfl
  · rw [if_pos (by rw [need]; omega), if_neg h]

example : decompress .little 16 [0x34, 0x12, 0x78, 0x56] 0 [[0, 0]] 2 = .ok [[0x1234, 0x5678]] := by decide +kernel

/-- Other sample sizes are refused. -/
theorem C13_other_sizes (e : Endian) (n : Nat) (hn : n = 0 ∨ 16 < n) (src : List Nat) (skip : Nat) (lines : List (List Nat)) (width : Nat) :
    decompress e n src skip lines width = fail' := by
  rw [decompress.eq_def, if_neg (by omega), if_neg (by omega), if_neg (by omega), if_neg (by omega), if_neg (by omega)]

/-- **C13 is false for 12 bit data of odd width**: the last pixel of every row is left at zero and odd rows start in the
wrong nibble. -/
theorem C13_twelve_bit_odd_width_wrong : ∃ src, IsBytes src ∧ (2 * 1 * 12 + 7) / 8 ≤ src.length ∧
    decompress .big 12 src 0 [[0], [0]] 1 ≠ .ok [[fieldMSB 12 src 0], [fieldMSB 12 src 1]] ∧
    decompress .big 12 src 0 [[0], [0]] 1 = .ok [[0], [0]] :=
  ⟨[0x12, 0x34, 0x56], by decide, by decide, by decide +kernel, by decide +kernel⟩

/-- With three pixels per row the second row is also read four bits too early. -/
theorem C13_twelve_bit_odd_width_shifted : ∃ src, IsBytes src ∧ src.length = 9 ∧
    decompress .big 12 src 0 [[0, 0, 0], [0, 0, 0]] 3 = .ok [[0x001, 0x002, 0], [0x300, 0x400, 0]] ∧
    (List.range 6).map (fieldMSB 12 src) = [1, 2, 3, 4, 5, 6] :=
  ⟨[0x00, 0x10, 0x02, 0x00, 0x30, 0x04, 0x00, 0x50, 0x06], by decide, by decide, by decide +kernel, by decide +kernel⟩

/-- **C13 is false for 10 bit data whose width is not a multiple of four.** -/
theorem C13_ten_bit_width_wrong : ∃ src, IsBytes src ∧ (1 * 2 * 10 + 7) / 8 ≤ src.length ∧
    decompress .big 10 src 0 [[0, 0]] 2 ≠ .ok [[fieldMSB 10 src 0, fieldMSB 10 src 1]] :=
  ⟨[0x12, 0x34, 0x56, 0x78, 0x9a], by decide, by decide, by decide +kernel⟩

theorem C13_ten_bit_width_zeros : ∃ src, IsBytes src ∧ (1 * 2 * 10 + 7) / 8 ≤ src.length ∧
    decompress .big 10 src 0 [[0, 0]] 2 = .ok [[0, 0]] ∧ fieldMSB 10 src 0 ≠ 0 :=
  ⟨[0x12, 0x34, 0x56], by decide, by decide, by decide +kernel, by decide +kernel⟩

/-- **C13 is false for other sample sizes when the skipped rows do not end on a byte boundary**: the fresh bit reader is asked
to skip bits it has not loaded. -/
theorem C13_generic_bias_panics : ∃ src, IsBytes src ∧ (2 * 1 * 14 + 7) / 8 ≤ src.length ∧
    decompress .big 14 src 1 [[0]] 1 = panic' :=
  ⟨[0x12, 0x34, 0x56, 0x78], by decide, by decide, by decide +kernel⟩

/-! ## Camera layouts -/

/-- 12 bit, least significant bit first, even width. -/
theorem C13_12le (buf : List Nat) (hb : IsBytes buf) (w h : Nat) (h0 : 0 < w) (hw : w % 2 = 0) (hlen : h * w * 12 ≤ 8 * buf.length) :
    ∃ img, dec12le buf w h = .ok img ∧ Holds img w h (fun r c => fieldLSB 12 buf (r * w + c)) := by
  obtain ⟨q, rfl⟩ : ∃ q, w = q * 2 := ⟨w / 2, by omega⟩
  have e1 : ∀ r, r * (q * 2) * 12 = r * (q * 3) * 8 := by
    intro r; rw [Nat.mul_assoc, Nat.mul_assoc, Nat.mul_assoc r]; congr 1; omega
  have := e1 h
  exact pk12le.rowsAt_dense q _ _ buf _ h hb rfl h0 (by omega) (by omega) (fun r => by simp only [e1 r]; omega)

example : dec12le [0x21, 0x43, 0x65, 0x87, 0xa9, 0xcb] 2 2 = .ok [0x321, 0x654, 0x987, 0xcba] := by decide +kernel

/-- 12 bit, least significant bit first, rows `stride` bytes apart. -/
theorem C13_12le_padded (buf : List Nat) (hb : IsBytes buf) (w h stride : Nat) (h0 : 0 < w) (hw : w % 2 = 0)
    (hst : w * 12 ≤ 8 * stride) (hlen : h * stride ≤ buf.length) :
    ∃ img, dec12lePadded buf w h stride = .ok img ∧ Holds img w h (fun r c => fieldLSB 12 (buf.drop (r * stride)) c) := by
  obtain ⟨q, rfl⟩ : ∃ q, w = q * 2 := ⟨w / 2, by omega⟩
  refine pk12le.rowsAt_ok q _ _ buf _ h hb rfl h0 hlen (fun r hr => ?_)
  have : (r + 1) * stride ≤ h * stride := Nat.mul_le_mul_right _ hr
  rw [Nat.add_mul, Nat.one_mul] at this; omega

example : dec12lePadded [0x21, 0x43, 0x65, 0xff, 0x87, 0xa9, 0xcb, 0xff] 2 2 4 = .ok [0x321, 0x654, 0x987, 0xcba] := by decide +kernel

/-- 14 bit, least significant bit first, rows `stride` bytes apart. -/
theorem C13_14le_padded (buf : List Nat) (hb : IsBytes buf) (w h stride : Nat) (h0 : 0 < w) (hw : w % 4 = 0)
    (hst : w * 14 ≤ 8 * stride) (hlen : h * stride ≤ buf.length) :
    ∃ img, dec14lePadded buf w h stride = .ok img ∧ Holds img w h (fun r c => fieldLSB 14 (buf.drop (r * stride)) c) := by
  obtain ⟨q, rfl⟩ : ∃ q, w = q * 4 := ⟨w / 4, by omega⟩
  refine pk14le.rowsAt_ok q _ _ buf _ h hb rfl h0 hlen (fun r hr => ?_)
  have : (r + 1) * stride ≤ h * stride := Nat.mul_le_mul_right _ hr
  rw [Nat.add_mul, Nat.one_mul] at this; omega

example : dec14lePadded [0x01, 0x80, 0x00, 0x30, 0x00, 0x10, 0x00, 0xff] 4 1 8 = .ok [1, 2, 3, 4] := by decide +kernel

/-- 10 bit fields in little-endian 16 bit words. -/
theorem C13_10le_lsb16 (buf : List Nat) (hb : IsBytes buf) (w h : Nat) (h0 : 0 < w) (hw : w % 8 = 0) (hlen : h * w * 10 ≤ 8 * buf.length) :
    ∃ img, dec10leLsb16 buf w h = .ok img ∧ Holds img w h (fun r c => fieldMSB 10 (swapPairs buf) (r * w + c)) := by
  obtain ⟨q, rfl⟩ : ∃ q, w = q * 8 := ⟨w / 8, by omega⟩
  have e1 : ∀ r, r * (q * 8) * 10 = r * (q * 10) * 8 := by
    intro r; rw [Nat.mul_assoc, Nat.mul_assoc, Nat.mul_assoc r]; congr 1; omega
  have := e1 h
  exact pk10lsb16.rowsAt_dense q _ _ buf _ h hb rfl h0 (by omega) (by omega) (fun r => by simp only [e1 r]; omega)

/-- 12 bit fields in little-endian 16 bit words; whole image in one run. -/
theorem C13_12be_msb16 (buf : List Nat) (hb : IsBytes buf) (w h : Nat) (hw : w * h % 4 = 0) (hlen : h * w * 12 ≤ 8 * buf.length) :
    ∃ img, dec12beMsb16 buf w h = .ok img ∧ Holds img w h (fun r c => fieldMSB 12 (swapPairs buf) (r * w + c)) := by
  have := Nat.mul_comm w h
  exact pk12msb16.whole_ok (w * h / 4) 12 buf w h hb (by omega) (by omega) (by omega)

example : dec12beMsb16 [0x23, 0x01, 0x56, 0x34, 0x89, 0x67] 2 2 = .ok [0x012, 0x334, 0x566, 0x789] := by decide +kernel

/-- 12 bit fields in little-endian 32 bit words. -/
theorem C13_12be_msb32 (buf : List Nat) (hb : IsBytes buf) (w h : Nat) (hw : w * h % 8 = 0) (hlen : h * w * 12 ≤ 8 * buf.length) :
    ∃ img, dec12beMsb32 buf w h = .ok img ∧ Holds img w h (fun r c => fieldMSB 12 (swapWords buf) (r * w + c)) := by
  have := Nat.mul_comm w h
  exact pk12msb32.whole_ok (w * h / 8) 12 buf w h hb (by omega) (by omega) (by omega)

/-- 14 bit fields in little-endian 32 bit words. -/
theorem C13_14be_msb32 (buf : List Nat) (hb : IsBytes buf) (w h : Nat) (hw : w * h % 16 = 0) (hlen : h * w * 14 ≤ 8 * buf.length) :
    ∃ img, dec14beMsb32 buf w h = .ok img ∧ Holds img w h (fun r c => fieldMSB 14 (swapWords buf) (r * w + c)) := by
  have := Nat.mul_comm w h
  exact pk14msb32.whole_ok (w * h / 16) 14 buf w h hb (by omega) (by omega) (by omega)

example : (dec14beMsb32 (List.range 28) 8 2).toOption.map (·.take 3) =
    some ((List.range 3).map (fieldMSB 14 (swapWords (List.range 28)))) := by decide +kernel

/-- 12 bit, most significant bit first, each row padded to an even number of bytes. -/
theorem C13_12le_16bitaligned (buf : List Nat) (hb : IsBytes buf) (w h : Nat) (h0 : 0 < w) (hw : w % 2 = 0)
    (hlen : h * ((w * 12 / 8 + 1) / 2 * 2) ≤ buf.length) :
    ∃ img, dec12le16 buf w h = .ok img ∧ Holds img w h (fun r c => fieldMSB 12 (buf.drop (r * ((w * 12 / 8 + 1) / 2 * 2))) c) := by
  obtain ⟨q, rfl⟩ : ∃ q, w = q * 2 := ⟨w / 2, by omega⟩
  have e : ((q * 2 * 12 / 8 + 1) >>> 1) <<< 1 = (q * 2 * 12 / 8 + 1) / 2 * 2 := by
    rw [Nat.shiftLeft_eq, Nat.shiftRight_eq_div_pow]
  rw [dec12le16]
  simp only [e]
  refine pk12be.rowsAt_ok q _ _ buf _ h hb rfl h0 hlen (fun r hr => ?_)
  have : (r + 1) * ((q * 2 * 12 / 8 + 1) / 2 * 2) ≤ h * ((q * 2 * 12 / 8 + 1) / 2 * 2) := Nat.mul_le_mul_right _ hr
  rw [Nat.add_mul, Nat.one_mul] at this; omega

/-- 12 bit, most significant bit first, one control byte after each ten samples. -/
theorem C13_12be_wcontrol (buf : List Nat) (hb : IsBytes buf) (w h : Nat) (h0 : 0 < w) (hw : w % 10 = 0) (hlen : h * (w / 10 * 16) ≤ buf.length) :
    ∃ img, dec12beWcontrol buf w h = .ok img ∧ Holds img w h (fun r c => fieldMSB 12 (dropControl buf) (r * w + c)) := by
  obtain ⟨q, rfl⟩ : ∃ q, w = q * 10 := ⟨w / 10, by omega⟩
  have e : q * 10 * 12 / 8 + (q * 10 + 2) / 10 = q * 16 := by omega
  rw [show q * 10 / 10 * 16 = q * 16 by omega] at hlen
  rw [dec12beWcontrol, e]
  exact pkControl_be.rowsAt_dense q _ _ buf _ h hb rfl h0 hlen hlen (fun r => rfl)

/-- 12 bit, least significant bit first, one control byte after each ten samples. -/
theorem C13_12le_wcontrol (buf : List Nat) (hb : IsBytes buf) (w h : Nat) (h0 : 0 < w) (hw : w % 10 = 0) (hlen : h * (w / 10 * 16) ≤ buf.length) :
    ∃ img, dec12leWcontrol buf w h = .ok img ∧ Holds img w h (fun r c => fieldLSB 12 (dropControl buf) (r * w + c)) := by
  obtain ⟨q, rfl⟩ : ∃ q, w = q * 10 := ⟨w / 10, by omega⟩
  have e : q * 10 * 12 / 8 + (q * 10 + 2) / 10 = q * 16 := by omega
  rw [show q * 10 / 10 * 16 = q * 16 by omega] at hlen
  rw [dec12leWcontrol, e]
  exact pkControl_le.rowsAt_dense q _ _ buf _ h hb rfl h0 hlen hlen (fun r => rfl)

example : dec12leWcontrol [0x21, 0x43, 0x65, 0, 0, 0, 0, 0, 0, 0, 0, 0, 0x87, 0xa9, 0xcb, 0xff] 10 1 =
    .ok [0x321, 0x654, 0, 0, 0, 0, 0, 0, 0x987, 0xcba] := by decide +kernel

/-- With a width that is not a multiple of ten the last pixels of a row stay zero. -/
theorem C13_wcontrol_width_wrong : ∃ buf, IsBytes buf ∧ buf.length = 16 ∧
    dec12leWcontrol buf 8 1 = .ok [0, 0, 0, 0, 0, 0, 0, 0] ∧ fieldLSB 12 (dropControl buf) 0 = 0x321 :=
  ⟨[0x21, 0x43, 0x65, 0, 0, 0, 0, 0, 0, 0, 0, 0, 0, 0, 0, 0], by decide, by decide, by decide +kernel, by decide +kernel⟩

/-- Sixteen bit words holding smaller samples: little-endian, low bits. -/
theorem C13_unpacked_le (bits : Nat) (buf : List Nat) (hb : IsBytes buf) (w h : Nat) (h0 : 0 < w) (hlen : h * w * 2 ≤ buf.length) :
    ∃ img, decUnpacked (gMask g16le (2 ^ bits - 1)) buf w h = .ok img ∧
      Holds img w h (fun r c => fieldMSB 16 (swapPairs buf) (r * w + c) % 2 ^ bits) := by
  obtain ⟨img, e, hh⟩ := (pk16le.map (· &&& (2 ^ bits - 1))).rowsAt_dense w (h * w * 2) (fun row => row * w * 2) buf w h hb
    (by omega) h0 hlen (by rw [← Nat.mul_assoc]; exact hlen) (fun r => Nat.mul_assoc ..)
  exact ⟨img, e, by simpa only [Nat.and_two_pow_sub_one_eq_mod, fieldMSB] using hh⟩

/-- Sixteen bit words holding smaller samples: big-endian, low bits. -/
theorem C13_unpacked_be (bits : Nat) (buf : List Nat) (hb : IsBytes buf) (w h : Nat) (h0 : 0 < w) (hlen : h * w * 2 ≤ buf.length) :
    ∃ img, decUnpacked (gMask g16be (2 ^ bits - 1)) buf w h = .ok img ∧
      Holds img w h (fun r c => fieldMSB 16 buf (r * w + c) % 2 ^ bits) := by
  obtain ⟨img, e, hh⟩ := (pk16be.map (· &&& (2 ^ bits - 1))).rowsAt_dense w (h * w * 2) (fun row => row * w * 2) buf w h hb
    (by omega) h0 hlen (by rw [← Nat.mul_assoc]; exact hlen) (fun r => Nat.mul_assoc ..)
  exact ⟨img, e, by simpa only [Nat.and_two_pow_sub_one_eq_mod, fieldMSB] using hh⟩

/-- the masks of the code -/
example : (0xfff : Nat) = 2 ^ 12 - 1 ∧ (0x3fff : Nat) = 2 ^ 14 - 1 := by decide
example : decUnpacked (gMask g16be 0x3fff) [0xff, 0xff, 0x12, 0x34] 2 1 = .ok [0x3fff, 0x1234] := by decide +kernel

/-- Sixteen bit words holding smaller samples in their upper bits. -/
theorem C13_unpacked_left (s : Nat) (buf : List Nat) (hb : IsBytes buf) (w h : Nat) (h0 : 0 < w) (hlen : h * w * 2 ≤ buf.length) :
    (∃ img, decUnpacked (gShift g16be s) buf w h = .ok img ∧ Holds img w h (fun r c => fieldMSB 16 buf (r * w + c) / 2 ^ s)) ∧
    (∃ img, decUnpacked (gShift g16le s) buf w h = .ok img ∧
      Holds img w h (fun r c => fieldMSB 16 (swapPairs buf) (r * w + c) / 2 ^ s)) := by
  constructor
  · obtain ⟨img, e, hh⟩ := (pk16be.map (· >>> s)).rowsAt_dense w (h * w * 2) (fun row => row * w * 2) buf w h hb
      (by omega) h0 hlen (by rw [← Nat.mul_assoc]; exact hlen) (fun r => Nat.mul_assoc ..)
    exact ⟨img, e, by simpa only [Nat.shiftRight_eq_div_pow, fieldMSB] using hh⟩
  · obtain ⟨img, e, hh⟩ := (pk16le.map (· >>> s)).rowsAt_dense w (h * w * 2) (fun row => row * w * 2) buf w h hb
      (by omega) h0 hlen (by rw [← Nat.mul_assoc]; exact hlen) (fun r => Nat.mul_assoc ..)
    exact ⟨img, e, by simpa only [Nat.shiftRight_eq_div_pow, fieldMSB] using hh⟩

example : decUnpacked (gShift g16le 4) [0x30, 0x12, 0x60, 0x45] 2 1 = .ok [0x123, 0x456] := by decide +kernel

/-- Rows `stride` bytes apart, big-endian words of 14 bits. -/
theorem C13_14_unpacked_padded (buf : List Nat) (hb : IsBytes buf) (w h stride : Nat) (h0 : 0 < w) (hst : w * 2 ≤ stride)
    (hlen : h * stride ≤ buf.length) :
    ∃ img, dec14UnpackedPadded buf w h stride = .ok img ∧ Holds img w h (fun r c => fieldMSB 16 (buf.drop (r * stride)) c % 2 ^ 14) := by
  obtain ⟨img, e, hh⟩ := (pk16be.map (· &&& 0x3fff)).rowsAt_ok w (h * stride) (fun row => row * stride) buf w h hb (by omega) h0 hlen
    (fun r hr => by
      have : (r + 1) * stride ≤ h * stride := Nat.mul_le_mul_right _ hr
      rw [Nat.add_mul, Nat.one_mul] at this; omega)
  refine ⟨img, e, ?_⟩
  have h14 : ∀ x : Nat, x &&& 0x3fff = x % 2 ^ 14 := fun x => Nat.and_two_pow_sub_one_eq_mod x 14
  simpa only [h14, fieldMSB] using hh

/-- 16 bit samples of every other line. -/
theorem C13_16le_skiplines (buf : List Nat) (hb : IsBytes buf) (w h : Nat) (h0 : 0 < w) (hlen : w * h * 4 ≤ buf.length) :
    ∃ img, dec16leSkiplines buf w h = .ok img ∧ Holds img w h (fun r c => fieldMSB 16 (swapPairs buf) (2 * r * w + c)) := by
  have hr : ∀ r, r < h → r * w * 4 + w * 4 ≤ buf.length := by
    intro r hr
    have : (r + 1) * w ≤ h * w := Nat.mul_le_mul_right _ hr
    rw [Nat.add_mul, Nat.one_mul] at this
    have := Nat.mul_comm w h
    omega
  obtain ⟨img, e, hh⟩ := pk16le.rowsAt_ok w _ (fun row => row * w * 4) buf w h hb (by omega) h0 hlen (fun r hr' => by have := hr r hr'; omega)
  refine ⟨img, e, hh.1, ?_⟩
  intro r c hr' hc
  rw [hh.2 r c hr' hc]
  simp only []
  have h4 : 2 * r * w * 2 = r * w * 4 := by rw [Nat.mul_assoc 2]; omega
  have := pk16le.dat_drop (2 * r * w) buf (by have := hr r hr'; omega)
  simp only [Nat.mul_one, h4] at this
  rw [this, List.drop_drop, fieldMSB]
  congr 3
  rw [Nat.add_mul (2 * r * w)]

example : dec16leSkiplines [1, 0, 2, 0, 3, 0, 4, 0, 5, 0, 6, 0, 7, 0, 8, 0] 2 2 = .ok [1, 2, 5, 6] := by decide +kernel

/-- Even rows from the start of the buffer, odd rows from `second`. -/
theorem interlaced_ok (buf second : List Nat) (hb : IsBytes buf) (hs : IsBytes second) (w h : Nat) (h0 : 0 < w) (hw : w % 2 = 0)
    (h1 : (h + 1) / 2 * w * 12 ≤ 8 * buf.length) (h2 : h / 2 * w * 12 ≤ 8 * second.length) :
    ∃ img, interlaced buf second w h = .ok img ∧
      Holds img w h (fun r c => fieldMSB 12 (if r % 2 = 0 then buf else second) (r / 2 * w + c)) := by
  obtain ⟨q, rfl⟩ : ∃ q, w = q * 2 := ⟨w / 2, by omega⟩
  rw [interlaced]
  refine linesFn_ok _ h h0 _ _ ?_
  intro r hr
  have e1 : ∀ r, r * (q * 2) * 12 = r * (q * 3) * 8 := by
    intro r; rw [Nat.mul_assoc, Nat.mul_assoc, Nat.mul_assoc r]; congr 1; omega
  have e2 : r / 2 * (q * 2) * 12 / 8 = r / 2 * (q * 3) := by rw [e1]; omega
  rw [e1] at h1 h2
  have e3 : (r / 2 + 1) * (q * 3) = r / 2 * (q * 3) + q * 3 := by rw [Nat.add_mul, Nat.one_mul]
  simp only [e2]
  have hlen : r / 2 * (q * 3) + q * 3 ≤ (if r % 2 = 0 then buf else second).length := by
    split
    · have : (r / 2 + 1) * (q * 3) ≤ (h + 1) / 2 * (q * 3) := Nat.mul_le_mul_right _ (by omega)
      omega
    · have : (r / 2 + 1) * (q * 3) ≤ h / 2 * (q * 3) := Nat.mul_le_mul_right _ (by omega)
      omega
  rw [from', if_pos (by omega)]
  simp only [bind, Except.bind]
  rw [pk12be.row q (r / 2) _ _ (by split <;> assumption) (by rw [List.length_replicate]) (by omega)]
  rfl

/-- 12 bit, even rows first, odd rows in a second field that follows the first directly. -/
theorem C13_12be_interlaced_unaligned (buf : List Nat) (hb : IsBytes buf) (w h : Nat) (h0 : 0 < w) (hw : w % 2 = 0)
    (hlen : h * w * 12 ≤ 8 * buf.length) :
    ∃ img, dec12beInterlacedUnaligned buf w h = .ok img ∧
      Holds img w h (fun r c => fieldMSB 12 buf (((if r % 2 = 0 then 0 else (h + 1) / 2) + r / 2) * w + c)) := by
  obtain ⟨q, rfl⟩ : ∃ q, w = q * 2 := ⟨w / 2, by omega⟩
  have e1 : ∀ r, r * (q * 2) * 12 = r * (q * 3) * 8 := by
    intro r; rw [Nat.mul_assoc, Nat.mul_assoc, Nat.mul_assoc r]; congr 1; omega
  have hsplit : h * (q * 3) = (h + 1) / 2 * (q * 3) + h / 2 * (q * 3) := by
    rw [← Nat.add_mul]; congr 1; omega
  have e2 : (h + 1) / 2 * (q * 2) * 12 / 8 = (h + 1) / 2 * (q * 3) := by rw [e1]; omega
  rw [e1] at hlen
  rw [dec12beInterlacedUnaligned, e1, if_neg (by omega), e2, from', if_pos (by omega)]
  simp only [bind, Except.bind]
  obtain ⟨img, e, hh⟩ := interlaced_ok buf (buf.drop ((h + 1) / 2 * (q * 3))) hb (fun x hx => hb x (List.mem_of_mem_drop hx)) (q * 2) h h0
    (by omega) (by rw [e1]; omega) (by rw [e1, List.length_drop]; omega)
  refine ⟨img, e, hh.1, ?_⟩
  intro r c hr hc
  rw [hh.2 r c hr hc]
  simp only []
  by_cases h2 : r % 2 = 0
  · simp only [if_pos h2, Nat.zero_add]
  · simp only [if_neg h2]
    rw [fieldMSB, bytesMSB_drop, List.drop_drop, fieldMSB]
    congr 4
    have := e1 ((h + 1) / 2)
    rw [Nat.add_mul, Nat.add_mul, Nat.add_mul, Nat.add_mul]; omega

example : dec12beInterlacedUnaligned [0x00, 0x10, 0x02, 0x00, 0x50, 0x06, 0x00, 0x30, 0x04] 2 3 = .ok [1, 2, 3, 4, 5, 6] := by decide +kernel

/-- 12 bit, even rows first, odd rows in a second field that starts at the next multiple of 2048 bytes. -/
theorem C13_12be_interlaced (buf : List Nat) (hb : IsBytes buf) (w h : Nat) (h0 : 0 < w) (hw : w % 2 = 0)
    (hlen : ((h + 1) / 2 * w * 3 / 2 / 2048 + 1) * 2048 + (h / 2 * w * 12 + 7) / 8 ≤ buf.length) :
    ∃ img, dec12beInterlaced buf w h = .ok img ∧
      Holds img w h (fun r c => fieldMSB 12 (if r % 2 = 0 then buf else buf.drop (((h + 1) / 2 * w * 3 / 2 / 2048 + 1) * 2048)) (r / 2 * w + c)) := by
  have e1 : (h + 1) >>> 1 = (h + 1) / 2 := by rw [Nat.shiftRight_eq_div_pow]
  have e2 : ∀ x, ((x >>> 11) + 1) <<< 11 = (x / 2048 + 1) * 2048 := by
    intro x; simp only [Nat.shiftLeft_eq, Nat.shiftRight_eq_div_pow, Nat.reducePow]
  rw [dec12beInterlaced]
  simp only [e1, e2]
  have hx : (h + 1) / 2 * w * 3 / 2 ≤ ((h + 1) / 2 * w * 3 / 2 / 2048 + 1) * 2048 := by
    generalize (h + 1) / 2 * w * 3 / 2 = y
    have := Nat.div_add_mod y 2048
    have := Nat.mod_lt y (show 2048 > 0 by decide)
    rw [Nat.add_mul, Nat.mul_comm]; omega
  generalize ((h + 1) / 2 * w * 3 / 2 / 2048 + 1) * 2048 = X at hlen hx ⊢
  have hev : (h + 1) / 2 * w % 2 = 0 := by rw [Nat.mul_mod, hw]; simp
  rw [show h - (h + 1) / 2 = h / 2 by omega, if_neg (Nat.not_lt.mpr hlen), from', if_pos (by omega)]
  simp only [bind, Except.bind]
  refine interlaced_ok buf _ hb (fun x hx => hb x (List.mem_of_mem_drop hx)) w h h0 hw (by omega) (by rw [List.length_drop]; omega)

/-- Samples of any size up to 16 bits read one after another, most significant bit first; any image size. -/
theorem C13_generic_msb (bits : Nat) (h16 : bits ≤ 16) (buf : List Nat) (hb : IsBytes buf) (w h : Nat) (hlen : h * w * bits ≤ 8 * buf.length) :
    ∃ img, decGenericMsb buf w h bits = .ok img ∧ Holds img w h (fun r c => fieldMSB bits buf (r * w + c)) := by
  have e1 := Nat.mul_comm w h
  rw [decGenericMsb, assert', if_pos (by simpa using h16)]
  simp only [bind, Except.bind]
  rw [if_neg (by rw [e1]; omega)]
  obtain ⟨p, e, _⟩ := getMany_ok (reads_msb bits h16) (natMSB_16 h16) (w * h) _ _ (PumpMSB.rep_new buf hb)
    (by rw [length_bytesMSB, e1]; exact hlen)
  rw [e]
  refine ⟨_, rfl, by simp [e1], ?_⟩
  intro r c hr hc
  have := mul_add_lt hr hc
  rw [List.getElem?_map, List.getElem?_range (by omega)]; rfl

/-- The same, least significant bit first. -/
theorem C13_generic_lsb (bits : Nat) (h16 : bits ≤ 16) (buf : List Nat) (hb : IsBytes buf) (w h : Nat) (hlen : h * w * bits ≤ 8 * buf.length) :
    ∃ img, decGenericLsb buf w h bits = .ok img ∧ Holds img w h (fun r c => fieldLSB bits buf (r * w + c)) := by
  have e1 := Nat.mul_comm w h
  rw [decGenericLsb, assert', if_pos (by simpa using h16)]
  simp only [bind, Except.bind]
  rw [if_neg (by rw [e1]; omega)]
  obtain ⟨p, e, _⟩ := getMany_ok (reads_lsb bits h16) (natLSB_16 h16) (w * h) _ _ (PumpLSB.rep_new buf hb)
    (by rw [length_bytesLSB, e1]; exact hlen)
  rw [e]
  refine ⟨_, rfl, by simp [e1], ?_⟩
  intro r c hr hc
  have := mul_add_lt hr hc
  rw [List.getElem?_map, List.getElem?_range (by omega)]; rfl

example : decGenericMsb [0x12, 0x34, 0x56, 0x78] 2 2 7 = .ok [0x09, 0x0d, 0x0a, 0x67] := by decide +kernel
example : decGenericLsb [0x12, 0x34, 0x56, 0x78] 2 2 7 = .ok [0x12, 0x68, 0x58, 0x42] := by decide +kernel

end Verif.Props
