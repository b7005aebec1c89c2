import Verif.Model.Packed
import Verif.Model.Ciff
/-! # Phase One IIQ decompression (rawler/src/decoders/iiq.rs)

The `dummy` flag is `false`. Rows are decoded by `decompress_lines_fn` (`Packed.linesFn`). -/

namespace Verif.Iiq
open Verif Verif.Pumps Verif.Packed

/-- `(v as u16) << value_shift`: the shift is less than 16, bits that leave the word are lost. -/
def shl16 (v shift : Nat) : Nat := ((v % 65536) <<< shift) % 65536

/-! ## Not compressed -/

/-- The row of `decode_uncompressed`, iiq.rs:1023-1026 -/
def rowU (buffer : List Nat) (width shift : Nat) (line : List Nat) (row : Nat) : R (List Nat) :=
  forN width (fun i line => do
    let v ← Ciff.leU16 buffer (row * (width * 2) + i * 2)
    upd line i (shl16 v shift)) line

/-- `decode_uncompressed`, iiq.rs:1017-1030; `MAX_BITDEPTH` is 16. -/
def decodeUncompressed (buffer : List Nat) (width height bits : Nat) : R (List Nat) := do
  let shift ← usub 16 bits
  linesFn width height (rowU buffer width shift)

/-! ## IIQ L -/

/-- `lens`, iiq.rs:1035 -/
def lens : List Nat := [8, 7, 6, 9, 11, 10, 5, 12, 14, 13]

/-- `while j < 5 && pump.get_bits(1) == 0 { j += 1 }`, iiq.rs:1052-1054: at most `n` more. -/
def zeros (n j : Nat) (p : PumpMSB32) : R (Nat × PumpMSB32) :=
  match n with
  | 0 => .ok (j, p)
  | n + 1 => do
    let (b, p) ← getBits p 1
    if b = 0 then zeros n (j + 1) p else .ok (j, p)

/-- The new length of a group, iiq.rs:1051-1057 -/
def newLen (len : Nat) (p : PumpMSB32) : R (Nat × PumpMSB32) := do
  let (j, p) ← zeros 5 0 p
  if j > 0 then do
    let (b, p) ← getBits p 1
    let l ← idx lens ((j - 1) * 2 + b)
    .ok (l, p)
  else .ok (len, p)

/-- `pred`, `len` and the row, iiq.rs:1043-1044 -/
structure StL where
  pred0 : Nat
  pred1 : Nat
  len0 : Nat
  len1 : Nat
  line : List Nat

/-- The lengths at a column, iiq.rs:1046-1059. `col & 7` and the mask of the width are the same as remainders and multiples of 8. -/
def lensAt (width col : Nat) (p : PumpMSB32) (len0 len1 : Nat) : R (PumpMSB32 × Nat × Nat) :=
  if col ≥ width &&& 0xfffffff8 then .ok (p, 14, 14)
  else if col &&& 7 = 0 then do
    let (l0, p) ← newLen len0 p
    let (l1, p) ← newLen len1 p
    .ok (p, l0, l1)
  else .ok (p, len0, len1)

/-- The next value from the one before it, iiq.rs:1060-1065: sums and differences of `u32`. -/
def valueL (i pred : Nat) (p : PumpMSB32) : R (Nat × PumpMSB32) :=
  if i = 14 then getBits p 16
  else do
    let (d, p) ← getBits p i
    if pred + d + 1 < 2 ^ 32 then do
      let i1 ← usub i 1
      let v ← usub (pred + d + 1) (1 <<< i1)
      .ok (v, p)
    else panic'

/-- A column, iiq.rs:1045-1067 -/
def colL (width shift col : Nat) (st : PumpMSB32 × StL) : R (PumpMSB32 × StL) := do
  let (p, l0, l1) ← lensAt width col st.1 st.2.len0 st.2.len1
  if col &&& 1 = 0 then do
    let (v, p) ← valueL l0 st.2.pred0 p
    let line ← upd st.2.line col (shl16 v shift)
    .ok (p, ⟨v, st.2.pred1, l0, l1, line⟩)
  else do
    let (v, p) ← valueL l1 st.2.pred1 p
    let line ← upd st.2.line col (shl16 v shift)
    .ok (p, ⟨st.2.pred0, v, l0, l1, line⟩)

/-- A row, iiq.rs:1040-1069 -/
def rowL (buffer strips : List Nat) (width shift : Nat) (line : List Nat) (row : Nat) : R (List Nat) := do
  let offset ← Ciff.leU32 strips (row * 4)
  let src ← from' buffer offset
  let (_, st) ← forN width (colL width shift) (PumpMSB32.new src, ⟨0, 0, 0, 0, line⟩)
  .ok st.line

/-- `decode_compressed`, iiq.rs:1033-1071 -/
def decodeCompressed (buffer strips : List Nat) (width height bits : Nat) : R (List Nat) := do
  let shift ← usub 16 bits
  linesFn width height (rowL buffer strips width shift)

/-- `decode_nonlinear`, iiq.rs:995-1014. Simplified: the curve, 256 values calculated with `f32`, is a parameter. -/
def decodeNonlinear (curve : List Nat) (buffer strips : List Nat) (width height bits : Nat) : R (List Nat) := do
  let img ← decodeCompressed buffer strips width height 16
  let shift ← usub 16 bits
  img.mapM fun pix => if pix < 256 then do
      let v ← idx curve pix
      .ok (shl16 v shift)
    else .ok pix

/-! ## IIQ S, version 2 -/

/-- `SV2_BIT_INDICATOR`, iiq.rs:63-68 -/
def bitIndicator : List Nat :=
  [9, 8, 0, 7, 6, 6, 5, 5, 1, 1, 1, 1, 4, 4, 4, 4, 3, 3, 3, 3, 3, 3, 3, 3, 2, 2, 2, 2, 2, 2, 2, 2]

/-- `SV2_SKIP_BITS`, iiq.rs:70-75 -/
def skipBits : List Nat :=
  [5, 5, 5, 5, 4, 4, 4, 4, 3, 3, 3, 3, 3, 3, 3, 3, 2, 2, 2, 2, 2, 2, 2, 2, 2, 2, 2, 2, 2, 2, 2, 2]

/-- `SV2_USED_CORR`, iiq.rs:51-55 -/
def usedCorr : List Nat := [3, 3, 3, 3, 1, 1, 1, 1]

/-- `SV2_EXTRA_BITS`, iiq.rs:57-61 -/
def extraBits : List Nat := [1, 2, 3, 4, 0, 0, 0, 0]

/-- The size class of the even or of the odd samples of a cluster, iiq.rs:1099-1112 -/
def newCheck (b : Nat) (p : PumpMSB32) : R (Nat × PumpMSB32) := do
  let (i, p) ← BitPump.peek p 7
  let p ← BitPump.consume p 2
  if i ≥ 32 then do
    let b ← usub (i >>> 5 + b) 2
    .ok (b, p)
  else do
    let b ← idx bitIndicator i
    let s ← idx skipBits i
    let p ← BitPump.consume p s
    .ok (b, p)

/-- `u32 >> n`: panics from 32 on. -/
def shrU32 (x n : Nat) : R Nat := if n < 32 then .ok (x >>> n) else panic'

/-- `u32 << n`: panics from 32 on, bits that leave the word are lost. -/
def shlU32 (x n : Nat) : R Nat := if n < 32 then .ok ((x <<< n) % 2 ^ 32) else panic'

/-- `prev_pix_value` and the row; `check_val`, iiq.rs:1087, 1128 -/
structure StS where
  prev0 : Nat
  prev1 : Nat
  check : Nat
  line : List Nat

/-- What is fixed in a cluster, iiq.rs:1118-1126 -/
structure Cluster where
  nbits : Nat
  b0 : Nat
  b1 : Nat
  corr0 : Nat
  corr1 : Nat
  diff0 : Nat
  diff1 : Nat

/-- A value, iiq.rs:1131-1139: with what `check_val` is to be combined -/
def valueS (nbits b corr diff prev : Nat) (p : PumpMSB32) : R (Nat × Nat × PumpMSB32) :=
  if b = 9 then do
    let (v, p) ← getBits p 14
    .ok (v, 0, p)
  else do
    let (d, p) ← getBits p nbits
    let s ← shlU32 d corr
    if prev + s < 2 ^ 32 then do
      let v ← usub (prev + s) diff
      .ok (v, v, p)
    else panic'

/-- The same value in error recovery, iiq.rs:1151-1158. The numbers are far from the limits of `i32` (see `valueS`, which ran before on
the same bits), so overflow of the `i32` is not modelled here. -/
def valueR (nbits b corr diff prev : Nat) (p : PumpMSB32) : R (Nat × PumpMSB32) :=
  if b = 9 then getBits p 14
  else do
    let (d, p) ← getBits p nbits
    let s ← shlU32 d corr
    .ok (min (prev + s - diff) 0x3FFF, p)

/-- One of the eight samples, iiq.rs:1130-1142 -/
def sampleS (K : Cluster) (pos shift i : Nat) (st : PumpMSB32 × StS) : R (PumpMSB32 × StS) :=
  if i &&& 1 = 0 then do
    let (v, c, p) ← valueS K.nbits K.b0 K.corr0 K.diff0 st.2.prev0 st.1
    let line ← upd st.2.line (pos + i) (shl16 v shift)
    .ok (p, ⟨v, st.2.prev1, st.2.check ||| c, line⟩)
  else do
    let (v, c, p) ← valueS K.nbits K.b1 K.corr1 K.diff1 st.2.prev1 st.1
    let line ← upd st.2.line (pos + i) (shl16 v shift)
    .ok (p, ⟨st.2.prev0, v, st.2.check ||| c, line⟩)

/-- One of the eight samples in error recovery, iiq.rs:1150-1161 -/
def sampleR (K : Cluster) (pos shift i : Nat) (st : PumpMSB32 × StS) : R (PumpMSB32 × StS) :=
  if i &&& 1 = 0 then do
    let (v, p) ← valueR K.nbits K.b0 K.corr0 K.diff0 st.2.prev0 st.1
    let line ← upd st.2.line (pos + i) (shl16 v shift)
    .ok (p, ⟨v, st.2.prev1, st.2.check, line⟩)
  else do
    let (v, p) ← valueR K.nbits K.b1 K.corr1 K.diff1 st.2.prev1 st.1
    let line ← upd st.2.line (pos + i) (shl16 v shift)
    .ok (p, ⟨st.2.prev0, v, st.2.check, line⟩)

/-- `bit_check`, `prev_pix_value` and the row, iiq.rs:1086-1087 -/
structure RowS where
  b0 : Nat
  b1 : Nat
  prev0 : Nat
  prev1 : Nat
  line : List Nat

/-- What is fixed in a cluster, from the size classes and the bits, iiq.rs:1115-1126 -/
def clusterOf (baseBits b0 b1 : Nat) (p : PumpMSB32) : R (Cluster × PumpMSB32) := do
  let (x, p) ← BitPump.peek p 3
  let u ← idx usedCorr x
  let p ← BitPump.consume p u
  let e ← idx extraBits x
  let init ← usub 17 baseBits
  let s0 ← usub init b0
  let diff0 ← shrU32 0xffff s0
  let s1 ← usub init b1
  let diff1 ← shrU32 0xffff s1
  .ok (⟨baseBits + e, b0, b1, b0 - e, b1 - e, diff0, diff1⟩, p)

/-- A cluster of the row, iiq.rs:1091-1169. The savepoint of the pump is from before the three bits of the correction are read. -/
def cluster (baseBits width shift k : Nat) (st : PumpMSB32 × RowS) : R (PumpMSB32 × RowS) :=
  if 8 * k + 8 ≤ width then do
    let (b0, p) ← newCheck st.2.b0 st.1
    let (b1, p) ← newCheck st.2.b1 p
    let save := p
    let (K, p) ← clusterOf baseBits b0 b1 p
    let (p, s) ← forN 8 (sampleS K (8 * k) shift) (p, ⟨st.2.prev0, st.2.prev1, 0, st.2.line⟩)
    if s.check &&& 0x3fff ≠ s.check then do
      let (p, s) ← forN 8 (sampleR K (8 * k) shift) (save, s)
      .ok (p, ⟨b0, b1, s.prev0, s.prev1, s.line⟩)
    else .ok (p, ⟨b0, b1, s.prev0, s.prev1, s.line⟩)
  else do
    let (p, line) ← forN (width - 8 * k) (fun i (st : PumpMSB32 × List Nat) => do
      let (v, p) ← getBits st.1 14
      let line ← upd st.2 (8 * k + i) (shl16 v shift)
      .ok (p, line)) (st.1, st.2.line)
    .ok (p, { st.2 with line := line })

/-- A row, iiq.rs:1082-1171 -/
def rowS (buffer strips : List Nat) (width shift : Nat) (line : List Nat) (row : Nat) : R (List Nat) := do
  let offset ← Ciff.leU32 strips (row * 4)
  let src ← from' buffer offset
  let (b, p) ← getBits (PumpMSB32.new src) 16
  let (_, st) ← forN ((width + 7) / 8) (cluster (b &&& 7) width shift) (p, ⟨0, 0, 0, 0, line⟩)
  .ok st.line

/-- `decode_compressed_sv2`, iiq.rs:1075-1174 -/
def decodeSv2 (buffer strips : List Nat) (width height bits : Nat) : R (List Nat) := do
  let shift ← usub 16 bits
  linesFn width height (rowS buffer strips width shift)

end Verif.Iiq
