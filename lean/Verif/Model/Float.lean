import Verif.Model.Packed
/-! # Floating point samples: `rawler/src/bits.rs`, `decompressors/packed.rs` (f32), `decompressors/deflate.rs`

An `f32` is represented by its bit pattern (`f32::from_bits` is not applied). -/

namespace Verif.Float
open Verif Verif.Packed

/-- `BinaryN<STORAGE_WIDTH, FRACTION_WIDTH, EXPONENT_WIDTH>`, bits.rs:263-311 -/
structure Fmt where
  storage : Nat
  frac : Nat
  exp : Nat
deriving DecidableEq

/-- bits.rs:313-315 -/
def binary16 : Fmt := ⟨16, 10, 5⟩
def binary24 : Fmt := ⟨24, 16, 7⟩
def binary32 : Fmt := ⟨32, 23, 8⟩

/-- `BIAS`, bits.rs:275-276 -/
def Fmt.bias (f : Fmt) : Nat := 2 ^ (f.exp - 1) - 1

/-- The normalisation loop, bits.rs:342-345. `wide_exponent -= 1` on `u32` panics at zero. The fraction fits 32 bits: it is below
`2^FRACTION_WIDTH` when shifted. -/
def normalise (wf : Nat) : Nat → Nat → Nat → R (Nat × Nat)
  | 0, _, _ => panic'
  | fuel + 1, e, f =>
    if f &&& 2 ^ wf = 0 then do
      let e ← usub e 1
      normalise wf fuel e ((f <<< 1) % 2 ^ 32)
    else .ok (e, f)

/-- Exponent and fraction fields of the wide number, bits.rs:323-347. -/
def wideFields (n w : Fmt) (e f : Nat) : R (Nat × Nat) :=
  if e = 2 ^ n.exp - 1 then .ok (2 ^ w.exp - 1, f <<< (w.frac - n.frac))
  else if e = 0 then
    if f = 0 then .ok (0, 0)
    else do
      let (e, f) ← normalise w.frac 33 (1 + w.bias - n.bias) (f <<< (w.frac - n.frac))
      .ok (e, f &&& (2 ^ w.frac - 1))
  else .ok (e + w.bias - n.bias, f <<< (w.frac - n.frac))

/-- `extend_binary_floating_point`, bits.rs:317-352. The differences of biases are non-negative for the formats in use. -/
def extend (n w : Fmt) (v : Nat) : R Nat := do
  let s := (v >>> (n.storage - 1)) &&& 1
  let e := (v >>> n.frac) &&& (2 ^ n.exp - 1)
  let f := v &&& (2 ^ n.frac - 1)
  let (e, f) ← wideFields n w e f
  .ok (((s <<< (w.storage - 1)) % 2 ^ 32) ||| ((e <<< w.frac) % 2 ^ 32) ||| f)

/-! ## `Decompressor<f32>` of `DeflateDecompressor` after inflation -/

/-- `decode_delta_bytes`, deflate.rs:118-122 -/
def decodeDelta (factor : Nat) (src : List Nat) : R (List Nat) :=
  forN (src.length - factor) (fun i s => do
    let a ← idx s (factor + i)
    let b ← idx s (factor + i - factor)
    upd s (factor + i) ((a + b) % 256)) src

/-- `u32::from_be_bytes(tmp) >> (32 - STORAGE_WIDTH)`, deflate.rs:129-132 -/
def planeValue (n : Fmt) (row : List Nat) (width col : Nat) : R Nat := do
  let tmp ← (List.range (n.storage / 8)).mapM fun c => idx row (col + c * width)
  .ok ((tmp ++ List.replicate (4 - n.storage / 8) 0).foldl (fun a b => a * 256 + b) 0 >>> (32 - n.storage))

/-- `decode_fp_delta_row`, deflate.rs:124-135 -/
def decodeFpRow (n : Fmt) (row : List Nat) (width : Nat) : R (List Nat) :=
  (List.range width).mapM fun col => do
    let v ← planeValue n row width col
    extend n binary32 v

/-- One row of an inflated tile, deflate.rs:99-107. -/
def deflateRow (n : Fmt) (factor : Nat) (row : List Nat) (width : Nat) : R (List Nat) := do
  let row ← decodeDelta factor row
  decodeFpRow n row width

/-- `DeflateDecompressor::new`, deflate.rs:61-70: the distance of the predictor. -/
def predFactor (cpp predictor : Nat) : R Nat :=
  if predictor = 3 then .ok (cpp * 1)
  else if predictor = 34894 then .ok (cpp * 2)
  else if predictor = 34895 then .ok (cpp * 4)
  else panic'

/-- The format selected by `bps`, deflate.rs:102-107. -/
def deflateFmt (bps : Nat) : R Fmt :=
  if bps = 16 then .ok binary16 else if bps = 24 then .ok binary24 else if bps = 32 then .ok binary32 else panic'

/-- `DeflateDecompressor::decompress`, deflate.rs:88-110. `inflate` is the zlib decoder of the `libflate` crate (`none` = error).
`chunks_exact_mut(0)` panics. Lines before `skip` and lines without data keep their content. -/
def deflate (inflate : List Nat → Option (List Nat)) (factor bps : Nat) (src : List Nat) (skip : Nat) (lines : List (List Nat)) (width : Nat) :
    R (List (List Nat)) :=
  match inflate src with
  | none => fail'
  | some data => do
    let bytesps := bps / 8
    assert' (2 ≤ bytesps ∧ bytesps ≤ 4)
    if data.length ≠ bytesps * width * lines.length then fail' else do
    let rows ← chunksExact data (bytesps * width)
    let out ← ((lines.zip rows).drop skip).mapM fun (_, row) => do
      let n ← deflateFmt bps
      deflateRow n factor row width
    .ok (lines.take skip ++ out)

end Verif.Float
