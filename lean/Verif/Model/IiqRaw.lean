import Verif.Model.IiqTab
import Verif.Model.Iiq
import Verif.Model.Small
/-! # Phase One: the picture of a file (decoders/iiq.rs)

The `dummy` flag is `false`. The curve of IIQ S, the meaning of `f32` bits and the colours of the camera are parameters; white balance is kept as bits. -/

namespace Verif.IiqRaw
open Verif Verif.IiqTab Verif.IiqCorr Verif.IiqPoly Verif.IiqFlat

/-- What is needed of a camera and of `f32` -/
structure Env where
  curve : List Nat
  f32 : Nat → Rat
  color : Nat → Nat → Nat
  color4 : Nat → Nat → Nat

/-- `self.makernotes.get(tag)` or an error: size and number -/
def need (notes : Notes) (tag : Nat) : R (Nat × Nat) :=
  match notes tag with
  | some (n, v) => .ok (n, num v)
  | none => fail'

/-- The match on the format, iiq.rs:257-265 -/
def decodeAs (env : Env) (fmt : Nat) (data strips : List Nat) (w h : Nat) : R (List Nat) :=
  if fmt = 1 then panic'
  else if fmt = 2 then panic'
  else if fmt = 0 then Iiq.decodeUncompressed data w h 14
  else if fmt = 3 then Iiq.decodeCompressed data strips w h 14
  else if fmt = 8 then Iiq.decodeCompressed data strips w h 16
  else if fmt = 5 then Iiq.decodeNonlinear env.curve data strips w h 14
  else Iiq.decodeSv2 data strips w h 14

/-- `blacklevel().unwrap_or(0)`, iiq.rs:267, 749-754: `force_u16` of a larger number is 0. -/
def blackOf (notes : Notes) : Nat :=
  match notes 0x21d with
  | some (_, v) => if num v < 65536 then num v else 0
  | none => 0

/-- `split_offsets`, iiq.rs:677-685, as row and column -/
def splitOf (notes : Notes) : Option (Nat × Nat) :=
  match notes 0x222, notes 0x224 with
  | some (_, col), some (_, row) => some (num row, num col)
  | _, _ => none

/-- `split_column`, iiq.rs:668-675 -/
def splitCol (notes : Notes) : Option Nat := (notes 0x222).map fun v => num v.2

/-- `sensor_temp`, iiq.rs:657-666 -/
def tempOf (env : Env) (notes : Notes) : Option Rat := (notes 0x210).map fun v => env.f32 (num v.2)

/-- `sensor_margins().unwrap_or((0, 0))`, iiq.rs:641-655, 773 -/
def marginsOf (notes : Notes) : Nat × Nat :=
  match notes 0x10a, notes 0x10b with
  | some (_, l), some (_, t) => (num l, num t)
  | _, _ => (0, 0)

/-- `read_i16` -/
def readI16 (file : List Nat) (p : Nat) : R Int := do
  let v ← read16 file p
  .ok (if v < 32768 then (v : Int) else (v : Int) - 65536)

/-- `split_blacks`, iiq.rs:687-710 -/
def blacksOf (file : List Nat) (notes : Notes) : R (Option (List Int × List Int)) :=
  match notes 0x223, notes 0x225 with
  | some (lc, c), some (lr, r) => do
    let cols ← readMany (readI16 file) (num c + 8) 2 (lc / 2)
    let rows ← readMany (readI16 file) (num r + 8) 2 (lr / 2)
    .ok (some (cols, rows))
  | _, _ => .ok none

/-- `correct_raw`, iiq.rs:616-626 -/
def correctRaw (env : Env) (notes : Notes) (black : Nat) (blacks : Option (List Int × List Int)) (c : Calib) (w h : Nat) (img : List Nat) : R (List Nat) := do
  let img ← correctBlack black blacks (splitOf notes) w h img
  let img ← correctHalf c.half (splitCol notes) (tempOf env notes) w h img
  let img := correctFull c.full img
  let img ← correctMul c.mult (splitOf notes) w h img
  let img ← correctCombined c.combined (splitOf notes) w h img
  let img ← correctLinear c.linear (splitOf notes) w h img
  let img ← (match c.defects with
    | some l => correctDefects env.color l w h img
    | none => .ok img)
  correctFlat env.color4 (marginsOf notes) w h c.flats img

/-- `raw_image`, iiq.rs:232-283: size, pixels and the bits of the white balance -/
def rawImage (env : Env) (file : List Nat) (notes : Notes) : R (Nat × Nat × List Nat × List Nat) := do
  let fmt ← need notes 0x10e
  assertFmt fmt.2
  let wb ← need notes 0x107
  let w ← need notes 0x108
  let h ← need notes 0x109
  let d ← need notes 0x10f
  let s ← (if fmt.2 ≠ 0 then do
      let s ← need notes 0x21c
      .ok (s.2 + 8, s.1)
    else .ok (0, 0) : R (Nat × Nat))
  if w.2 = 0 ∨ h.2 = 0 then fail' else do
  let data ← Small.subview file (d.2 + 8) d.1
  let strips ← Small.subview file s.1 s.2
  let img ← decodeAs env fmt.2 data strips w.2 h.2
  let blacks ← blacksOf file notes
  let c ← readCalib env.f32 file notes
  let img ← correctRaw env notes (blackOf notes) blacks c w.2 h.2 img
  let b ← Small.subview file (wb.2 + 8) 12
  let r ← Small.le32 b 0
  let g ← Small.le32 b 4
  let bl ← Small.le32 b 8
  .ok (w.2, h.2, img, [r, g, bl])
where
  /-- `IiqCompression::try_from`, iiq.rs:129-140 -/
  assertFmt (f : Nat) : R Unit := if f = 0 ∨ f = 1 ∨ f = 2 ∨ f = 3 ∨ f = 5 ∨ f = 6 ∨ f = 8 then .ok () else fail'

end Verif.IiqRaw
