import Verif.Model.Color
import Verif.Model.PixArray
import Mathlib.Data.Rat.Floor
/-! # Fuji sensors turned by 45 degrees

The diagonal arrangement of the samples, rawler/src/decoders/raf.rs:599-647, and the turning back of the developed picture, rawler/src/imgop/fuji_rotate.rs.
Simplified: `f64` and `f32` numbers are exact rationals, with the exact values of the two constants; rounding of the arithmetic is left out. -/

namespace Verif.FujiRotate
open Verif Verif.Pix Verif.Color

/-- What `RafDecoder::rotate_image` makes of the active area: `cw` by `ch` samples from `x`, `y` on, raf.rs:612-624 (`alt`) and 627-639. The result is the
picture and the rotation width. The stores are one after the other; the buffer starts with zeros (`alloc_image_plain!`). -/
def rotateImage (src : List Nat) (width x y cw ch : Nat) (alt : Bool) : R (Pix Nat × Nat) := do
  let rw := if alt then ch + cw / 2 else cw + ch / 2
  let rh ← usub rw 1
  let out ← forN ch (fun row out => do
    let inb ← slice src ((row + y) * width + x) src.length
    forN cw (fun col out => do
      let oRow ← (if alt then usub rw (ch + 1 - row + col / 2) else .ok (cw - 1 - col + row / 2) : R Nat)
      let oCol := if alt then (col + 1) / 2 + row else (row + 1) / 2 + col
      let v ← idx inb col
      upd out (oRow * rw + oCol) v) out) (List.replicate (rw * rh) 0)
  .ok (⟨rw, rh, out⟩, if alt then ch else cw)

/-- The sizes of the active area, raf.rs:603-606. `active_area` has four numbers. -/
def rotateActive (src : List Nat) (width height : Nat) (active : Nat × Nat × Nat × Nat) (alt : Bool) : R (Pix Nat × Nat) := do
  let (x, y, a2, a3) := active
  let cw ← usub width a2
  let cw ← usub cw x
  let ch ← usub height a3
  let ch ← usub ch y
  rotateImage src width x y cw ch alt

/-- `std::f64::consts::SQRT_2` -/
def sqrt2 : ℚ := 6369051672525773 / 4503599627370496

/-- `std::f64::consts::FRAC_1_SQRT_2` -/
def invSqrt2 : ℚ := 6369051672525773 / 9007199254740992

/-- `fuji_calc_dimension`, fuji_rotate.rs:24-37: width and height. A negative number becomes zero as `usize`. -/
def calcDimension (width t : Nat) : Nat × Nat :=
  let cropW := ⌊(t : ℚ) * sqrt2⌋.toNat
  let cropH := ⌊((width : ℚ) - t) * sqrt2⌋.toNat
  if cropH < cropW then (cropW, cropH) else (cropH, cropW)

/-- `f64::round`: to the nearest, half away from zero -/
def round (q : ℚ) : Int := if 0 ≤ q then ⌊q + 1 / 2⌋ else -⌊-q + 1 / 2⌋

/-- The sum of fuji_rotate.rs:92-95 for one channel -/
def blend (fx fy a b c d : ℚ) : ℚ := a * (1 - fx) * (1 - fy) + b * fx * (1 - fy) + c * (1 - fx) * fy + d * fx * fy

/-- One pixel of `rotate_45cw`, fuji_rotate.rs:57-98; a pixel that is skipped stays black. -/
def turnPixel (src : Pix Rgb) (W H row col : Nat) : R Rgb :=
  let dx : ℚ := (col : ℚ) - (W : ℚ) / 2
  let dy : ℚ := (row : ℚ) - (H : ℚ) / 2
  let x := (dx + dy) * invSqrt2 + (src.width : ℚ) / 2
  let y := (dy - dx) * invSqrt2 + (src.height : ℚ) / 2
  let sx := round x
  let sy := round y
  if sx < 0 ∨ (src.width : Int) ≤ sx ∨ sy < 0 ∨ (src.height : Int) ≤ sy then .ok (0, 0, 0) else
  let x0 := ⌊x⌋
  let y0 := ⌊y⌋
  if x0 < 0 ∨ y0 < 0 ∨ (src.width : Int) ≤ x0 + 1 ∨ (src.height : Int) ≤ y0 + 1 then src.at' sy.toNat sx.toNat
  else do
    let fx := x - x0
    let fy := y - y0
    let a ← src.at' y0.toNat x0.toNat
    let b ← src.at' y0.toNat (x0 + 1).toNat
    let c ← src.at' (y0 + 1).toNat x0.toNat
    let d ← src.at' (y0 + 1).toNat (x0 + 1).toNat
    .ok (blend fx fy a.1 b.1 c.1 d.1, blend fx fy a.2.1 b.2.1 c.2.1 d.2.1, blend fx fy a.2.2 b.2.2 c.2.2 d.2.2)

/-- `rotate_45cw`, fuji_rotate.rs:41-103. Every pixel is written at most once, so the model lists the pixels. -/
def rotate45 (src : Pix Rgb) (t : Nat) : R (Pix Rgb) := do
  let d := calcDimension src.width t
  let data ← genRows d.2 d.1 (turnPixel src d.1 d.2)
  .ok ⟨d.1, d.2, data⟩

/-- `fuji_normalize_rotation`, fuji_rotate.rs:12-22 -/
def normalizeRotation (src : Pix Rgb) (t : Nat) (extra : Bool) : R (Pix Rgb) :=
  if extra then do
    let s ← src.rotate90cw
    rotate45 s t
  else rotate45 src t

end Verif.FujiRotate
