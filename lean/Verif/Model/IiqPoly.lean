import Verif.Model.IiqCorr
/-! # Phase One: polynomial curves and multipliers of the quadrants (decoders/iiq.rs)

`f32` is rational. The `vec` with the values of a curve is a function; the pixels are numbers of 16 bits and never outside it. -/

namespace Verif.IiqPoly
open Verif Verif.IiqCorr

/-- `clamp(num as i32, 0, 0xffff) as u16`; `as i32` rounds towards zero and saturates. -/
def toWord (num : Rat) : Nat := toU16 (some num)

/-- The curve of `correct_raw_poly_half`, iiq.rs:339-346. `poly[3]` includes the correction for the temperature. -/
def halfCurve (poly : List Rat) (temp : Rat) : R (Nat → Nat) := do
  let p1 ← idx poly 1
  let p3 ← idx poly 3
  let p5 ← idx poly 5
  let p6 ← idx poly 6
  let p7 ← idx poly 7
  let p3 := p3 + ((temp - p7) * p6 + 1)
  .ok fun i => toWord ((p5 * i + p3) * i + p1)

/-- `correct_raw_poly_half`, iiq.rs:334-356 -/
def correctHalf (poly : Option (List Rat)) (split : Option Nat) (temp : Option Rat) (w h : Nat) (img : List Nat) : R (List Nat) :=
  match poly with
  | none => .ok img
  | some poly =>
    match split with
    | none => panic'
    | some sc =>
      match temp with
      | none => panic'
      | some t => do
        let curve ← halfCurve poly t
        genRows h w fun row col => do
          let pix ← idx img (row * w + col)
          .ok (if col < sc then pix else curve pix)

/-- The loop over the coefficients from the last one, iiq.rs:364-367 -/
def horner (x : Rat) : List Rat → Rat
  | [] => 0
  | p :: r => horner x r * x + p

/-- `correct_raw_poly_full`, iiq.rs:359-373 -/
def correctFull (poly : Option (List Rat)) (img : List Nat) : List Nat :=
  match poly with
  | none => img
  | some poly => img.map fun (pix : Nat) => toWord (horner (pix : Rat) poly + pix)

/-- `correct_raw_q_mul`, iiq.rs:428-448; the split is row and column. -/
def correctMul (mult : Option (List Rat)) (split : Option (Nat × Nat)) (w h : Nat) (img : List Nat) : R (List Nat) :=
  match mult with
  | none => .ok img
  | some m =>
    match split with
    | none => panic'
    | some (sr, sc) => do
      let m4 ← idx m 4
      let m10 ← idx m 10
      let m14 ← idx m 14
      let m18 ← idx m 18
      genRows h w fun row col => do
        let qr := if row ≥ sr then 1 else 0
        let qc := if col ≥ sc then 1 else 0
        let pix ← idx img (row * w + col)
        let q ← idx [1 + m4, 1 + m10, 1 + m14, 1 + m18] (2 * qr + qc)
        .ok (toWord (q * pix))

end Verif.IiqPoly
