import Verif.Base
import Mathlib.Algebra.Order.Field.Rat
/-! # From camera colours to sRGB

rawler/src/imgop/matrix.rs, chromatic_adaption.rs, xyz.rs, raw.rs. A matrix is a function of row and column. Numbers are rational: the rounding of `f32`, NaN
and the infinities are not modelled (a division by zero gives 0 here). Decimal constants are taken as written. -/

namespace Verif.Color
open Verif

abbrev Mat := Nat → Nat → ℚ
abbrev Rgb := ℚ × ℚ × ℚ
abbrev Quad := ℚ × ℚ × ℚ × ℚ

/-- Sum of `f 0 .. f (n-1)`, the inner loops of matrix.rs -/
def sumTo (n : Nat) (f : Nat → ℚ) : ℚ := (List.range n).foldl (fun s i => s + f i) 0

/-- `multiply`, matrix.rs:7-17; `x` is the number of columns of `a` and rows of `b`. -/
def multiply (x : Nat) (a b : Mat) : Mat := fun i j => sumTo x fun k => a i k * b k j

/-- `normalize`, matrix.rs:29-40, for three columns -/
def normalize (m : Mat) : Mat := fun i j =>
  let s := sumTo 3 (m i)
  if s ≠ 0 then m i j / s else 0

/-- `work` before the elimination, matrix.rs:47-57: three rows of six numbers -/
def gram (n : Nat) (m : Mat) : Mat := fun i j =>
  if j < 3 then sumTo n fun k => m k i * m k j else if j = i + 3 then 1 else 0

/-- One round of the elimination, matrix.rs:58-72. `num` is read before the loop that changes it. -/
def eliminate (i : Nat) (w : Mat) : Mat :=
  let w1 : Mat := fun r j => if r = i then w i j / w i i else w r j
  fun k j => if k = i then w1 k j else w1 k j - w1 i j * w1 k i

/-- `pseudo_inverse`, matrix.rs:43-86, of a matrix of `n` rows and three columns -/
def pseudoInverse (n : Nat) (m : Mat) : Mat :=
  let w := eliminate 2 (eliminate 1 (eliminate 0 (gram n m)))
  fun i j => sumTo 3 fun k => w i (k + 3) * m j k

/-- A matrix from its entries row by row, three in a row -/
def rows3 (l : List ℚ) : Mat := fun i j => if j < 3 then l.getD (i * 3 + j) 0 else 0

/-- `SRGB_TO_XYZ_D65`, xyz.rs:102-106 -/
def srgbToXyz : Mat := rows3 [0.4124564, 0.3575761, 0.1804375, 0.2126729, 0.7151522, 0.0721750, 0.0193339, 0.1191920, 0.9503041]

/-- `IDENTITY_MATRIX_3`, matrix.rs:4 -/
def identity3 : List ℚ := [1, 0, 0, 0, 1, 0, 0, 0, 1]

/-! ## Chromatic adaption -/

/-- The illuminants of `develop_intermediate`, develop.rs:235-243; others are never looked for. -/
inductive Illu | d65 | a | b | c | d50 | d55 | d75 | daylight | flash
  deriving DecidableEq, Repr

/-- `BRADFORD_ADAPTION`, chromatic_adaption.rs:9-14 -/
def bradford : Mat := rows3 [0.8951000, 0.2664000, -0.1614000, -0.7502000, 1.7135000, 0.0367000, 0.0389000, -0.0685000, 1.0296000]

/-- `BRADFORD_ADAPTION_INVERSE`, chromatic_adaption.rs:16-21 -/
def bradfordInverse : Mat := rows3 [0.9869929, -0.1470543, 0.1599627, 0.4323053, 0.5183603, 0.0492912, -0.0085287, 0.0400428, 0.9684867]

/-- `illuminant_to_XYZ_tristimulus`, chromatic_adaption.rs:27-59, with the constants of xyz.rs:144-156 -/
def tristimulus : Illu → List ℚ
  | .d65 => [0.95047, 1, 1.08883]
  | .a => [1.09850, 1, 0.35585]
  | .b => [0.99072, 1, 0.85223]
  | .c => [0.98074, 1, 1.18232]
  | .d50 => [0.96422, 1, 0.82521]
  | .d55 => [0.95682, 1, 0.92149]
  | .d75 => [0.94972, 1, 1.22638]
  | .daylight => [0.95047, 1, 1.08883]
  | .flash => [0.95682, 1, 0.92149]

/-- `multiply_row1`, matrix.rs:19-26: a matrix of three columns times a vector -/
def apply3 (m : Mat) (v : List ℚ) (i : Nat) : ℚ := m i 0 * v.getD 0 0 + m i 1 * v.getD 1 0 + m i 2 * v.getD 2 0

/-- `bradford_adaption_matrix`, chromatic_adaption.rs:62-76 -/
def bradfordMatrix (src dst : Illu) : Mat :=
  let diag : Mat := fun i j => if i = j then apply3 bradford (tristimulus dst) i / apply3 bradford (tristimulus src) i else 0
  multiply 3 (multiply 3 bradfordInverse diag) bradford

/-- `adapt_bradford`, chromatic_adaption.rs:78-81 -/
def adaptBradford (src dst : Illu) (m : Mat) : Mat := multiply 3 m (bradfordMatrix src dst)

/-! ## Choice of the matrix -/

/-- The order in which matrices are looked for, develop.rs:234-244 -/
def preference : List Illu := [.d65, .a, .b, .c, .d50, .d55, .d75, .daylight, .flash]

/-- The matrix used and its number of rows, develop.rs:231-267, with `color_matrix_find_first`, rawimage.rs:724-731; `m` are the matrices of the picture.
A matrix for another illuminant that has not nine entries is `unimplemented!()`, one of more than four rows is indexed out of bounds. -/
def xyzToCam (m : Illu → Option (List ℚ)) : R (Nat × Mat) :=
  match preference.findSome? fun i => (m i).map fun l => (i, l) with
  | none => .ok (3, rows3 identity3)
  | some (.d65, l) =>
    if l.length % 3 ≠ 0 ∨ 4 < l.length / 3 then panic' else .ok (l.length / 3, rows3 l)
  | some (i, l) =>
    if l.length ≠ 9 then panic' else .ok (3, fun r c => if r < 3 then adaptBradford i .d65 (rows3 l) r c else 0)

/-! ## Pixels -/

/-- `clip_negative`, raw.rs:39-41 -/
def clipNeg (v : ℚ) : ℚ := if v < 0 then 0 else v

/-- `clip_euclidean_norm_avg`, raw.rs:68-85, for three channels. `norm` is the euclidean norm divided by the root of three, a function the model leaves
open. -/
def clipAvg (norm : Rgb → ℚ) (p : Rgb) : Rgb :=
  let q : Rgb := (clipNeg p.1, clipNeg p.2.1, clipNeg p.2.2)
  let top := max (max q.1 q.2.1) q.2.2
  if 1 < top then
    let e := norm q
    ((q.1 / top + e) / 2, (q.2.1 / top + e) / 2, (q.2.2 / top + e) / 2)
  else q

/-- `cam2rgb`, raw.rs:194-195, 221-222: the matrix always has four rows, missing ones are zero. -/
def camToRgb (m : Mat) : Mat := pseudoInverse 4 (normalize (multiply 3 m srgbToXyz))

/-- One pixel of `map_3ch_to_rgb`, raw.rs:202-213 -/
def map3 (norm : Rgb → ℚ) (m : Mat) (wb : Quad) (p : Rgb) : Rgb :=
  let r := p.1 * wb.1
  let g := p.2.1 * wb.2.1
  let b := p.2.2 * wb.2.2.1
  let c := camToRgb m
  clipAvg norm (c 0 0 * r + c 0 1 * g + c 0 2 * b, c 1 0 * r + c 1 1 * g + c 1 2 * b, c 2 0 * r + c 2 1 * g + c 2 2 * b)

/-- One pixel of `map_4ch_to_rgb`, raw.rs:229-241 -/
def map4 (norm : Rgb → ℚ) (m : Mat) (wb : Quad) (p : Quad) : Rgb :=
  let c0 := p.1 * wb.1
  let c1 := p.2.1 * wb.2.1
  let c2 := p.2.2.1 * wb.2.2.1
  let c3 := p.2.2.2 * wb.2.2.2
  let c := camToRgb m
  clipAvg norm (c 0 0 * c0 + c 0 1 * c1 + c 0 2 * c2 + c 0 3 * c3, c 1 0 * c0 + c 1 1 * c1 + c 1 2 * c2 + c 1 3 * c3,
    c 2 0 * c0 + c 2 1 * c1 + c 2 2 * c2 + c 2 3 * c3)

/-- The white balance used, develop.rs:269-277: `none` when the first coefficient is NaN. -/
def balance (wb : Option Quad) (step : Bool) : Quad := if step then wb.getD (1, 1, 1, 1) else (1, 1, 1, 1)

/-- `xy_to_XYZ` and `xy_whitepoint_to_wb_coeff`, xyz.rs:184-213 -/
def whitepointWb (x y : ℚ) (m : Mat) : List ℚ :=
  if 0 < y then
    (List.range 3).map fun i =>
      let c := apply3 m [x / y, 1, (1 - x - y) / y] i
      if 0 < c then 1 / c else 0
  else [0, 0, 0]

end Verif.Color
