import Verif.Model.Slice
import Mathlib.Data.Rat.Floor
/-! # Corrections of Phase One sensors (rawler/src/decoders/iiq.rs, rawler/src/imgop/spline.rs)

Numbers of type `f32` are rational, or `none` if they are not finite; rounding is not modelled. The polynomial curves and the multipliers of the quadrants are in
`Model/IiqPoly`, the flat field is in `Model/IiqFlat` and the reading of the calibration data in `Model/IiqTab`. An image is the list of its rows. `at` and `at_mut` have checked
bounds, as in a debug build. -/

namespace Verif.IiqCorr
open Verif

/-- `f32` -/
abbrev F := Option ℚ

/-- `a + b` -/
def fadd (a b : F) : F := a.bind fun a => b.bind fun b => some (a + b)
/-- `a - b` -/
def fsub (a b : F) : F := a.bind fun a => b.bind fun b => some (a - b)
/-- `a * b` -/
def fmul (a b : F) : F := a.bind fun a => b.bind fun b => some (a * b)
/-- `a / b` -/
def fdiv (a b : F) : F := a.bind fun a => b.bind fun b => if b = 0 then none else some (a / b)

/-- `v as u16`. What is not finite is always NaN here, as it comes from a division of zero by zero, and NaN becomes 0. -/
def toU16 (v : F) : Nat :=
  match v with
  | none => 0
  | some q => if q < 0 then 0 else if 65535 < q then 65535 else q.floor.toNat

/-- `Segment`, spline.rs:7-12 -/
structure Segment where
  a : F
  b : F
  c : F
  d : F
  deriving DecidableEq

/-- One round of the loop that fills in the segments, spline.rs:47-53, for the segment `i` -/
def fill (h mu z : List F) (i : Nat) (segs : List Segment) : R (List Segment) := do
  let sn ← idx segs (i + 1)
  let s ← idx segs i
  let zi ← idx z i
  let mi ← idx mu i
  let hi ← idx h i
  let c := fsub zi (fmul mi sn.c)
  let b := fsub (fdiv (fsub sn.a s.a) hi) (fdiv (fmul hi (fadd sn.c (fmul (some 2) c))) (some 3))
  let d := fdiv (fsub sn.c c) (fmul (some 3) hi)
  upd segs i ⟨s.a, b, c, d⟩

/-- `prepare`, spline.rs:25-60, where `n` is the number of segments. Simplified: `alpha` is left out, as it is not used. -/
def prepare (xcp : List Nat) (n : Nat) (segs : List Segment) : R (List Segment) := do
  let h ← (List.range n).mapM (fun i => (do
    let x1 ← idx xcp (i + 1)
    let x0 ← idx xcp i
    let d ← usub x1 x0
    .ok (some (d : ℚ)) : R F))
  let mu : List F := some 1 :: List.replicate n (some 0)
  let z : List F := List.replicate (n + 1) (some 0)
  let segs ← forN n (fun k => fill h mu z (n - 1 - k)) segs
  .ok segs.dropLast

/-- The loop that checks the order, spline.rs:67-73 -/
def inOrder : Nat → List (Nat × Nat) → Bool
  | _, [] => true
  | prev, p :: l => decide (prev ≤ p.1) && inOrder p.1 l

/-- `Spline::new`, spline.rs:62-98: the places of the points and the segments -/
def newSpline (pts : List (Nat × Nat)) : R (List Nat × List Segment) := do
  assert' (decide (pts.length ≥ 2))
  assert' (decide (pts.head?.map (fun p => p.1 % 65536) = some 0))
  assert' (decide (pts.getLast?.map (fun p => p.1 % 65536) = some 65535))
  assert' (inOrder 0 pts)
  let xcp := pts.map Prod.fst
  let segs ← prepare xcp (pts.length - 1) (pts.map fun p => ⟨some (p.2 : ℚ), some 0, some 0, some 0⟩)
  .ok (xcp, segs)

/-- A curve of 65536 values -/
abbrev Curve := Nat → Nat

/-- `curve[x] = v` -/
def put (curve : Curve) (x v : Nat) : R Curve := if x < 65536 then .ok (fun y => if y = x then v else curve y) else panic'

/-- The value of a segment that begins at `x0`, spline.rs:105-109 -/
def valueAt (s : Segment) (x0 x : Nat) : F :=
  let diff : F := some ((x : ℚ) - x0)
  fadd (fadd (fadd s.a (fmul s.b diff)) (fmul s.c (fmul diff diff))) (fmul s.d (fmul (fmul diff diff) diff))

/-- The values of a segment, spline.rs:103-113 -/
def segment (xcp : List Nat) (segs : List Segment) (i : Nat) (curve : Curve) : R Curve := do
  let s ← idx segs i
  let x0 ← idx xcp i
  let x1 ← idx xcp (i + 1)
  forN (x1 + 1 - x0) (fun j curve => put curve (x0 + j) (toU16 (valueAt s x0 (x0 + j)))) curve

/-- `calculate_curve`, spline.rs:100-116 -/
def calculateCurve (s : List Nat × List Segment) : R Curve := forN s.2.length (segment s.1 s.2) fun _ => 0

/-- `Spline::new(cp).calculate_curve()` -/
def curveOf (pts : List (Nat × Nat)) : R Curve := do
  let s ← newSpline pts
  calculateCurve s

/-- `curve[*pix as usize]` for one pixel, iiq.rs:418, 488 -/
def bend (curve : Curve) (w row col : Nat) (img : List Nat) : R (List Nat) := do
  let v ← idx img (row * w + col)
  if v < 65536 then upd img (row * w + col) (curve v) else panic'

/-- The pixels of a rectangle, iiq.rs:415-420, 485-490 -/
def bendArea (curve : Curve) (w r0 r1 c0 c1 : Nat) (img : List Nat) : R (List Nat) :=
  forN (r1 - r0) (fun i => forN (c1 - c0) fun j => bend curve w (r0 + i) (c0 + j)) img

/-- One quadrant, iiq.rs:412-420, 482-490 -/
def quadrant (curve : Curve) (w h sr sc qr qc : Nat) (img : List Nat) : R (List Nat) :=
  bendArea curve w (if qr > 0 then sr else 0) (if qr > 0 then h else sr) (if qc > 0 then sc else 0) (if qc > 0 then w else sc) img

/-- The loop over the quadrants, iiq.rs:402-423, 471-493, with the control points of each -/
def quadrants (points : Nat → Nat → R (List (Nat × Nat))) (w h sr sc : Nat) (img : List Nat) : R (List Nat) :=
  forN 2 (fun qr => forN 2 fun qc img => do
    let p ← points qr qc
    let curve ← curveOf p
    quadrant curve w h sr sc qr qc img) img

/-- The control points of `correct_raw_q_combined`, iiq.rs:458-469 -/
def combinedPoints (xs ys : List Nat) (qr qc : Nat) : R (List (Nat × Nat)) := do
  let mid ← (List.range 7).mapM (fun i => (do
    let x ← idx xs i
    let y ← idx ys (qr * (2 * 7) + qc * 7 + i)
    .ok (x, x * y / 10000) : R (Nat × Nat)))
  .ok ((0, 0) :: mid ++ [(65535, 65535)])

/-- `correct_raw_q_combined`, iiq.rs:451-496; `split` is the row and the column of `split_offsets`. -/
def correctCombined (data : Option (List Nat × List Nat)) (split : Option (Nat × Nat)) (w h : Nat) (img : List Nat) : R (List Nat) :=
  match data with
  | none => .ok img
  | some (xs, ys) =>
    match split with
    | none => panic'
    | some (sr, sc) => quadrants (combinedPoints xs ys) w h sr sc img

/-- `as i32` of a number that is not negative -/
def asI32 (n : Nat) : Int := if n % 2 ^ 32 < 2 ^ 31 then (n % 2 ^ 32 : Nat) else (n % 2 ^ 32 : Nat) - 2 ^ 32

/-- `clamp`, bits.rs:28-37 -/
def clamp (v lo hi : Int) : Int :=
  let res := if v < lo then lo else v
  if res > hi then hi else res

/-- The control points of `correct_raw_q_linearization`, iiq.rs:383-409 -/
def linearPoints (table : List Nat) (qr qc : Nat) : R (List (Nat × Nat)) := do
  let mid ← (List.range 16).mapM (fun i => (do
    let x ← idx table (qr * (2 * 16) + qc * 16 + i)
    let a ← idx table i
    let b ← idx table (16 + i)
    let c ← idx table (32 + i)
    let d ← idx table (48 + i)
    .ok (x, (a + b + c + d + 2) / 4) : R (Nat × Nat)))
  let p ← idx mid 15
  if p.1 = 0 then panic' else do
  let x := (clamp (asI32 (p.2 * 65535 / p.1)) 0 65535).toNat
  .ok ((0, 0) :: mid ++ [(x, x), (65535, 65535)])

/-- `correct_raw_q_linearization`, iiq.rs:376-426. The clamp of the value from the curve changes nothing. -/
def correctLinear (data : Option (List Nat)) (split : Option (Nat × Nat)) (w h : Nat) (img : List Nat) : R (List Nat) :=
  match data with
  | none => .ok img
  | some table =>
    match split with
    | none => panic'
    | some (sr, sc) => quadrants (linearPoints table) w h sr sc img

/-- A pixel in `correct_raw_blacklevel`, iiq.rs:603-606 -/
def blackPixel (black : Nat) (cblack rblack : List Int) (sr sc pix row col : Nat) : R Nat := do
  let qr := if row ≥ sr then 1 else 0
  let qc := if col ≥ sc then 1 else 0
  let cb ← idx cblack (row * 2 + qc)
  let rb ← idx rblack (col * 2 + qr)
  .ok (clamp ((pix : Int) - black + cb + rb) 0 0xffff).toNat

/-- `correct_raw_blacklevel`, iiq.rs:594-613. No operation on `i32` overflows, as all numbers are of 16 bits. -/
def correctBlack (black : Nat) (q : Option (List Int × List Int)) (split : Option (Nat × Nat)) (w h : Nat) (img : List Nat) : R (List Nat) :=
  match q with
  | some (cblack, rblack) =>
    match split with
    | none => panic'
    | some (sr, sc) => do
      assert' (decide (cblack.length = h * 2))
      assert' (decide (rblack.length = w * 2))
      genRows h w fun row col => do
        let pix ← idx img (row * w + col)
        blackPixel black cblack rblack sr sc pix row col
  | none => .ok (img.map fun (pix : Nat) => (clamp ((pix : Int) - black) 0 0xffff).toNat)

/-- `*img.at(row, col)` -/
def at' (img : List Nat) (w row col : Nat) : R Nat := idx img (row * w + col)

/-- The index of the value most distant from the mean, iiq.rs:932-939 -/
def farthest (val : List Nat) : R Nat := do
  let sum : Int := (val.sum : Nat)
  forN 4 (fun i max => do
    let v ← idx val i
    let m ← idx val max
    if ((m : Int) * 4 - sum).natAbs < ((v : Int) * 4 - sum).natAbs then .ok i else .ok max) 0

/-- A green pixel, iiq.rs:923-942 -/
def fixGreen (w row col : Nat) (img : List Nat) : R (List Nat) := do
  let cm ← usub col 1
  let v0 ← at' img w (row - 1) cm
  let v1 ← at' img w (row + 1) cm
  let v2 ← at' img w (row - 1) (col + 1)
  let v3 ← at' img w (row + 1) (col + 1)
  let val := [v0, v1, v2, v3]
  let max ← farthest val
  let m ← idx val max
  upd img (row * w + col) ((val.sum - m + 1) / 3)

/-- A red or blue pixel, iiq.rs:955-963. Simplified: the factors are the decimal numbers of the source. -/
def fixOther (w row col : Nat) (img : List Nat) : R (List Nat) := do
  let cm ← usub col 2
  let d1 ← at' img w (row + 2) cm
  let d2 ← at' img w (row - 2) cm
  let d3 ← at' img w (row + 2) (col + 2)
  let d4 ← at' img w (row - 2) (col + 2)
  let h1 ← at' img w row cm
  let h2 ← at' img w row (col + 2)
  let v : ℚ := ((d1 + d2 + d3 + d4 : Nat) : ℚ) * (732233 / 10000000) + ((h1 + h2 : Nat) : ℚ) * (3535534 / 10000000)
  upd img (row * w + col) (toU16 (some ((v + 1 / 2).floor : ℚ)))

/-- `fix_bad_column`, iiq.rs:911-971; `color` is `color_at` of the camera's pattern. -/
def fixColumn (color : Nat → Nat → Nat) (w h col : Nat) (img : List Nat) : R (List Nat) := do
  let e ← usub h 2
  forN (e - 2) (fun k img =>
    if color (k + 2) col = 1 then fixGreen w (k + 2) col img
    else if color (k + 2) col = 0 ∨ color (k + 2) col = 2 then fixOther w (k + 2) col img
    else panic') img

/-- `Defect` -/
structure Defect where
  col : Nat
  typ : Nat

/-- `correct_raw_defects`, iiq.rs:307-331 -/
def correctDefects (color : Nat → Nat → Nat) (defects : List Defect) (w h : Nat) (img : List Nat) : R (List Nat) :=
  defects.foldlM (fun img d =>
    if d.col ≥ w then .ok img
    else if d.typ = 131 ∨ d.typ = 137 then fixColumn color w h d.col img
    else .ok img) img

end Verif.IiqCorr
