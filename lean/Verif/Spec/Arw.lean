import Verif.Spec.Bits
import Verif.Spec.Image
import Verif.Spec.Curve
/-! # The Sony ARW raw formats, from the point of view of the camera that writes them -/

namespace Verif.Spec.Arw
open Verif Verif.Spec

/-! ## ARW1: every pixel as the difference to the one before it -/

/-- The number of binary digits of `n`. -/
def digits (n : Nat) : Nat := if n = 0 then 0 else Nat.log2 n + 1

/-- The code for a difference of `n` binary digits, `n ≤ 16`. -/
def lengthCode : Nat → List Bool
  | 0 => [false, true, true]
  | 1 => [true, true]
  | 2 => [true, false]
  | 3 => [false, true, false]
  | n + 4 => [false, false] ++ List.replicate n false ++ [true]

/-- A difference: its length and then its digits; for negative numbers the digits are those of the number plus `2^n - 1`, so
that the first one is 0. -/
def diffCode (d : Int) : List Bool :=
  let n := digits d.natAbs
  lengthCode n ++ bitsMSB n (if 0 ≤ d then d.toNat else (d + (2 ^ n - 1)).toNat)

/-- The pixels in the order they are stored: columns from right to left, in each column first the even rows and then the
odd rows. -/
def scan (w h : Nat) : List (Nat × Nat) :=
  (List.range w).flatMap fun x =>
    (((List.range h).filter (· % 2 = 0)) ++ ((List.range h).filter (· % 2 = 1))).map fun r => (r, w - 1 - x)

/-- Values as differences, the first to `prev`. -/
def diffs (prev : Int) : List Nat → List Int
  | [] => []
  | v :: l => (v - prev) :: diffs v l

/-- The compressed image. -/
def encodeArw1 (w h : Nat) (px : Nat → Nat → Nat) : List Bool :=
  (diffs 0 ((scan w h).map fun (r, c) => px r c)).flatMap diffCode

/-! ## ARW2: groups of 16 pixels, each with its greatest and smallest value and 7 bits for the others -/

/-- By how many bits the distances to the smallest value are shortened: the least number that makes the greatest distance fit
in 7 bits. -/
def shiftFor (range : Nat) : Nat := digits range - 7

/-- A group of 16 values, `hi` and `lo` being the places of the greatest and the smallest. -/
structure Group where
  v : Nat → Nat
  hi : Nat
  lo : Nat

/-- The marked places are different and hold the extremes; values have 11 bits. -/
def Group.OK (g : Group) : Prop :=
  g.hi < 16 ∧ g.lo < 16 ∧ g.hi ≠ g.lo ∧ ∀ i, i < 16 → g.v g.lo ≤ g.v i ∧ g.v i ≤ g.v g.hi ∧ g.v i < 2048

/-- The shift of the group. -/
def Group.shift (g : Group) : Nat := shiftFor (g.v g.hi - g.v g.lo)

/-- The group in the file, least significant bits first. -/
def Group.code (g : Group) : List Bool :=
  bitsLSB 11 (g.v g.hi) ++ bitsLSB 11 (g.v g.lo) ++ bitsLSB 4 g.hi ++ bitsLSB 4 g.lo ++
    ((List.range 16).filter fun i => i ≠ g.hi ∧ i ≠ g.lo).flatMap fun i => bitsLSB 7 ((g.v i - g.v g.lo) / 2 ^ g.shift)

/-- What can be recovered of pixel `i`: its distance to the smallest value loses the low bits. -/
def Group.stored (g : Group) (i : Nat) : Nat :=
  if i = g.hi ∨ i = g.lo then g.v i else g.v g.lo + (g.v i - g.v g.lo) / 2 ^ g.shift * 2 ^ g.shift

/-- Group `2k` of a row holds the even pixels, group `2k+1` the odd pixels of columns `32k` to `32k + 31`. -/
def groupOf (c : Nat) : Nat := 2 * (c / 32) + c % 2
/-- The place of column `c` in its group. -/
def placeOf (c : Nat) : Nat := c % 32 / 2

/-- A row of `n` groups. -/
def rowCode (n : Nat) (g : Nat → Group) : List Bool := (List.range n).flatMap fun k => (g k).code

/-! ## The tone curve -/

/-- The slope of the curve after `x`: 1, doubled at each of the four knots. -/
def slope (k1 k2 k3 k4 x : Nat) : Nat :=
  2 ^ ((if k1 ≤ x then 1 else 0) + (if k2 ≤ x then 1 else 0) + (if k3 ≤ x then 1 else 0) + if k4 ≤ x then 1 else 0)

/-- The curve value at `x`: the slopes up to there. -/
def curveAt (k1 k2 k3 k4 : Nat) : Nat → Nat
  | 0 => 0
  | x + 1 => curveAt k1 k2 k3 k4 x + slope k1 k2 k3 k4 x

end Verif.Spec.Arw
