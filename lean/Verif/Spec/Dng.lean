/-! # Reading DNG tags by the DNG specification -/

namespace Verif.Spec

/-- Numbers of the mosaic colours in TIFF/EP and DNG; `E` (emerald) is treated as cyan in this code base. -/
def letterCode (c : Char) : Option Nat :=
  match c with
  | 'R' => some 0
  | 'G' => some 1
  | 'B' => some 2
  | 'C' => some 3
  | 'E' => some 3
  | 'M' => some 4
  | 'Y' => some 5
  | _ => none

/-- The mosaic patterns with a defined meaning: known letters, in one of the supported layouts (width, height). -/
def IsPattern (name : List Char) (w h : Nat) : Prop :=
  name.length = h * w ∧ ((w = 2 ∧ h = 2) ∨ (w = 6 ∧ h = 6) ∨ (w = 2 ∧ h = 8) ∨ (w = 12 ∧ h = 12)) ∧ ∀ c ∈ name, (letterCode c).isSome

instance (name : List Char) (w h : Nat) : Decidable (IsPattern name w h) := by unfold IsPattern; infer_instance

/-- Colour of the sensor position (row, col): the pattern repeats in both directions. -/
def mosaicColour (name : List Char) (w h row col : Nat) : Option Nat := (name[row % h * w + col % w]?).bind letterCode

/-- `CFAPattern`/`BlackLevel` by the DNG specification: `dim` = (rows, columns) of the repeated block, whose first cell lies at the upper left corner
(top, left) of the active area; cells are stored row by row, each with `n` values. -/
def tagCell {α : Type} (dim : List Nat) (n : Nat) (cells : List α) (top left row col plane : Nat) : Option α :=
  match dim with
  | [rows, cols] => cells[((row - top) % rows * cols + (col - left) % cols) * n + plane]?
  | _ => none

/-- Black level of plane `p` at a sensor position -/
def levelAt {α : Type} (levels : List α) (w h cpp row col p : Nat) : Option α := levels[(row % h * w + col % w) * cpp + p]?

end Verif.Spec
