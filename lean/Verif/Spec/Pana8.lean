import Verif.Spec.Pef
import Verif.Spec.Bits
/-! # Panasonic raw format 8

A picture is cut into strips (rectangles with an even number of rows and columns). In a strip two rows are stored together: of each square of two by two
samples first the left ones, upper and lower, then the right ones. A sample is predicted by the same one of the square to the left, at the start of a pair of
rows by that of the square above, and at the start of the strip by an initial value. Stored are the differences, as a word for the number of digits and the digits.
Bits fill bytes from the lowest one up. -/

namespace Verif.Spec.Pana8
open Verif Verif.Spec Verif.Spec.Pef

/-- Row and column in the square of its sample `n`, in stored order. -/
def inSquare (n : Nat) : Nat × Nat := (n % 2, n % 4 / 2)

/-- Sample `n` of the pair of rows `i` of a strip, whose upper left corner is at `(row, col)`. -/
def stored (px : Nat → Nat → Nat) (row col i n : Nat) : Nat :=
  px (row + 2 * i + (inSquare n).1) (col + 2 * (n / 4) + (inSquare n).2)

/-- Its prediction; `init` are the initial values for a square, row by row. -/
def predicted (init : List Nat) (px : Nat → Nat → Nat) (row col i n : Nat) : Nat :=
  if 4 ≤ n then stored px row col i (n - 4)
  else if 0 < i then stored px row col (i - 1) n
  else init.getD (2 * (inSquare n).1 + (inSquare n).2) 0

def diff (init : List Nat) (px : Nat → Nat → Nat) (row col i n : Nat) : Int :=
  (stored px row col i n : Int) - predicted init px row col i n

structure Strip where
  col : Nat
  row : Nat
  width : Nat
  height : Nat
  /-- where the data begin in the file -/
  offset : Nat
  /-- number of bits -/
  size : Nat

/-- The bits of a strip. -/
def encode (ws : Words) (init : List Nat) (px : Nat → Nat → Nat) (s : Strip) : List Bool :=
  (List.range (s.height / 2)).flatMap fun i => (List.range (2 * s.width)).flatMap fun n => coded ws (diff init px s.row s.col i n)

/-- A square grid and inside the picture. -/
def Strip.Fits (s : Strip) (w h : Nat) : Prop := 0 < s.width ∧ s.width % 2 = 0 ∧ s.height % 2 = 0 ∧ s.col + s.width ≤ w ∧ s.row + s.height ≤ h

def Strip.Covers (s : Strip) (r c : Nat) : Prop := s.row ≤ r ∧ r < s.row + s.height ∧ s.col ≤ c ∧ c < s.col + s.width

/-- Words of 1 to 16 bits, none the beginning of another. -/
def Usable (ws : Words) : Prop := ws.length ≤ 17 ∧ (∀ a ∈ ws, 1 ≤ a.1 ∧ a.1 ≤ 16 ∧ a.2 < 2 ^ a.1) ∧ PrefixFree ws

instance (ws : Words) : Decidable (Usable ws) := by unfold Usable; infer_instance

/-- A piece of the tone curve: it begins at `x` with the value `y`. With `n` below 15 it rises by 1 each `2 ^ n`, from 16 to 30 by `2 ^ (n - 16)` each 1. -/
structure Seg where
  x : Nat
  y : Nat
  n : Nat

/-- The rise at a distance from the beginning, rounded to the nearest. -/
def rise (n dx : Nat) : Nat := if n = 0 then dx else if n < 16 then (dx + 2 ^ (n - 1)) / 2 ^ n else dx * 2 ^ (n - 16)

end Verif.Spec.Pana8
