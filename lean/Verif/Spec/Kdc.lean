import Mathlib.Data.Rat.Defs
import Mathlib.Data.List.Rotate
/-! # The pictures in Kodak KDC files -/

namespace Verif.Spec.Kdc

/-- A row of `w` numbers of a list of rows -/
def row (data : List Nat) (w r : Nat) : List Nat := (data.drop (r * w)).take w

/-- By how many places row `r` of a DC120 is turned in the file -/
def turn (r : Nat) : Nat :=
  match r % 4 with
  | 0 => 162 * r
  | 1 => 192 * r + 636
  | 2 => 187 * r + 424
  | _ => 92 * r + 212

/-- A colour (0 red, 1 green, 2 blue) of a pixel of an RGB picture with `w` columns -/
def rgb (jpeg : List Nat) (w r c k : Nat) : Nat := jpeg.getD ((r * w + c) * 3 + k) 0

/-- The mosaic of an RGB picture of half the height: in each square of four samples from two pixels side by side, the green of each of them doubled at the top
left and bottom right, the sum of their reds at the top right, the sum of their blues at the bottom left. -/
def mosaic (jpeg : List Nat) (w r c : Nat) : Nat :=
  let a := c / 2 * 2
  match r % 2, c % 2 with
  | 0, 0 => 2 * rgb jpeg w (r / 2) a 1
  | 1, 1 => 2 * rgb jpeg w (r / 2) (a + 1) 1
  | 0, _ => rgb jpeg w (r / 2) a 0 + rgb jpeg w (r / 2) (a + 1) 0
  | _, _ => rgb jpeg w (r / 2) a 2 + rgb jpeg w (r / 2) (a + 1) 2

/-- The bytes of a file, those of each pair in the other order, without a last single byte -/
def swapPairs : List Nat → List Nat
  | a :: b :: l => b :: a :: swapPairs l
  | _ => []

/-- A number of two bytes, the more significant first -/
def number (d : List Nat) (i : Nat) : Nat := d.getD i 0 * 256 + d.getD (i + 1) 0

end Verif.Spec.Kdc
