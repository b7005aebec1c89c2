import Verif.Base
/-! # The picture coded in a QuickTake 100 file

The green samples are those with even row plus column; row `r` has `n` of them, half the width, and as many others (red in one row, blue in the next).
A sample is a prediction from its neighbours plus a step chosen by a code of four bits (green) or two bits (other). Neighbours outside of the picture are
replaced by the nearest sample of that colour in the row. -/

namespace Verif.Spec.Qtk
open Verif

/-- The steps of green samples -/
def greenSteps : List Int := [-89, -60, -44, -32, -22, -15, -8, -2, 2, 8, 15, 22, 32, 44, 60, 89]

/-- The steps of other samples: the busier the surroundings, the larger -/
def otherSteps : List (List Int) := [[-3, -1, 1, 3], [-5, -1, 1, 5], [-8, -2, 2, 8], [-13, -3, 3, 13], [-19, -4, 4, 19], [-28, -6, 6, 28]]

/-- A number of eight bits -/
def byte (v : Int) : Int := max 0 (min 255 v)

/-- The samples of a line, each from the one before -/
def line (first : Int) (f : Nat → Int → Int) : Nat → Int
  | 0 => f 0 first
  | j + 1 => f (j + 1) (line first f j)

/-- The greens: `q r j` is the code of green `j` of row `r`. The first is predicted as 128, the others of the first row as their left neighbour, the rest as
the mean of the sample above to the left, twice the sample above to the right, and the sample to the left. -/
def green (n : Nat) (q : Nat → Nat → Nat) : Nat → Nat → Int
  | 0 => line 128 fun j left => byte (left + greenSteps.getD (q 0 j) 0)
  | r + 1 =>
    let up := green n q r
    line (up 0) fun j left =>
      let upLeft := if (r + 1) % 2 = 0 then up (j - 1) else up j
      let upRight := if (r + 1) % 2 = 0 then up j else up (min (j + 1) (n - 1))
      byte ((upLeft + 2 * upRight + left) / 4 + greenSteps.getD (q (r + 1) j) 0)

/-- How busy the surroundings are -/
def busy (up left upLeft : Int) : Nat :=
  let d := (up - left).natAbs + (up - upLeft).natAbs + (left - upLeft).natAbs
  if d < 4 then 0 else if d < 8 then 1 else if d < 16 then 2 else if d < 32 then 3 else if d < 48 then 4 else 5

/-- A step of another sample -/
def otherStep (table code : Nat) : Int := (otherSteps.getD table []).getD code 0

/-- The other samples: in the first two rows they are predicted as their left neighbour (the first as 128), below as the mean of the sample two rows up and
that to the left. -/
def other (q : Nat → Nat → Nat) : Nat → Nat → Int
  | 0 => line 128 fun j left => byte (left + otherStep 2 (q 0 j))
  | 1 => line 128 fun j left => byte (left + otherStep 2 (q 1 j))
  | r + 2 =>
    let up := other q r
    line (up 0) fun j left => byte ((up j + left) / 2 + otherStep (if j = 0 then 2 else busy (up j) left (up (j - 1))) (q (r + 2) j))

/-- The picture before the curve: the other samples are doubled and get half of the greens at both sides, around the middle. -/
def pixel (n : Nat) (g x : Nat → Nat → Int) (r c : Nat) : Int :=
  if (r + c) % 2 = 0 then g r (c / 2)
  else
    let left := if r % 2 = 0 then g r (c / 2) else g r (c / 2 - 1)
    let right := if r % 2 = 0 then g r (min (c / 2 + 1) (n - 1)) else g r (c / 2)
    byte ((left + 4 * x r (c / 2) + right) / 2 - 256)

/-- `n` bits from place `k` -/
def field (bits : List Bool) (k n : Nat) : Nat := natMSB ((bits.drop k).take n)

/-- The codes of the greens come first, row by row -/
def greenCode (bits : List Bool) (n r j : Nat) : Nat := field bits (4 * (r * n + j)) 4

/-- then those of the other samples of even rows, and those of odd rows. -/
def otherCode (bits : List Bool) (n h r j : Nat) : Nat :=
  field bits (4 * (h * n) + 2 * ((if r % 2 = 0 then r / 2 else (h + 1) / 2 + r / 2) * n + j)) 2

/-- The picture in the bits of a file, before the curve -/
def picture (bits : List Bool) (w h r c : Nat) : Int :=
  pixel (w / 2) (green (w / 2) (greenCode bits (w / 2))) (other (otherCode bits (w / 2) h)) r c

/-- A number of two bytes in a file, the more significant first -/
def number (file : List Nat) (i : Nat) : Nat := file.getD i 0 * 256 + file.getD (i + 1) 0

/-- Where the coded picture begins -/
def dataStart (file : List Nat) : Nat := if number file 552 = 30 then 738 else 736

end Verif.Spec.Qtk
