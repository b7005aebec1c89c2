import Verif.Spec.Nef
/-! # Canon CR2: the order of the samples, missing colours, RGB -/

namespace Verif.Spec.Cr2

/-- The places `(row, column)` of an image of `h` rows in the order of the file: the image is cut into vertical slices of the given
widths, the first one starting at column `x`. One slice follows the other, each row by row. -/
def order (h : Nat) : List Nat → Nat → List (Nat × Nat)
  | [], _ => []
  | w :: ws, x => ((List.range h).flatMap fun r => (List.range w).map fun c => (r, x + c)) ++ order h ws (x + w)

/-- A picture: row, column, component (brightness, two colours, or red, green, blue). -/
abbrev Pic := Nat → Nat → Nat → Nat

/-- The rounded average. -/
def mean (a b : Nat) : Nat := (a + b + 1) / 2

/-- Colours for the odd columns: the averages of the neighbours left and right. The last column has no right neighbour. -/
def across (w : Nat) (p : Pic) : Pic := fun r c k =>
  if k ≠ 0 ∧ c % 2 = 1 ∧ c + 1 < w then mean (p r (c - 1) k) (p r (c + 1) k) else p r c k

/-- Colours for the odd rows: the averages of the neighbours above and below. -/
def down (h : Nat) (p : Pic) : Pic := fun r c k =>
  if k ≠ 0 ∧ r % 2 = 1 ∧ r + 1 < h then mean (p (r - 1) c k) (p (r + 1) c k) else p r c k

/-- What the decoder does instead of `down`: it averages in the middle row of every three. -/
def downThree (h : Nat) (p : Pic) : Pic := fun r c k =>
  if k ≠ 0 ∧ r % 3 = 1 ∧ r + 1 < h then mean (p (r - 1) c k) (p (r + 1) c k) else p r c k

/-- `floor (a / 2 ^ b)` -/
def floorDiv (a : Int) (b : Nat) : Int := a.fdiv (2 ^ b)

/-- Brightness of each colour channel relative to the white balance, for the three camera generations: 0 (40D), 1 (5D Mark II),
2 (5D Mark III). Colours are stored with an offset of 16383. -/
def light (version : Nat) (hue y b r : Int) : Nat → Int
  | 0 => if version = 1 then y + floorDiv (50 * (4 * (b - 16383) + hue) + 22929 * (4 * (r - 16383) + hue)) 14
         else (if version = 0 then y - 512 else y) + (r - 16383)
  | 1 => if version = 1 then y + floorDiv (-5640 * (4 * (b - 16383) + hue) - 11751 * (4 * (r - 16383) + hue)) 14
         else (if version = 0 then y - 512 else y) + floorDiv (-778 * (b - 16383) - 2048 * (r - 16383)) 12
  | _ => if version = 1 then y + floorDiv (29040 * (4 * (b - 16383) + hue) - 101 * (4 * (r - 16383) + hue)) 14
         else (if version = 0 then y - 512 else y) + (b - 16383)

/-- The picture in red, green and blue for the white balance `wb` (1.0 is 256). -/
def rgb (version hue : Nat) (wb : Nat → Nat) (p : Pic) : Pic := fun r c k =>
  Nef.limit 16 (floorDiv (wb k * light version hue (p r c 0) (p r c 1) (p r c 2) k) 8)

end Verif.Spec.Cr2

namespace Verif.Spec.Cr2

/-- The white balance from four values of the makernotes; some cameras store the inverse. -/
def balance (inverse : Bool) (l0 l1 l2 l3 : Nat) : Nat → Nat
  | 0 => if inverse then 2 ^ 20 / l0 else l0
  | 1 => (l1 + l2) / 2
  | _ => if inverse then 2 ^ 20 / l3 else l3

/-- The shift of the hue for `n` brightness samples per colour sample: half of it for newer models (and one older one with newer
firmware); none when the model is unknown. -/
def hueShift (model firmware : Option Nat) (n : Nat) : Nat :=
  match model with
  | none => 0
  | some id => if id ≥ 0x80000281 ∨ (id = 0x80000218 ∧ firmware.getD 0 > 1000006) then (n - 1) / 2 else n

end Verif.Spec.Cr2
