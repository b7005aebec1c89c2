import Mathlib.Algebra.Order.Field.Rat
import Mathlib.Algebra.Order.Group.Unbundled.Abs
import Mathlib.Algebra.BigOperators.Group.List.Basic
/-! # What demosaicing is for

A mosaic holds one sample per place, of the colour the filter pattern has there. -/

namespace Verif.Spec.Demosaic

/-- The four Bayer arrangements, as their 2 x 2 block is spelled row by row -/
def IsBayer (name : List Char) : Prop :=
  name = ['R', 'G', 'G', 'B'] ∨ name = ['B', 'G', 'G', 'R'] ∨ name = ['G', 'B', 'R', 'G'] ∨ name = ['G', 'R', 'B', 'G']

/-- Channels: 0 red, 1 green, 2 blue -/
def channel (c : Char) : Nat := if c = 'R' then 0 else if c = 'G' then 1 else 2

/-- The channel measured at a place of the sensor, for a pattern of `n` x `n` letters repeated from the upper left corner -/
def colour (name : List Char) (n row col : Nat) : Nat := channel (name.getD (row % n * n + col % n) 'X')

/-- The sample of the sensor at a place of the area that starts at column `x` and row `y`; rows of the sensor have `dw` samples. -/
def sample (raw : List ℚ) (dw x y row col : Nat) : ℚ := raw.getD ((y + row) * dw + (x + col)) 0

/-- The area lies within the sensor -/
def Inside (raw : List ℚ) (dw x y w h : Nat) : Prop := x + w ≤ dw ∧ (y + h) * dw ≤ raw.length

/-- All places of an area -/
def places (w h : Nat) : List (Nat × Nat) := (List.range h).flatMap fun y => (List.range w).map fun x => (y, x)

def mean (l : List ℚ) : ℚ := l.sum / l.length

/-- Mean of the samples of one colour in the square of `2 * d + 1` rows and columns around a place -/
def localMean (f : Nat → Nat → ℚ) (col : Nat → Nat → Nat) (w h d r c k : Nat) : ℚ :=
  mean (((places w h).filter fun p => decide (p.1 ≤ r + d ∧ r ≤ p.1 + d ∧ p.2 ≤ c + d ∧ c ≤ p.2 + d ∧ col p.1 p.2 = k)).map fun p => f p.1 p.2)

/-! ## PPG, after Chuan-kai Lin -/

/-- Three pixels on each side -/
def OnFrame (w h r c : Nat) : Prop := r < 3 ∨ h ≤ r + 3 ∨ c < 3 ∨ w ≤ c + 3
instance (w h r c : Nat) : Decidable (OnFrame w h r c) := by unfold OnFrame; infer_instance

/-- Green at a red or blue place away from the frame: continue the side with the smallest gradient; equal ones in the order north, east, west, south. -/
def greenInside (f : Nat → Nat → ℚ) (r c : Nat) : ℚ :=
  let x := f r c
  let gn := 2 * |x - f (r - 2) c| + |f (r - 1) c - f (r + 1) c|
  let ge := 2 * |x - f r (c + 2)| + |f r (c - 1) - f r (c + 1)|
  let gw := 2 * |x - f r (c - 2)| + |f r (c - 1) - f r (c + 1)|
  let gs := 2 * |x - f (r + 2) c| + |f (r - 1) c - f (r + 1) c|
  if gn ≤ ge ∧ gn ≤ gw ∧ gn ≤ gs then (3 * f (r - 1) c + f (r + 1) c + x - f (r - 2) c) / 4
  else if ge ≤ gw ∧ ge ≤ gs then (3 * f r (c + 1) + f r (c - 1) + x - f r (c + 2)) / 4
  else if gw ≤ gs then (3 * f r (c - 1) + f r (c + 1) + x - f r (c - 2)) / 4
  else (3 * f (r + 1) c + f (r - 1) c + x - f (r + 2) c) / 4

/-- Green everywhere -/
def green (f : Nat → Nat → ℚ) (col : Nat → Nat → Nat) (w h r c : Nat) : ℚ :=
  if col r c = 1 then f r c else if OnFrame w h r c then localMean f col w h 1 r c 1 else greenInside f r c

/-- A colour between two places where it was measured, led by green: proportional where green rises or falls, else the mean corrected by green's
second difference. -/
def hue (g1 g2 g3 v1 v3 : ℚ) : ℚ :=
  if (g1 < g2 ∧ g2 < g3) ∨ (g3 < g2 ∧ g2 < g1) then v1 + (v3 - v1) * (g2 - g1) / (g3 - g1) else (v1 + v3) / 2 + (2 * g2 - g1 - g3) / 4

/-- Blue at a red place, or red at a blue one: along the diagonal with the smaller change. -/
def across (f : Nat → Nat → ℚ) (g : Nat → Nat → ℚ) (r c : Nat) : ℚ :=
  let ne := |f (r - 1) (c + 1) - f (r + 1) (c - 1)| + |f (r - 2) (c + 2) - f r c| + |f r c - f (r + 2) (c - 2)|
    + |g (r - 1) (c + 1) - g r c| + |g r c - g (r + 1) (c - 1)|
  let nw := |f (r - 1) (c - 1) - f (r + 1) (c + 1)| + |f (r - 2) (c - 2) - f r c| + |f r c - f (r + 2) (c + 2)|
    + |g (r - 1) (c - 1) - g r c| + |g r c - g (r + 1) (c + 1)|
  if ne < nw then hue (g (r - 1) (c + 1)) (g r c) (g (r + 1) (c - 1)) (f (r - 1) (c + 1)) (f (r + 1) (c - 1))
  else hue (g (r - 1) (c - 1)) (g r c) (g (r + 1) (c + 1)) (f (r - 1) (c - 1)) (f (r + 1) (c + 1))

/-- The picture PPG makes of the samples `f` -/
def ppg (f : Nat → Nat → ℚ) (col : Nat → Nat → Nat) (w h r c k : Nat) : ℚ :=
  let g := green f col w h
  if col r c = k then f r c
  else if k = 1 then g r c
  else if OnFrame w h r c then localMean f col w h 1 r c k
  else if col r c = 1 then
    if col r (c + 1) = k then hue (g r (c - 1)) (g r c) (g r (c + 1)) (f r (c - 1)) (f r (c + 1))
    else hue (g (r - 1) c) (g r c) (g (r + 1) c) (f (r - 1) c) (f (r + 1) c)
  else across f g r c

end Verif.Spec.Demosaic

namespace Verif.Spec.Demosaic

/-- Mean of the samples of one colour in the 2 x 2 block whose upper left place is given -/
def blockMean (f : Nat → Nat → ℚ) (col : Nat → Nat → Nat) (r c k : Nat) : ℚ :=
  mean (([(r, c), (r, c + 1), (r + 1, c), (r + 1, c + 1)].filter fun p => decide (col p.1 p.2 = k)).map fun p => f p.1 p.2)

/-- A pattern of `n` x `n` red, green and blue filters, each of them used: the Bayer patterns, X-Trans and others -/
def IsRgbPattern (name : List Char) (n : Nat) : Prop :=
  (n = 2 ∨ n = 6 ∨ n = 12) ∧ name.length = n * n ∧ (∀ c ∈ name, c = 'R' ∨ c = 'G' ∨ c = 'B') ∧ 'R' ∈ name ∧ 'G' ∈ name ∧ 'B' ∈ name

end Verif.Spec.Demosaic
