import Mathlib.Data.Rat.Floor
/-! # Corrections of Phase One sensors -/

namespace Verif.Spec.IiqCorr

/-- The value at `x` on the straight line through two points -/
def line (p q : Nat × Nat) (x : Nat) : ℚ := p.2 + ((q.2 : ℚ) - p.2) * ((x : ℚ) - p.1) / ((q.1 : ℚ) - p.1)

/-- The nearest number of 16 bits that is not larger -/
def word (q : ℚ) : Nat := max 0 (min 65535 q.floor) |>.toNat

/-- The nearest number of 16 bits -/
def bound (v : Int) : Nat := (max 0 (min 65535 v)).toNat

/-- 0 before the split and 1 from there on -/
def side (split i : Nat) : Nat := if i < split then 0 else 1

/-- Control points of a curve: at least two, from left to right, the first at 0, the last at 65535 -/
def Control (pts : List (Nat × Nat)) : Prop :=
  2 ≤ pts.length ∧ (pts.getD 0 (0, 0)).1 = 0 ∧ (pts.getD (pts.length - 1) (0, 0)).1 = 65535 ∧
    ∀ i, i + 1 < pts.length → (pts.getD i (0, 0)).1 ≤ (pts.getD (i + 1) (0, 0)).1

instance (pts : List (Nat × Nat)) : Decidable (Control pts) :=
  decidable_of_iff (2 ≤ pts.length ∧ (pts.getD 0 (0, 0)).1 = 0 ∧ (pts.getD (pts.length - 1) (0, 0)).1 = 65535 ∧
    ∀ i, i < pts.length → i + 1 < pts.length → (pts.getD i (0, 0)).1 ≤ (pts.getD (i + 1) (0, 0)).1)
    ⟨fun h => ⟨h.1, h.2.1, h.2.2.1, fun i hi => h.2.2.2 i (by omega) hi⟩, fun h => ⟨h.1, h.2.1, h.2.2.1, fun i _ hi => h.2.2.2 i hi⟩⟩

/-- The mean of three of four values, without one that is most distant from the mean of all, rounded -/
def MeanOfThree (v : Fin 4 → Nat) (m : Nat) : Prop :=
  ∃ k, (∀ i, |(v i : ℚ) - (v 0 + v 1 + v 2 + v 3 : ℚ) / 4| ≤ |(v k : ℚ) - (v 0 + v 1 + v 2 + v 3 : ℚ) / 4|) ∧
    |(m : ℚ) - ((v 0 + v 1 + v 2 + v 3 : ℚ) - v k) / 3| < 1 / 2

/-- Four values -/
def four (a b c d : Nat) : Fin 4 → Nat
  | 0 => a
  | 1 => b
  | 2 => c
  | 3 => d

/-- What replaces a pixel of a bad column: for green (colour 1) the mean of three of the four pixels beside the corners, for another colour a mean, rounded, of the
two pixels of the same colour in the same row, 35% each, and of the four of them two rows above and below, 7% each -/
def Repaired (color : Nat → Nat → Nat) (f : Nat → Nat → Nat) (row col v : Nat) : Prop :=
  (color row col = 1 → MeanOfThree (four (f (row - 1) (col - 1)) (f (row + 1) (col - 1)) (f (row - 1) (col + 1)) (f (row + 1) (col + 1))) v) ∧
  (color row col ≠ 1 → v = word (((f (row + 2) (col - 2) + f (row - 2) (col - 2) + f (row + 2) (col + 2) + f (row - 2) (col + 2) : Nat) : ℚ) * (732233 / 10000000) +
    ((f row (col - 2) + f row (col + 2) : Nat) : ℚ) * (3535534 / 10000000) + 1 / 2))

/-- The value that a curve gives: it is on the line between the two control points around the value, and the largest value has the value of the last point,
but becomes 0 if the last two points have the same place -/
def Bends (pts : List (Nat × Nat)) (v v' : Nat) : Prop :=
  (v < 65535 → ∃ i, i + 1 < pts.length ∧ (pts.getD i (0, 0)).1 ≤ v ∧ v < (pts.getD (i + 1) (0, 0)).1 ∧
    v' = word (line (pts.getD i (0, 0)) (pts.getD (i + 1) (0, 0)) v)) ∧
  (v = 65535 → (pts.getD (pts.length - 2) (0, 0)).1 < 65535 → v' = min 65535 (pts.getD (pts.length - 1) (0, 0)).2) ∧
  (v = 65535 → (pts.getD (pts.length - 2) (0, 0)).1 = 65535 → v' = 0)

/-- The points of the combined curve of a quadrant: seven places, and seven factors for each quadrant in parts of 10000 -/
def combined (xs ys : List Nat) (qr qc : Nat) : List (Nat × Nat) :=
  (0, 0) :: ((List.range 7).map fun i => (xs.getD i 0, xs.getD i 0 * ys.getD (14 * qr + 7 * qc + i) 0 / 10000)) ++ [(65535, 65535)]

/-- The mean of the values `i` of the four quadrants, rounded -/
def mean (t : List Nat) (i : Nat) : Nat := (t.getD i 0 + t.getD (16 + i) 0 + t.getD (32 + i) 0 + t.getD (48 + i) 0 + 2) / 4

/-- Where a curve with 16 points becomes the identity -/
def knee (t : List Nat) (qr qc : Nat) : Nat := min 65535 (mean t 15 * 65535 / t.getD (32 * qr + 16 * qc + 15) 0)

/-- The points of the linearization of a quadrant: 16 places of the quadrant are moved to the mean of all four -/
def linear (t : List Nat) (qr qc : Nat) : List (Nat × Nat) :=
  (0, 0) :: ((List.range 16).map fun i => (t.getD (32 * qr + 16 * qc + i) 0, mean t i)) ++ [(knee t qr qc, knee t qr qc), (65535, 65535)]

end Verif.Spec.IiqCorr
