import Mathlib.Algebra.Order.Field.Rat
/-! # What a colour matrix is for

A camera is described by what its channels record of a light given in XYZ coordinates, one row per channel. -/

namespace Verif.Spec.Color

/-- XYZ coordinates of a linear sRGB colour (IEC 61966-2-1, white D65) -/
def xyz (s : ℚ × ℚ × ℚ) : ℚ × ℚ × ℚ :=
  (0.4124564 * s.1 + 0.3575761 * s.2.1 + 0.1804375 * s.2.2, 0.2126729 * s.1 + 0.7151522 * s.2.1 + 0.0721750 * s.2.2,
    0.0193339 * s.1 + 0.1191920 * s.2.1 + 0.9503041 * s.2.2)

/-- What channel `i` of the camera records of a light -/
def response (m : Nat → Nat → ℚ) (light : ℚ × ℚ × ℚ) (i : Nat) : ℚ := m i 0 * light.1 + m i 1 * light.2.1 + m i 2 * light.2.2

def white : ℚ × ℚ × ℚ := (1, 1, 1)

/-- Different lights look different to the camera's channels. -/
def Distinguishes (m : Nat → Nat → ℚ) (n : Nat) : Prop := ∀ a b, (∀ i < n, response m a i = response m b i) → a = b

/-- Every channel records something of white. -/
def SeesWhite (m : Nat → Nat → ℚ) (n : Nat) : Prop := ∀ i < n, response m (xyz white) i ≠ 0

/-- An sRGB colour -/
def InGamut (s : ℚ × ℚ × ℚ) : Prop := (0 ≤ s.1 ∧ s.1 ≤ 1) ∧ (0 ≤ s.2.1 ∧ s.2.1 ≤ 1) ∧ 0 ≤ s.2.2 ∧ s.2.2 ≤ 1

end Verif.Spec.Color
