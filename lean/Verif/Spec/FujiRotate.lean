import Mathlib.Data.Rat.Floor
import Mathlib.Tactic.NormNum
/-! # Turning a picture by 45 degrees

Rows count downwards. A picture is a function from row and column to a number. -/

namespace Verif.Spec.FujiRotate

/-- The number in double precision next to the cosine of 45 degrees; its square is one half up to `2 ^ -53`. -/
def cos45 : ℚ := 6369051672525773 / 9007199254740992

theorem cos45_sq : |cos45 ^ 2 - 1 / 2| < 1 / 2 ^ 53 := by
  unfold cos45; rw [abs_lt]; constructor <;> norm_num

/-- The point of a picture of `w` columns that comes to column `col` and row `row` when it is turned clockwise by 45 degrees about the centre and `W` by `H`
pixels around the centre are kept: its column … -/
def fromX (w W H row col : Nat) : ℚ := w / 2 + cos45 * ((col - W / 2) + (row - H / 2))

/-- … and its row, in a picture of `h` rows. -/
def fromY (h W H row col : Nat) : ℚ := h / 2 + cos45 * ((row - H / 2) - (col - W / 2))

/-- The number between four pixels by linear interpolation, first along the rows -/
def between (f : Nat → Nat → ℚ) (x y : ℚ) : ℚ :=
  let i := ⌊y⌋.toNat
  let j := ⌊x⌋.toNat
  let line := fun r => f r j + (f r (j + 1) - f r j) * (x - ⌊x⌋)
  line i + (line (i + 1) - line i) * (y - ⌊y⌋)

/-- A point with pixels of the picture on all sides -/
def Enclosed (w h : Nat) (x y : ℚ) : Prop := 0 ≤ x ∧ 0 ≤ y ∧ ⌊x⌋ + 1 < (w : Int) ∧ ⌊y⌋ + 1 < (h : Int)

/-- `v` is what the picture shows at the point: the interpolated number, and at the edge a pixel not more than half a row and half a column away. -/
def Shows (f : Nat → Nat → ℚ) (w h : Nat) (x y v : ℚ) : Prop :=
  (Enclosed w h x y → v = between f x y) ∧
  (¬ Enclosed w h x y → ∃ i j, i < h ∧ j < w ∧ |y - i| ≤ 1 / 2 ∧ |x - j| ≤ 1 / 2 ∧ v = f i j)

/-- The channels of a pixel -/
def chan (k : Nat) (p : ℚ × ℚ × ℚ) : ℚ := if k = 0 then p.1 else if k = 1 then p.2.1 else p.2.2

end Verif.Spec.FujiRotate
