import Verif.Spec.IiqCorr
/-! # Flat field of Phase One sensors -/

namespace Verif.Spec.IiqFlat

/-- The value `k` parts of `n` on the way from `a` to `b` -/
def between (a b : ℚ) (n k : Nat) : ℚ := a + (b - a) * k / n

/-- A grid of factors: the area begins at column `left` and row `top`, is `width` by `height` and has a node at each `dx` columns and `dy` rows. -/
structure Grid where
  left : Nat
  top : Nat
  width : Nat
  height : Nat
  dx : Nat
  dy : Nat

/-- Number of parts of size `d` that are needed for `n` -/
def parts (n d : Nat) : Nat := (n + d - 1) / d

/-- The factor of plane `k` of `n` at a node -/
def node (g : Grid) (n : Nat) (data : List ℚ) (k y x : Nat) : ℚ := data.getD ((y * parts g.width g.dx + x) * n + k) 0

/-- The factor on the line between two nodes that are above one another -/
def across (g : Grid) (n : Nat) (data : List ℚ) (k r x : Nat) : ℚ :=
  between (node g n data k ((r - g.top) / g.dy) x) (node g n data k ((r - g.top) / g.dy + 1) x) g.dy ((r - g.top) % g.dy)

/-- The factor of a pixel, between the four nodes around it -/
def factor (g : Grid) (n : Nat) (data : List ℚ) (k r c : Nat) : ℚ :=
  between (across g n data k r ((c - g.left) / g.dx)) (across g n data k r ((c - g.left) / g.dx + 1)) g.dx ((c - g.left) % g.dx)

/-- The pixels that have nodes around them -/
def Inside (g : Grid) (r c : Nat) : Prop := g.top ≤ r ∧ r + g.dy < g.top + g.height ∧ g.left ≤ c ∧ c + g.dx < g.left + g.width

instance (g : Grid) (r c : Nat) : Decidable (Inside g r c) := by unfold Inside; infer_instance

end Verif.Spec.IiqFlat
