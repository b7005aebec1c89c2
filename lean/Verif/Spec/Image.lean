/-! # What it means that a sample buffer holds an image -/

namespace Verif.Spec

/-- The buffer `data` holds, row after row, the `h` rows of `w` samples given by `f row column`, and nothing else. -/
def Holds {α : Type} (data : List α) (w h : Nat) (f : Nat → Nat → α) : Prop :=
  data.length = h * w ∧ ∀ r c, r < h → c < w → data[r * w + c]? = some (f r c)

end Verif.Spec
