import Verif.Spec.HuffCode
/-! # Images stored as differences to the pixel of the same colour before them (Pentax, Nikon) -/

namespace Verif.Spec.TwoRow
open Verif Verif.Spec

/-- What a pixel is compared with: the pixel two to the left; in the first two columns the one two rows above; in the first
two rows of these a start value. -/
def before (start px : Nat → Nat → Int) (r c : Nat) : Int :=
  if 2 ≤ c then px r (c - 2) else if 2 ≤ r then px (r - 2) c else start r c

/-- The stored image: row by row, each pixel's code. -/
def stored (code : Nat → Nat → List Bool) (w h : Nat) : List Bool :=
  (List.range h).flatMap fun r => (List.range w).flatMap fun c => code r c

end Verif.Spec.TwoRow
