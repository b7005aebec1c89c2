import Verif.Spec.Demosaic
import Verif.Spec.Dng
/-! # Mosaics of four colours -/

namespace Verif.Spec.Demosaic

/-- `name` spells a 2 x 2 block of four filters of different known colours, row by row; the channels of a pixel are for these colours, in the order
`planes`. -/
def IsFour (name planes : List Char) : Prop :=
  name.length = 4 ∧ name.Perm planes ∧ (∀ c ∈ name, (Spec.letterCode c).isSome) ∧ (name.map Spec.letterCode).Nodup

/-- The channel for the colour measured at a place of the sensor -/
def colour4 (name planes : List Char) (row col : Nat) : Nat := planes.idxOf (name.getD (row % 2 * 2 + col % 2) 'X')

end Verif.Spec.Demosaic
