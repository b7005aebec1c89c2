import Verif.Base
/-! # `i32` arithmetic of the checked build

Vocabulary only; no function of the repository is modelled here. -/

namespace Verif

/-- The result of an `i32` operation: panics when it does not fit. -/
def chkI32 (x : Int) : R Int := if -2 ^ 31 ≤ x ∧ x < 2 ^ 31 then .ok x else panic'

/-- `x as u16` for a signed `x` -/
def asU16 (x : Int) : Nat := (x % 65536).toNat

/-- `32 - x.leading_zeros()` for a `u32` -/
def bitLen (n : Nat) : Nat := if n = 0 then 0 else Nat.log2 n + 1

end Verif
