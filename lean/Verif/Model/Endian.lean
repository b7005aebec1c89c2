import Verif.Base
/-! # `bits::Endian` -/

namespace Verif

/-- `enum Endian`, bits.rs:57-61. -/
inductive Endian where
  | big
  | little
  deriving DecidableEq, Repr, Inhabited

end Verif
