import Verif.Spec.Bits
/-! # Headers of small raw formats -/

namespace Verif.Spec.Small

/-- The number of four bytes at a place of a file, the least significant first -/
def num32 (file : List Nat) (i : Nat) : Nat := file.getD i 0 + 256 * file.getD (i + 1) 0 + 65536 * file.getD (i + 2) 0 + 16777216 * file.getD (i + 3) 0

/-- The text at a place of a file: up to `n` bytes, until a byte that is 0 -/
def text (file : List Nat) (i n : Nat) : List Nat := ((file.drop i).take n).takeWhile (· ≠ 0)

/-- The `n` bytes at a place of a file; zeros follow the end of the file -/
def bytes (file : List Nat) (i n : Nat) : List Nat := (file.drop i ++ List.replicate n 0).take n

end Verif.Spec.Small
