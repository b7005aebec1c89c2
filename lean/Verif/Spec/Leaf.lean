import Verif.Spec.Jpeg
/-! # Hasselblad and Leaf: how the samples are coded -/

namespace Verif.Spec.Jpeg
open Verif

/-- The word for the number of digits of a difference. -/
def Table.word (T : Table) (d : Int) : List Bool := codeWord T.counts (T.vals.idxOf (catOf d))

/-- Its digits. -/
def digits (d : Int) : List Bool := bitsMSB (catOf d) (extraOf d)

/-- The difference of a sample in column `c` to the one two columns before it in the row, to 2¹⁵ at the start. -/
def hDiff (f : Nat → Nat → Nat) (r c : Nat) : Int := diff16 ((f r c : Int) - (if c < 2 then 32768 else f r (c - 2) : Nat))

/-- Hasselblad: of two samples, the two words, then the digits of both. -/
def hPair (T : Table) (f : Nat → Nat → Nat) (r c : Nat) : List Bool :=
  T.word (hDiff f r c) ++ T.word (hDiff f r (c + 1)) ++ digits (hDiff f r c) ++ digits (hDiff f r (c + 1))

/-- Hasselblad: the scan of `h` rows of `w` samples. -/
def hScan (T : Table) (f : Nat → Nat → Nat) (w h : Nat) : List Bool :=
  (List.range h).flatMap fun r => (List.range (w / 2)).flatMap fun k => hPair T f r (2 * k)

/-- Strips one after the other, with a marker after each: the last is the end marker, then anything. -/
def joinStrips : List (List Nat × Nat) → List Nat → List Nat
  | [], tail => tail
  | (s, m) :: l, tail => stuff s ++ 0xff :: m :: joinStrips l tail

/-- The markers of the strips: no zero, no fill byte, the end marker after the last and only there. -/
def MarkersOk : List (List Nat × Nat) → Prop
  | [] => False
  | [x] => x.2 = 0xd9
  | x :: y :: l => x.2 ≠ 0 ∧ x.2 ≠ 0xff ∧ x.2 ≠ 0xd9 ∧ MarkersOk (y :: l)

/-- Leaf: the row of the image for a row of the data of an interlaced image: the first, the last, the second, the last but one, ... -/
def interlace (h r : Nat) : Nat := if r % 2 = 1 then h - 1 - r / 2 else r / 2

end Verif.Spec.Jpeg
