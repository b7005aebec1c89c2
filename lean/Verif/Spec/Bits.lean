import Verif.Base
/-!
# Specification vocabulary for bit streams

Independent of the pumps: what a reader of a bit string should see.
-/

namespace Verif.Spec
open Verif

/-- The first `n` bits of `l`, extended with zero bits if `l` is shorter. -/
def takeZ (n : Nat) (l : List Bool) : List Bool := (l ++ List.replicate n false).take n

/-- JPEG byte stuffing: a zero byte follows every 0xFF. -/
def stuff (l : List Nat) : List Nat := l.flatMap (fun b => if b = 0xff then [0xff, 0] else [b])

/-- The data bytes of a JPEG entropy-coded segment: 0xFF 0x00 means 0xFF; the segment ends at any other
0xFF or at the end of the buffer. -/
def unstuff : List Nat → List Nat
  | [] => []
  | b :: r =>
    if b ≠ 0xff then b :: unstuff r
    else match r with
      | [] => []
      | c :: r' => if c = 0 then b :: unstuff r' else []

/-- The buffer does not end with a lone 0xFF in data position. -/
def ProperEnd : List Nat → Prop
  | [] => True
  | b :: r =>
    if b ≠ 0xff then ProperEnd r
    else match r with
      | [] => False
      | c :: r' => if c = 0 then ProperEnd r' else True

/-- The low `n` bits of `v`, least significant first. -/
def bitsLSB (n v : Nat) : List Bool := (List.range n).map v.testBit

/-- The number whose binary digits, least significant first, are `l`. -/
def natLSB : List Bool → Nat
  | [] => 0
  | b :: l => b.toNat + 2 * natLSB l

/-- Bits of a byte string, each byte least significant bit first. -/
def bytesLSB (l : List Nat) : List Bool := l.flatMap (bitsLSB 8)

/-- The bytes of a sequence of little-endian 32 bit words in order of decreasing significance within each word; a last
word of fewer than four bytes is treated alike. -/
def swapWords : List Nat → List Nat
  | a :: b :: c :: d :: r => d :: c :: b :: a :: swapWords r
  | l => l.reverse

end Verif.Spec

namespace Verif.Spec
open Verif

/-- The bytes of a sequence of little-endian 16 bit words in order of decreasing significance within each word. -/
def swapPairs : List Nat → List Nat
  | a :: b :: r => b :: a :: swapPairs r
  | l => l

/-- Drop the last byte of every group of 16 bytes. -/
def dropControl (l : List Nat) : List Nat := (l.zipIdx.filter fun p => p.2 % 16 ≠ 15).map (·.1)

/-- Sample `p` of data made of consecutive fields of `n` bits, first bit most significant. -/
def fieldMSB (n : Nat) (data : List Nat) (p : Nat) : Nat := natMSB (((bytesMSB data).drop (p * n)).take n)

/-- Sample `p` of data made of consecutive fields of `n` bits, first bit least significant. -/
def fieldLSB (n : Nat) (data : List Nat) (p : Nat) : Nat := natLSB (((bytesLSB data).drop (p * n)).take n)

end Verif.Spec
