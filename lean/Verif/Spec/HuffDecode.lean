import Verif.Spec.Bits
/-!
# Reference bit-by-bit decoding of lossless JPEG differences (ITU-T T.81, F.2.2.3 and H.1.2.2)

Independent of lookup tables and caches. Reading beyond the end of the bit string yields zero bits.
-/

namespace Verif.Spec
open Verif

/-- Procedure DECODE: extend the code by one bit per step. `counts` are the numbers of codes of the current and longer
lengths, `len` the current code length minus one, `code` the bits read so far, `first` the first code not yet assigned
(one bit shorter than the current length), `pos` the number of codes already assigned. Returns the code length and the
position of the symbol, or `none` if the bits are not a code. -/
def refSymbol : List Nat → Nat → Nat → Nat → Nat → List Bool → Option (Nat × Nat)
  | [], _, _, _, _, _ => none
  | n :: counts, len, code, first, pos, l =>
    let code := 2 * code + (l.headD false).toNat
    let first := 2 * first
    if code < first + n then some (len + 1, pos + (code - first))
    else refSymbol counts (len + 1) code (first + n) (pos + n) l.tail

/-- The difference with category `v` and extra bits of value `x` (H.1.2.2, F.2.2.1 EXTEND). -/
def refExtend (v x : Nat) : Int := if x < 2 ^ (v - 1) then (x : Int) - (2 ^ v - 1) else x

/-- Decode one difference from a bit string: the difference and the number of bits used. Category 16 has no extra bits
(or 16 ignored bits in files with the DNG writer bug). Bits that are not a code give the difference 0 and use nothing. -/
def refDecode (bits huffval : List Nat) (dngBug : Bool) (l : List Bool) : Int × Nat :=
  match refSymbol bits.tail 0 0 0 0 l with
  | none => (0, 0)
  | some (len, k) =>
    let v := huffval.getD k 0
    if v = 0 then (0, len)
    else if v = 16 then (-32768, if dngBug then len + 16 else len)
    else (refExtend v (natMSB (takeZ v (l.drop len))), len + v)

end Verif.Spec

namespace Verif.Spec
open Verif

/-- A usable decoding table as stored in a file: 16 counts (after a dummy), the codes fit into the code space (Kraft
sum at most one), there are at most 256 of them, and every value is a difference category. -/
structure ValidDht (bits huffval : List Nat) : Prop where
  counts : bits.length = 17
  values : huffval.length = 256
  kraft : (bits.tail.zipIdx.map fun p => p.1 * 2 ^ (15 - p.2)).sum ≤ 2 ^ 16
  total : bits.tail.sum ≤ 256
  cats : ∀ v ∈ huffval, v ≤ 16

instance (bits huffval : List Nat) : Decidable (ValidDht bits huffval) :=
  decidable_of_iff (bits.length = 17 ∧ huffval.length = 256 ∧
    (bits.tail.zipIdx.map fun p => p.1 * 2 ^ (15 - p.2)).sum ≤ 2 ^ 16 ∧ bits.tail.sum ≤ 256 ∧ ∀ v ∈ huffval, v ≤ 16)
    ⟨fun h => ⟨h.1, h.2.1, h.2.2.1, h.2.2.2.1, h.2.2.2.2⟩, fun h => ⟨h.1, h.2, h.3, h.4, h.5⟩⟩

/-- Decode `n` differences one after the other, bit by bit: the differences and the bits left. -/
def refDecodeN (bits huffval : List Nat) (dngBug : Bool) : Nat → List Bool → List Int × List Bool
  | 0, l => ([], l)
  | n + 1, l =>
    let r := refDecode bits huffval dngBug l
    let rest := refDecodeN bits huffval dngBug n (l.drop r.2)
    (r.1 :: rest.1, rest.2)

end Verif.Spec
