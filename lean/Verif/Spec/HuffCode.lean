import Verif.Spec.HuffDecode
/-!
# Writing differences with a canonical prefix code

The words of a canonical code are given by the number of words of each length: they are numbered upwards, the shorter ones
first (ITU-T T.81, Annex C).
-/

namespace Verif.Spec
open Verif

/-- Length and number of the `k`-th word. `counts` are the numbers of words of length `len + 1`, `len + 2`, …; `first` is the
number of words of length `len` that are taken, as prefixes too, by the shorter words. -/
def canonCode : List Nat → Nat → Nat → Nat → Nat × Nat
  | [], _, _, _ => (0, 0)
  | n :: counts, len, first, k =>
    if k < n then (len + 1, 2 * first + k) else canonCode counts (len + 1) (2 * first + n) (k - n)

/-- The `k`-th word. -/
def codeWord (counts : List Nat) (k : Nat) : List Bool :=
  let c := canonCode counts 0 0 k
  bitsMSB c.1 c.2

/-- The difference given by `v` extra bits of value `x`, when the lowest `s` bits are not stored: those are taken as one half
of their range. Without such bits, this is the usual code in which a leading 0 stands for a negative difference. -/
def diffOf (v s x : Nat) : Int :=
  if s = 0 then (if x < 2 ^ (v - 1) then (x : Int) - (2 ^ v - 1) else x)
  else
    let m : Int := x * 2 ^ s + 2 ^ (s - 1)
    if x < 2 ^ (v - 1) then m - 2 ^ (v + s) else m

/-- The number of binary digits of a difference. -/
def catOf (d : Int) : Nat := if d = 0 then 0 else Nat.log2 d.natAbs + 1

/-- The extra bits of a difference. -/
def extraOf (d : Int) : Nat := if 0 ≤ d then d.toNat else (d + (2 ^ catOf d - 1)).toNat

/-- A difference: the word that stands for its number of digits, then its digits. `vals` are the numbers of digits the words
stand for. -/
def diffWord (counts vals : List Nat) (d : Int) : List Bool :=
  codeWord counts (vals.idxOf (catOf d)) ++ bitsMSB (catOf d) (extraOf d)

/-- Decode one difference from a bit string, bit by bit. -/
def refDecodeS (bits huffval shiftval : List Nat) (l : List Bool) : Int × Nat :=
  match refSymbol bits.tail 0 0 0 0 l with
  | none => (0, 0)
  | some (len, k) =>
    let v := huffval.getD k 0
    if v = 0 then (0, len)
    else (diffOf v (shiftval.getD k 0) (natMSB (takeZ v (l.drop len))), len + v)

/-- A usable table: 16 counts after a dummy, the words fit, and all categories and shifts together stay below 16 bits. -/
structure ValidTree (bits huffval shiftval : List Nat) : Prop where
  counts : bits.length = 17
  values : huffval.length = 256
  shifts : shiftval.length = 256
  kraft : (bits.tail.zipIdx.map fun p => p.1 * 2 ^ (15 - p.2)).sum ≤ 2 ^ 16
  total : bits.tail.sum ≤ 256
  cats : ∀ k, k < bits.tail.sum → huffval.getD k 0 + shiftval.getD k 0 ≤ 15

instance (bits huffval shiftval : List Nat) : Decidable (ValidTree bits huffval shiftval) :=
  decidable_of_iff (bits.length = 17 ∧ huffval.length = 256 ∧ shiftval.length = 256 ∧
    (bits.tail.zipIdx.map fun p => p.1 * 2 ^ (15 - p.2)).sum ≤ 2 ^ 16 ∧ bits.tail.sum ≤ 256 ∧
    ∀ k, k < bits.tail.sum → huffval.getD k 0 + shiftval.getD k 0 ≤ 15)
    ⟨fun h => ⟨h.1, h.2.1, h.2.2.1, h.2.2.2.1, h.2.2.2.2.1, h.2.2.2.2.2⟩, fun h => ⟨h.1, h.2, h.3, h.4, h.5, h.6⟩⟩

end Verif.Spec
