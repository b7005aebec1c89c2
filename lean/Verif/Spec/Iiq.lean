import Verif.Spec.Srw
import Verif.Spec.Ciff
/-! # Phase One IIQ: how the samples are coded

The data of each row starts at a byte of its own; a table of 32 bit numbers gives the positions. The bits are in little-endian words of four
bytes. Even and odd columns are coded each on their own: a sample by its difference to the one two columns before it. -/

namespace Verif.Spec.Iiq
open Verif Verif.Spec

/-- The sample two columns before; nothing at the start of a row. -/
def prev (px : Nat → Nat) (c : Nat) : Nat := if c < 2 then 0 else px (c - 2)

/-- The positions of the rows, one 32 bit number for each. -/
def Strips (strips : List Nat) (off : Nat → Nat) (h : Nat) : Prop :=
  ∀ r, r < h → off r < 2 ^ 32 ∧ Ciff.At strips (4 * r) (Ciff.le 4 (off r))

/-! ## IIQ L

For each eight samples there are two lengths, for the even and for the odd columns: differences of `n` binary digits, from 5 to 13, or
with 14 no differences, but samples of 16 digits. After the last whole eight, the samples have 16 digits. -/

/-- The word for a length: number of digits and value. -/
def lenWord : Nat → Nat × Nat
  | 5 => (6, 0b000010)
  | 6 => (4, 0b0010)
  | 7 => (3, 0b011)
  | 8 => (3, 0b010)
  | 9 => (4, 0b0011)
  | 10 => (5, 0b00011)
  | 11 => (5, 0b00010)
  | 12 => (6, 0b000011)
  | 13 => (6, 0b000001)
  | _ => (6, 0b000000)

/-- What a writer chose for a row: the lengths of each eight, and where to say only that the length is that of the eight before. -/
structure Row where
  len : Nat → Nat → Nat
  keep : Nat → Nat → Bool

/-- Lengths are from 5 to 14; the length of the eight before can be kept if there are any. -/
def Row.Ok (R : Row) : Prop :=
  ∀ k p, 5 ≤ R.len k p ∧ R.len k p ≤ 14 ∧ (R.keep k p = true → 0 < k ∧ R.len k p = R.len (k - 1) p)

/-- The bits for a length: a one to keep it. -/
def Row.lenBits (R : Row) (k p : Nat) : List Bool :=
  if R.keep k p then [true] else bitsMSB (lenWord (R.len k p)).1 (lenWord (R.len k p)).2

/-- The length at a column. -/
def Row.lenAt (R : Row) (w c : Nat) : Nat := if c < w / 8 * 8 then R.len (c / 8) (c % 2) else 14

/-- The bits for a sample: itself, or the difference, from `1 - 2 ^ (n - 1)` up. -/
def Row.pixel (R : Row) (w : Nat) (px : Nat → Nat) (c : Nat) : List Bool :=
  if R.lenAt w c = 14 then bitsMSB 16 (px c)
  else bitsMSB (R.lenAt w c) (px c + (2 ^ (R.lenAt w c - 1) - 1) - prev px c)

/-- The differences fit in their digits. -/
def Row.Fits (R : Row) (w : Nat) (px : Nat → Nat) : Prop :=
  ∀ c, c < w → R.lenAt w c ≠ 14 →
    prev px c ≤ px c + (2 ^ (R.lenAt w c - 1) - 1) ∧ px c ≤ prev px c + 2 ^ (R.lenAt w c - 1)

/-- A row: before each eight its two lengths. -/
def Row.bits (R : Row) (w : Nat) (px : Nat → Nat) : List Bool :=
  (List.range w).flatMap fun c =>
    (if c % 8 = 0 ∧ c < w / 8 * 8 then R.lenBits (c / 8) 0 ++ R.lenBits (c / 8) 1 else []) ++ R.pixel w px c

/-! ## IIQ S, version 2

A row has a number of base digits, from 0 to 7. For each eight samples there are a size, from 0 to 9, for the even and one for the odd
columns, and a number of extra digits, from 0 to 4. With size 9, samples are stored as they are. Otherwise differences are, in base and
extra digits, in steps of `2 ^ (size - extra)`: with less extra digits than the size, not every sample can be stored. After the last whole eight, samples are
stored as they are. -/

/-- The word for a size: number of digits and value. -/
def sizeWord : Nat → Nat × Nat
  | 0 => (7, 0b0000010)
  | 1 => (5, 0b00010)
  | 2 => (4, 0b0011)
  | 3 => (4, 0b0010)
  | 4 => (5, 0b00011)
  | 5 => (6, 0b000011)
  | 6 => (6, 0b000010)
  | 7 => (7, 0b0000011)
  | 8 => (7, 0b0000001)
  | _ => (7, 0b0000000)

/-- What a writer chose for a row: base digits, sizes, whether to say only how the size changed, extra digits. -/
structure RowS where
  base : Nat
  size : Nat → Nat → Nat
  rel : Nat → Nat → Bool
  extra : Nat → Nat

/-- The size of the eight before; nothing at the start of a row. -/
def RowS.before (R : RowS) (k p : Nat) : Nat := if k = 0 then 0 else R.size (k - 1) p

/-- A size can be said by its change if it is one less, the same, or one more than that of the eight before. -/
def RowS.Ok (R : RowS) : Prop :=
  R.base < 8 ∧ (∀ k, R.extra k ≤ 4) ∧
    ∀ k p, R.size k p ≤ 9 ∧ (R.rel k p = true → R.before k p ≤ R.size k p + 1 ∧ R.size k p ≤ R.before k p + 1)

def RowS.sizeBits (R : RowS) (k p : Nat) : List Bool :=
  if R.rel k p then bitsMSB 2 (R.size k p + 2 - R.before k p) else bitsMSB (sizeWord (R.size k p)).1 (sizeWord (R.size k p)).2

/-- None: a one; else a zero and two digits. -/
def RowS.extraBits (R : RowS) (k : Nat) : List Bool := if R.extra k = 0 then [true] else bitsMSB 3 (R.extra k - 1)

/-- The step of the differences, as a power of two. -/
def RowS.step (R : RowS) (c : Nat) : Nat := R.size (c / 8) (c % 2) - R.extra (c / 8)

/-- Differences are stored from `- low` up. -/
def RowS.low (R : RowS) (c : Nat) : Nat := 2 ^ (R.base + R.size (c / 8) (c % 2)) / 2 - 1

/-- Samples stored as they are. -/
def RowS.Raw (R : RowS) (w c : Nat) : Prop := w / 8 * 8 ≤ c ∨ R.size (c / 8) (c % 2) = 9

instance (R : RowS) (w c : Nat) : Decidable (R.Raw w c) := inferInstanceAs (Decidable (_ ∨ _))

def RowS.pixel (R : RowS) (w : Nat) (px : Nat → Nat) (c : Nat) : List Bool :=
  if R.Raw w c then bitsMSB 14 (px c)
  else bitsMSB (R.base + R.extra (c / 8)) ((px c + R.low c - prev px c) / 2 ^ R.step c)

/-- The samples can be stored: the differences are whole steps, and fit in their digits. -/
def RowS.Fits (R : RowS) (w : Nat) (px : Nat → Nat) : Prop :=
  ∀ c, c < w → ¬R.Raw w c →
    prev px c ≤ px c + R.low c ∧ (px c + R.low c - prev px c) % 2 ^ R.step c = 0 ∧
      (px c + R.low c - prev px c) / 2 ^ R.step c < 2 ^ (R.base + R.extra (c / 8))

/-- One of the groups of eight, or what is left at the end. -/
def RowS.group (R : RowS) (w : Nat) (px : Nat → Nat) (k : Nat) : List Bool :=
  if 8 * k + 8 ≤ w then R.sizeBits k 0 ++ R.sizeBits k 1 ++ R.extraBits k ++ (List.range 8).flatMap fun i => R.pixel w px (8 * k + i)
  else (List.range (w - 8 * k)).flatMap fun i => R.pixel w px (8 * k + i)

/-- A row: 13 digits without meaning, three for the number of base digits, the groups. -/
def RowS.bits (R : RowS) (w : Nat) (px : Nat → Nat) (junk : Nat) : List Bool :=
  bitsMSB 13 junk ++ bitsMSB 3 R.base ++ (List.range ((w + 7) / 8)).flatMap (R.group w px)

end Verif.Spec.Iiq
