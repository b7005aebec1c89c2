import Verif.Spec.Bits
import Verif.Spec.HuffCode
/-! # Kodak 65000: how the samples are coded

A row is cut in segments of 256 samples. Even and odd columns are coded each on their own, by differences, in each segment from zero. First come
the numbers of digits of all differences, two in a byte, the first in the low half. The digits follow, lowest first, in big-endian words of
16 bits: one word if the segment has a number of samples of the form 8n + 4, then as many pairs of words as are needed. -/

namespace Verif.Spec.Kodak
open Verif

/-- The difference to the sample two before. -/
def diff (px : Nat → Nat) (i : Nat) : Int := (px i : Int) - (if i < 2 then 0 else px (i - 2) : Nat)

/-- The numbers of digits; the last half byte of an odd segment has no meaning. -/
def lenBytes (px : Nat → Nat) (n x : Nat) : List Nat :=
  (List.range ((n + 1) / 2)).map fun i => catOf (diff px (2 * i)) + 16 * (if 2 * i + 1 < n then catOf (diff px (2 * i + 1)) else x)

/-- The digits. -/
def digits (px : Nat → Nat) (n : Nat) : List Bool :=
  (List.range n).flatMap fun i => bitsLSB (catOf (diff px i)) (extraOf (diff px i))

/-- Words of a segment that may stand alone at its start. -/
def single (n : Nat) : Nat := if n % 8 = 4 then 1 else 0

/-- The words hold these digits, and are not more than needed. -/
def Words (ws : List Nat) (n : Nat) (ds : List Bool) : Prop :=
  (∀ w ∈ ws, w < 65536) ∧ ws.length = single n + 2 * ((ds.length - 16 * single n + 31) / 32) ∧ ∃ pad, ws.flatMap (bitsLSB 16) = ds ++ pad

/-- The bytes of a segment. -/
def Segment (bytes : List Nat) (px : Nat → Nat) (n : Nat) : Prop :=
  ∃ x ws, x < 16 ∧ Words ws n (digits px n) ∧ bytes = lenBytes px n x ++ ws.flatMap fun w => [w / 256, w % 256]

/-- The samples of one segment. -/
def part (px : Nat → Nat → Nat) (r k i : Nat) : Nat := px r (256 * k + i)

/-- The number of samples of one segment. -/
def size (w k : Nat) : Nat := min 256 (w - 256 * k)

/-- A file: the segments of the rows from left to right, the rows from the top down. -/
def File (bytes : List Nat) (px : Nat → Nat → Nat) (w h : Nat) : Prop :=
  ∃ seg : Nat → Nat → List Nat, (∀ r, r < h → ∀ k, k < (w + 255) / 256 → Segment (seg r k) (part px r k) (size w k)) ∧
    bytes = (List.range h).flatMap fun r => (List.range ((w + 255) / 256)).flatMap fun k => seg r k

/-- Differences have up to 15 digits. -/
def Fits (px : Nat → Nat) (n : Nat) : Prop := ∀ i, i < n → catOf (diff px i) ≤ 15

end Verif.Spec.Kodak
