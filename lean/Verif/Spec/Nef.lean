import Verif.Spec.TwoRow
import Verif.Spec.Pef
/-! # Nikon NEF compressed images

The format as described by dcraw (`nikon_load_raw`), except for the order of the four start values: dcraw takes them row by
row. -/

namespace Verif.Spec.Nef
open Verif Verif.Spec Verif.Spec.TwoRow

/-- The six codes: the numbers of words of 1, 2, 3, … bits, and what each word stands for. An entry `16 * s + n` stands for a
difference of `n` binary digits of which the lowest `s` are not stored. 12 bit lossy, its variant for the bottom of the
picture, 12 bit lossless; the same for 14 bit. -/
def trees : List (List Nat × List Nat) := [
  ([0, 1, 5, 1, 1, 1, 1, 1, 1, 2], [5, 4, 3, 6, 2, 7, 1, 0, 8, 9, 11, 10, 12]),
  ([0, 1, 5, 1, 1, 1, 1, 1, 1, 2], [0x39, 0x5a, 0x38, 0x27, 0x16, 5, 4, 3, 2, 1, 0, 11, 12, 12]),
  ([0, 1, 4, 2, 3, 1, 2], [5, 4, 6, 3, 7, 2, 8, 1, 9, 0, 10, 11, 12]),
  ([0, 1, 4, 3, 1, 1, 1, 1, 1, 2], [5, 6, 4, 7, 8, 3, 9, 2, 1, 0, 10, 11, 12, 13, 14]),
  ([0, 1, 5, 1, 1, 1, 1, 1, 1, 1, 2], [8, 0x5c, 0x4b, 0x3a, 0x29, 7, 6, 5, 4, 3, 2, 1, 0, 13, 14]),
  ([0, 1, 4, 2, 2, 3, 1, 2], [7, 6, 8, 5, 9, 4, 10, 3, 11, 12, 2, 0, 1, 13, 14])]

/-- The number of words of code `n`. -/
def words (n : Nat) : Nat := (trees.getD n ([], [])).1.sum

/-- The number of digits stored after word `k` of code `n`, and the number of those left out. -/
def digits (n k : Nat) : Nat := let b := (trees.getD n ([], [])).2.getD k 0; b % 16 - b / 16
def dropped (n k : Nat) : Nat := (trees.getD n ([], [])).2.getD k 0 / 16

/-- Word `a.1` of code `n`, followed by its digits `a.2`. -/
def word (n : Nat) (a : Nat × Nat) : List Bool := codeWord (trees.getD n ([], [])).1 a.1 ++ bitsMSB (digits n a.1) a.2

/-- The difference this stands for. -/
def value (n : Nat) (a : Nat × Nat) : Int := if digits n a.1 = 0 then 0 else diffOf (digits n a.1) (dropped n a.1) a.2

/-- There is such a word, and room for the digits. -/
def Legal (n : Nat) (a : Nat × Nat) : Prop := a.1 < words n ∧ a.2 < 2 ^ digits n a.1

/-- The code in row `r`: the next one from row `split` on, if there is a split. -/
def treeAt (sel split r : Nat) : Nat := if 0 < split ∧ split ≤ r then sel + 1 else sel

/-- The file for the words `sym r c`. -/
def encodeNef (sel split w h : Nat) (sym : Nat → Nat → Nat × Nat) : List Bool :=
  stored (fun r c => word (treeAt sel split r) (sym r c)) w h

/-- `px` are the values of the stored differences, added up. -/
def Sums (sel split w h : Nat) (start px : Nat → Nat → Int) (sym : Nat → Nat → Nat × Nat) : Prop :=
  ∀ r c, r < h → c < w → Legal (treeAt sel split r) (sym r c) ∧
    px r c = before start px r c + value (treeAt sel split r) (sym r c)

/-- Limit a value to `bits` bits. -/
def limit (bits : Nat) (v : Int) : Nat := if v < 0 then 0 else min v.toNat (2 ^ bits - 1)

/-- The word and digits for a difference, in a code without left out digits. -/
def symOf (n : Nat) (d : Int) : Nat × Nat := ((trees.getD n ([], [])).2.idxOf (catOf d), extraOf d)

/-- The file for a picture, in such a code. -/
def encodePicture (n w h : Nat) (start px : Nat → Nat → Nat) : List Bool :=
  encodeNef n 0 w h fun r c =>
    symOf n ((px r c : Int) - before (fun r c => (start r c : Int)) (fun r c => (px r c : Int)) r c)

/-- The random numbers for dithering. -/
def noiseStep (x : Nat) : Nat := 15700 * (x % 2 ^ 16) + x / 2 ^ 16
def noise (seed : Nat) : Nat → Nat
  | 0 => seed
  | j + 1 => noiseStep (noise seed j)

/-- The metadata: two bytes of version, 2110 bytes of no interest in some versions, the values the first two rows and columns start
from, and the number of curve points. -/
def preamble (le : Bool) (v0 v1 : Nat) (skip : List Nat) (start : Nat → Nat → Nat) (csize : Nat) : List Nat :=
  [v0, v1] ++ skip ++ Pef.word16 le (start 0 0) ++ Pef.word16 le (start 1 0) ++ Pef.word16 le (start 0 1) ++ Pef.word16 le (start 1 1) ++
    Pef.word16 le csize

/-- The length of the part without interest. -/
def skipped (v0 v1 : Nat) : Nat := if v0 = 73 ∨ v1 = 88 then 2110 else 0

/-- The curve through equally spaced points. -/
def lerp (knots : List Nat) (step i : Nat) : Nat :=
  ((step - i % step) * knots.getD (i / step) 0 + i % step * knots.getD (i / step + 1) 0) / step

end Verif.Spec.Nef
