import Verif.Spec.Jpeg
import Verif.Spec.Image
/-! # Canon CRW pictures

Samples of 10 bits in raster order. A sample is predicted by the one two columns before it, by 512 at the start of a row. The
differences are stored in blocks of 64 as in baseline JPEG: the first one as its difference to the first of the block before, the
others as runs of zeros, each followed by a difference. Cameras with 12 bits store the two low bits of each sample elsewhere. -/

namespace Verif.Spec.Crw
open Verif Verif.Spec Verif.Spec.Jpeg

/-- The codes for the first difference of a block. -/
def firstTable : Nat → Table
  | 0 => ⟨[0, 1, 4, 2, 3, 1, 2, 0, 0, 0, 0, 0, 0, 0, 0, 0],
    [4, 3, 5, 6, 2, 7, 1, 8, 9, 0, 10, 11, 255]⟩
  | 1 => ⟨[0, 2, 2, 3, 1, 1, 1, 1, 2, 0, 0, 0, 0, 0, 0, 0],
    [3, 2, 4, 1, 5, 0, 6, 7, 9, 8, 10, 11, 255]⟩
  | _ => ⟨[0, 0, 6, 3, 1, 1, 2, 0, 0, 0, 0, 0, 0, 0, 0, 0],
    [6, 5, 7, 4, 8, 3, 9, 2, 0, 10, 1, 11, 255]⟩

/-- The codes for the other ones: 16 times the number of zeros before it, plus the number of its digits. -/
def otherTable : Nat → Table
  | 0 => ⟨[0, 2, 2, 2, 1, 4, 2, 1, 2, 5, 1, 1, 0, 0, 0, 139],
    [3, 4, 2, 5, 1, 6, 7, 8, 18, 19, 17, 20, 9, 21, 34, 0, 33, 22, 10, 240, 35, 23, 36, 49, 50, 24, 25, 51, 37, 65, 52,
     66, 53, 81, 54, 55, 56, 41, 121, 38, 26, 57, 86, 87, 40, 39, 82, 85, 88, 67, 118, 89, 119, 84, 97, 249, 113, 120,
     117, 150, 151, 73, 183, 83, 215, 116, 182, 152, 71, 72, 149, 105, 153, 145, 250, 184, 104, 181, 185, 214, 247, 216,
     103, 70, 69, 148, 137, 248, 129, 213, 246, 180, 136, 177, 42, 68, 114, 217, 135, 102, 212, 245, 58, 167, 115, 169,
     168, 134, 98, 199, 101, 200, 201, 161, 244, 209, 233, 90, 146, 133, 166, 231, 147, 232, 193, 198, 122, 100, 225, 74,
     106, 230, 179, 241, 211, 165, 138, 178, 154, 186, 132, 164, 99, 229, 197, 243, 210, 196, 130, 170, 218, 228, 242,
     202, 131, 163, 162, 195, 234, 194, 226, 227]⟩
  | 1 => ⟨[0, 2, 2, 1, 4, 1, 4, 1, 3, 3, 1, 0, 0, 0, 0, 140],
    [2, 3, 1, 4, 5, 18, 17, 6, 19, 7, 8, 20, 34, 9, 33, 0, 35, 21, 49, 50, 10, 22, 240, 36, 51, 65, 66, 25, 23, 37, 24,
     81, 52, 67, 82, 41, 53, 97, 57, 113, 98, 54, 83, 38, 56, 26, 55, 129, 39, 145, 121, 85, 69, 40, 114, 89, 161, 177,
     68, 105, 84, 88, 209, 250, 87, 225, 241, 185, 73, 71, 99, 106, 249, 86, 70, 168, 42, 74, 120, 153, 58, 117, 116, 134,
     101, 193, 118, 182, 150, 214, 137, 133, 201, 245, 149, 180, 199, 247, 138, 151, 184, 115, 183, 216, 217, 135, 167,
     122, 72, 130, 132, 234, 244, 166, 197, 90, 148, 164, 198, 146, 195, 104, 181, 200, 228, 229, 230, 233, 162, 163, 227,
     194, 102, 103, 147, 170, 212, 213, 231, 248, 136, 154, 215, 119, 196, 100, 226, 152, 165, 202, 218, 232, 243, 246,
     169, 178, 179, 242, 210, 131, 186, 211]⟩
  | _ => ⟨[0, 0, 6, 2, 1, 3, 3, 2, 5, 1, 2, 2, 8, 10, 0, 117],
    [4, 5, 3, 6, 2, 7, 1, 8, 9, 18, 19, 20, 17, 21, 10, 22, 23, 240, 0, 34, 33, 24, 35, 25, 36, 50, 49, 37, 51, 56, 55,
     52, 53, 54, 57, 121, 87, 88, 89, 40, 86, 120, 39, 65, 41, 119, 38, 66, 118, 153, 26, 85, 152, 151, 249, 72, 84, 150,
     137, 71, 183, 73, 250, 117, 104, 182, 103, 105, 185, 184, 216, 82, 215, 136, 181, 116, 81, 70, 217, 248, 58, 214,
     135, 69, 122, 149, 213, 246, 134, 180, 169, 148, 83, 42, 168, 67, 245, 247, 212, 102, 167, 90, 68, 138, 201, 232,
     200, 231, 154, 106, 115, 74, 97, 199, 244, 198, 101, 233, 114, 230, 113, 145, 147, 166, 218, 146, 133, 98, 243, 197,
     178, 164, 132, 186, 100, 165, 179, 210, 129, 229, 211, 170, 196, 202, 242, 177, 228, 209, 131, 99, 234, 195, 226,
     130, 241, 163, 194, 161, 193, 227, 162, 225]⟩

/-- The word for a symbol. -/
def symbol (T : Table) (s : Nat) : List Bool := codeWord T.counts (T.vals.idxOf s)

/-- The digits of a difference. -/
def digits (d : Int) : List Bool := bitsMSB (catOf d) (extraOf d)

/-- All but the first difference of a block, after `z` zeros: 16 zeros have a word of their own, and so have all zeros at the end. -/
def runs (T : Table) : Nat → List Int → List Bool
  | z, [] => if z = 0 then [] else symbol T 0
  | z, d :: l =>
    if d = 0 then runs T (z + 1) l
    else (List.replicate (z / 16) (symbol T 0xf0)).flatten ++ symbol T (16 * (z % 16) + catOf d) ++ digits d ++ runs T 0 l

/-- A block. -/
def blockBits (n : Nat) (d : Int) (l : List Int) : List Bool :=
  symbol (firstTable n) (catOf d) ++ digits d ++ runs (otherTable n) 0 l

/-- Sample `k` in raster order, in rows of `w`. -/
def raster (w : Nat) (px : Nat → Nat → Nat) (k : Nat) : Nat := px (k / w) (k % w)

/-- The difference of sample `k` in raster order, in rows of `w`. -/
def diff (w : Nat) (x : Nat → Nat) (k : Nat) : Int := (x k : Int) - (if k % w < 2 then 512 else x (k - 2) : Nat)

/-- The scan. -/
def scan (n w h : Nat) (x : Nat → Nat) : List Bool :=
  (List.range (w * h / 64)).flatMap fun b =>
    blockBits n (diff w x (64 * b) - (if b = 0 then 0 else diff w x (64 * (b - 1)))) ((List.range 63).map fun i => diff w x (64 * b + 1 + i))

/-- The low bits: four samples to a byte, the first one lowest. -/
def lows (w h : Nat) (x : Nat → Nat) : List Nat :=
  (List.range (w * h / 4)).map fun i => x (4 * i) % 4 + 4 * (x (4 * i + 1) % 4) + 16 * (x (4 * i + 2) % 4) + 64 * (x (4 * i + 3) % 4)

/-- Pictures 2672 pixels wide (those of one camera) have samples below 512 stored too low by 2. -/
def adjusted (w v : Nat) : Nat := if w = 2672 ∧ v < 512 then v + 2 else v

end Verif.Spec.Crw
