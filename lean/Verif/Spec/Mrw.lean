import Verif.Spec.Bits
import Verif.Spec.Image
/-! # Minolta MRW files

Four identifying bytes, the length of all blocks, the blocks, the picture. A block is a tag, a length and that much data. Three tags
matter: PRD (size of the picture and how it is stored), WBG (white balance) and TTW (TIFF directories). -/

namespace Verif.Spec.Mrw
open Verif

/-- Four bytes, high byte first. -/
def w32 (v : Nat) : List Nat := [v / 16777216, v / 65536 % 256, v / 256 % 256, v % 256]

/-- The number in two bytes at a position, high byte first. -/
def u16At (d : List Nat) (pos : Nat) : Nat := d.getD pos 0 * 256 + d.getD (pos + 1) 0

structure Block where
  tag : Nat
  data : List Nat

def Block.bytes (b : Block) : List Nat := w32 b.tag ++ w32 b.data.length ++ b.data

/-- All blocks one after the other. -/
def bytes (bs : List Block) : List Nat := bs.flatMap Block.bytes

def file (bs : List Block) (pic : List Nat) : List Nat := [0, 0x4D, 0x52, 0x4D] ++ w32 (bytes bs).length ++ bytes bs ++ pic

def PRD : Nat := 0x505244
def WBG : Nat := 0x574247
def TTW : Nat := 0x545457

/-- A block with its data complete. -/
def Block.Ok (b : Block) : Prop :=
  b.tag < 2 ^ 32 ∧ b.data.length + 8 < 2 ^ 32 ∧ (b.tag = PRD → 17 ≤ b.data.length) ∧ (b.tag = WBG → 12 ≤ b.data.length)

/-- ... and with more than twenty bytes from its beginning to the end of the last block, if it is one that matters. -/
def Good : List Block → Prop
  | [] => True
  | b :: bs => b.Ok ∧ (b.tag = PRD ∨ b.tag = WBG ∨ b.tag = TTW → 20 < (bytes (b :: bs)).length) ∧ Good bs

/-- Data of the last block with this tag. -/
def lastOf (tag : Nat) : List Block → Option (List Nat)
  | [] => none
  | b :: bs => (lastOf tag bs).or (if b.tag = tag then some b.data else none)

/-- Where the data of the last block with this tag begin, when the first block begins at `o`. -/
def lastAt (tag : Nat) : Nat → List Block → Option Nat
  | _, [] => none
  | o, b :: bs => (lastAt tag (o + b.bytes.length) bs).or (if b.tag = tag then some (o + 8) else none)

/-- Four numbers `red, blue, 256, 256` in a row, red and blue between 256 and 640. -/
def Quad (ws : List Nat) (i r b : Nat) : Prop :=
  ws[i]? = some r ∧ ws[i + 1]? = some b ∧ ws[i + 2]? = some 256 ∧ ws[i + 3]? = some 256 ∧ 256 < r ∧ r < 640 ∧ 256 < b ∧ b < 640

/-- The 16 bit numbers in the first `n` bytes of a file (the last may reach one byte further). -/
def words (file : List Nat) (n : Nat) : List Nat := (List.range (min ((n + 1) / 2) (file.length / 2))).map fun i => u16At file (2 * i)

end Verif.Spec.Mrw
