import Verif.Base
/-! # Canon's Camera Image File Format (CIFF)

A directory is a stretch of the file: values, then the list of its entries, and in its last four bytes the length of the values. An
entry is ten bytes: a tag and either eight bytes of data, or the size of the data and where it lies among the values. The tag says
what the data is: with 0x2800 or 0x3000 in its type bits it is again a directory. The file begins with the byte order, the position of the
outermost directory, which ends with the file, and the letters `HEAPCCDR`. -/

namespace Verif.Spec.Ciff
open Verif

/-- `n` bytes, least significant first. -/
def le : Nat → Nat → List Nat
  | 0, _ => []
  | n + 1, v => v % 256 :: le n (v / 256)

/-- These bytes are in the file at this position. -/
def At (file : List Nat) (pos : Nat) (l : List Nat) : Prop := (file.drop pos).take l.length = l ∧ pos + l.length ≤ file.length

inductive Item where
  /-- data among the values -/
  | value (tag : Nat) (data : List Nat)
  /-- eight bytes of data in the entry -/
  | inline (tag : Nat) (data : List Nat)
  | dir (tag : Nat) (items : List Item)

/-- The type bits of a tag. -/
def typ (tag : Nat) : Nat := tag / 2048 % 8 * 2048

/-- Tags of directories. -/
def IsDir (tag : Nat) : Prop := typ tag = 0x2800 ∨ typ tag = 0x3000

instance (tag : Nat) : Decidable (IsDir tag) := inferInstanceAs (Decidable (_ ∨ _))

/-- The entry of an item in the ten bytes at `pos`; the values of the directory begin at `a`. `sub`: what there is to say about a
subdirectory. -/
def ItemAt (file : List Nat) (sub : Nat → Nat → List Item → Prop) (a pos : Nat) : Item → Prop
  | .value t data => t < 0x4000 ∧ ¬IsDir t ∧ ∃ o, o < 2 ^ 32 ∧ data.length < 2 ^ 32 ∧
      At file pos (le 2 t ++ le 4 data.length ++ le 4 o) ∧ At file (a + o) data
  | .inline t data => t < 0x4000 ∧ ¬IsDir t ∧ data.length = 8 ∧ At file pos (le 2 (t + 0x4000) ++ data)
  | .dir t items => t < 0x4000 ∧ IsDir t ∧ ∃ o n, o < 2 ^ 32 ∧ n < 2 ^ 32 ∧
      At file pos (le 2 t ++ le 4 n ++ le 4 o) ∧ a + o + n ≤ file.length ∧ sub (a + o) (a + o + n) items

/-- These items make a directory in bytes `a` to `b` of the file. -/
def DirOf (file : List Nat) (sub : Nat → Nat → List Item → Prop) (a b : Nat) (items : List Item) : Prop :=
  ∃ vs, 4 ≤ b ∧ vs < 2 ^ 32 ∧ items.length < 65536 ∧ At file (b - 4) (le 4 vs) ∧ At file (a + vs) (le 2 items.length) ∧
    ∀ i x, items[i]? = some x → ItemAt file sub a (a + vs + 2 + 10 * i) x

/-- The same, with all its subdirectories down to `lv` levels. -/
def DirAt (file : List Nat) : Nat → Nat → Nat → List Item → Prop
  | 0 => DirOf file fun _ _ _ => True
  | lv + 1 => DirOf file (DirAt file lv)

/-- A file with these items in its outermost directory. -/
def FileAt (file : List Nat) (lv : Nat) (items : List Item) : Prop :=
  ∃ start, start < 2 ^ 32 ∧ At file 2 (le 4 start) ∧ At file 6 ("HEAPCCDR".toList.map Char.toNat) ∧
    DirAt file lv start file.length items

/-- The data with this tag in this directory itself, the last one if there are several. -/
def here (tag : Nat) (items : List Item) : Option (List Nat) :=
  (items.filterMap fun
    | .value t d => if t = tag then some d else none
    | .inline t d => if t = tag then some d else none
    | .dir _ _ => none).getLast?

/-- The data with this tag: the directory's own, or else that of its first subdirectory that has it; down to `lv` levels. -/
def find (tag : Nat) : Nat → List Item → Option (List Nat)
  | 0, items => here tag items
  | lv + 1, items => (here tag items).or (items.findSome? fun
    | .dir _ sub => find tag lv sub
    | _ => none)

mutual
/-- Levels of directories in an item. -/
def depth : Item → Nat
  | .dir _ items => depths items + 1
  | _ => 0
/-- Levels of subdirectories. -/
def depths : List Item → Nat
  | [] => 0
  | x :: l => max (depth x) (depths l)
end

/-- Number `i` of data that consists of shorts. -/
def short (data : List Nat) (i v : Nat) : Prop := v < 65536 ∧ At data (2 * i) (le 2 v)
/-- Number `i` of data that consists of longs. -/
def long (data : List Nat) (i v : Nat) : Prop := v < 2 ^ 32 ∧ At data (4 * i) (le 4 v)

end Verif.Spec.Ciff
