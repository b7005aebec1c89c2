import Verif.Model.IiqFlat
/-! # Tables of Phase One files

Only the types of a defect and a flat field are taken from the model. -/

namespace Verif.Spec.IiqTab
open Verif.IiqCorr (Defect)
open Verif.IiqFlat (Flat)

/-- The numbers of two and four bytes at a place of the file -/
def u16 (file : List Nat) (p : Nat) : Nat := file.getD p 0 + 256 * file.getD (p + 1) 0
def u32 (file : List Nat) (p : Nat) : Nat := u16 file p + 65536 * u16 file (p + 2)

/-- The value of the last of `n` entries that has one -/
def last {α : Type} (n : Nat) (v : Nat → Option α) : Option α := (List.range n).reverse.findSome? v

/-- `n` values, `size` bytes from one to the next -/
def values {α : Type} (v : Nat → α) (p size n : Nat) : List α := (List.range n).map fun i => v (p + i * size)

/-- A note is a number or a text. -/
inductive Note where
  | number (n : Nat)
  | text (b : List Nat)

/-- The directory of the notes: number of entries, and the place of an entry -/
def noteCount (file : List Nat) : Nat := u32 file (8 + u32 file 16)
def notePlace (file : List Nat) (i : Nat) : Nat := 16 + u32 file 16 + 16 * i

/-- An entry has a tag, a kind, a size and a value. The kinds 2 and 4 are numbers, the kind 1 is the place of a text, but of the sensor calibration with tag 0x110.
Places in the file are counted from byte 8 on. -/
def note (file : List Nat) (tag i : Nat) : Option (Nat × Note) :=
  if u32 file (notePlace file i) = tag then
    (if u32 file (notePlace file i + 4) = 1 then
      (if tag = 0x110 then some (u32 file (notePlace file i + 8), .number (8 + u32 file (notePlace file i + 12)))
      else some (u32 file (notePlace file i + 8), .text ((file.drop (8 + u32 file (notePlace file i + 12))).take (u32 file (notePlace file i + 8)))))
    else if u32 file (notePlace file i + 4) = 2 ∨ u32 file (notePlace file i + 4) = 4 then
      some (u32 file (notePlace file i + 8), .number (u32 file (notePlace file i + 12)))
    else none)
  else none

/-- A text of the notes is in the file, and the place of the calibration has 32 bits. -/
def NoteFits (file : List Nat) (i : Nat) : Prop :=
  u32 file (notePlace file i + 4) = 1 →
    (u32 file (notePlace file i) = 0x110 → u32 file (notePlace file i + 12) + 8 < 2 ^ 32) ∧
    (u32 file (notePlace file i) ≠ 0x110 → 8 + u32 file (notePlace file i + 12) + u32 file (notePlace file i + 8) ≤ file.length)

/-- The tables of the calibration at `off`: their number, and tag, size and place of each -/
def tables (file : List Nat) (off : Nat) : Nat := u32 file (off + u32 file (off + 8))
def tableTag (file : List Nat) (off i : Nat) : Nat := u32 file (off + u32 file (off + 8) + 8 + 12 * i)
def tableSize (file : List Nat) (off i : Nat) : Nat := u32 file (off + u32 file (off + 8) + 12 + 12 * i)
def tablePlace (file : List Nat) (off i : Nat) : Nat := off + u32 file (off + u32 file (off + 8) + 16 + 12 * i)

/-- The last table with a tag, read by `v` from its place -/
def table {α : Type} (file : List Nat) (off tag : Nat) (v : Nat → α) : Option α :=
  last (tables file off) fun i => if tableTag file off i = tag then some (v (tablePlace file off i)) else none

/-- A defect: 8 bytes, with the column first and the kind as third number -/
def defect (file : List Nat) (p : Nat) : Defect := ⟨u16 file p, u16 file (p + 4)⟩

/-- A flat field of kind `tag` and `size` bytes: eight numbers, then factors of four bytes (kind 0x401) or of two bytes in parts of 32768. The factors go on for
8 bytes after the end of the table. -/
def flat (f32 : Nat → ℚ) (file : List Nat) (tag size p : Nat) : Flat :=
  ⟨tag, values (u16 file) p 2 8,
    if tag = 0x401 then values (fun p => f32 (u32 file p)) (p + 16) 4 ((size - 8 + 3) / 4) else values (fun p => (u16 file p : ℚ) / 32768) (p + 16) 2 ((size - 8 + 1) / 2)⟩

/-- The kinds of flat fields -/
def isFlat (tag : Nat) : Prop := tag = 0x401 ∨ tag = 0x410 ∨ tag = 0x416 ∨ tag = 0x40b

instance (tag : Nat) : Decidable (isFlat tag) := by unfold isFlat; infer_instance

/-- A table has the size its kind needs, and what is read is in the file. -/
def TableFits (file : List Nat) (tag size p : Nat) : Prop :=
  (tag = 0x400 → size % 4 = 0 ∧ p + 2 * size ≤ file.length) ∧
  (isFlat tag → p + 16 ≤ file.length) ∧
  (tag = 0x401 → p + 16 + 4 * ((size - 8 + 3) / 4) ≤ file.length) ∧
  (isFlat tag → tag ≠ 0x401 → p + 16 + 2 * ((size - 8 + 1) / 2) ≤ file.length) ∧
  (tag = 0x419 → 32 ≤ size ∧ p + 32 ≤ file.length) ∧
  (tag = 0x41a → size = 16 ∧ p + 16 ≤ file.length) ∧
  (tag = 0x41f → size = 260 ∧ p + 256 ≤ file.length) ∧
  (tag = 0x41e → p + 76 ≤ file.length) ∧
  (tag = 0x431 → p + 140 ≤ file.length)

end Verif.Spec.IiqTab
