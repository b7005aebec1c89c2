import Verif.Spec.Small
/-! # Foveon X3F files -/

namespace Verif.Spec.X3f
open Verif.Spec.Small (num32)

/-- The place of the directory is the number in the last four bytes of a file. -/
def place (file : List Nat) : Nat := num32 file (file.length - 4)

/-- The number of entries -/
def count (file : List Nat) : Nat := num32 file (place file + 8)

/-- The place of an entry: 12 bytes each, after 12 bytes of header -/
def dirEntry (file : List Nat) (i : Nat) : Nat := place file + 12 + 12 * i

/-- Where the section of an entry begins -/
def section' (file : List Nat) (i : Nat) : Nat := num32 file (dirEntry file i)

/-- The four letters of an entry -/
def name (file : List Nat) (i : Nat) : List Nat := (file.drop (dirEntry file i + 8)).take 4

/-- An entry for an image is named `IMA2`. -/
def isImage (file : List Nat) (i : Nat) : Bool := name file i == [0x49, 0x4d, 0x41, 0x32]

/-- The directory is complete: it is in the file with all entries, and so is the header of each image. -/
structure Complete (file : List Nat) : Prop where
  size : 4 ≤ file.length
  inside : place file + 12 + 12 * count file ≤ file.length
  images : ∀ i, i < count file → isImage file i = true → section' file i + 28 ≤ file.length

end Verif.Spec.X3f
