import Verif.Model.MakeDng
/-! # What the command line of `makedng` means (C81) -/

namespace Verif.Spec.MakeDng
open Verif Verif.Path Verif.Cli Verif.MakeDng

/-- Only spaces. -/
def Blank (s : List Char) : Prop := ∀ c ∈ s, Loader.isSpace c = true

/-- Decimal digits, at least one. -/
def Digits (s : List Char) : Prop := s ≠ [] ∧ ∀ c ∈ s, '0' ≤ c ∧ c ≤ '9'

/-- The number written in decimal digits. -/
def value (s : List Char) : Nat := s.foldl (fun n c => 10 * n + (c.toNat - 48)) 0

/-- `s` is a number: digits with spaces around them, perhaps with a plus sign. -/
def Numeral (s : List Char) (n : Nat) : Prop :=
  ∃ a sign d b, s = a ++ sign ++ d ++ b ∧ Blank a ∧ Blank b ∧ (sign = [] ∨ sign = ['+']) ∧ Digits d ∧ value d = n

/-- The name of a usage. -/
def name : Usage → List Char
  | .raw => "raw".toList
  | .preview => "preview".toList
  | .thumbnail => "thumbnail".toList
  | .exif => "exif".toList
  | .xmp => "xmp".toList

/-- `s` is the name of a usage with spaces around it. -/
def Named (s : List Char) (u : Usage) : Prop := ∃ a b, s = a ++ name u ++ b ∧ Blank a ∧ Blank b

/-- The first of the maps for a usage says which input it is. -/
def Source (inputs : List Path) (maps : List (Nat × Usage)) (u : Usage) (p : Path) : Prop :=
  ∃ before n after, maps = before ++ (n, u) :: after ∧ (∀ m ∈ before, m.2 ≠ u) ∧ inputs[n]? = some p

/-- What the inputs contain for every usage. -/
def Parts (fs : Fs) (inputs : List Path) (maps : List (Nat × Usage)) (parts : Usage → Option (List Nat)) : Prop :=
  ∀ u, (∀ p, Source inputs maps u p → parts u = fs.content p) ∧ ((∀ p, ¬ Source inputs maps u p) → parts u = none)

/-- Every path of the directory leads to a file that is already numbered. -/
def Fresh (fs : Fs) : Prop := ∀ p i, fs.dir p = some i → i < fs.next

/-- Two paths lead to the same file. -/
def SameFile (fs : Fs) (p q : Path) : Prop := p = q ∨ ∃ i, fs.dir p = some i ∧ fs.dir q = some i

end Verif.Spec.MakeDng
