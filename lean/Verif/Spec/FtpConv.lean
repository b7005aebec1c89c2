import Verif.Model.FtpConv
import Verif.Spec.MakeDng
/-! # What becomes of an uploaded file (C82) -/

namespace Verif.Spec.FtpConv
open Verif Verif.Path Verif.Cli Verif.FtpConv

/-- The file `dir/stem.ext` is a raw file: the extension is one of those known, in large or small letters. -/
structure IsRaw (s : Server) (p : Path) (dir : Path) (stem e : Name) : Prop where
  path : p = dir ++ [.normal (stem ++ '.' :: e)]
  dot : '.' ∉ e
  name : stem ≠ []
  known : e.map Char.toUpper ∈ s.exts

/-- A file that is no raw file. -/
def Plain (s : Server) (p : Path) : Prop := ∀ dir stem e, ¬ IsRaw s p dir stem e

/-- The DNG file of a raw file. -/
def dngOf (dir : Path) (stem : Name) : Path := dir ++ [.normal (stem ++ ".dng".toList)]

/-- No file has two names. -/
def Single (fs : Fs) : Prop := ∀ p q i, fs.dir p = some i → fs.dir q = some i → p = q

/-- A file system in order. -/
def Tidy (fs : Fs) : Prop := Single fs ∧ Spec.MakeDng.Fresh fs

/-- `q` is one of the files an upload of `p` makes. -/
def Target (s : Server) (p q : Path) : Prop :=
  (Plain s p ∧ q = p) ∨ ∃ dir stem e, IsRaw s p dir stem e ∧ (q = dngOf dir stem ∨ (s.keepOrig = true ∧ q = p))

/-- What an upload of `data` to `p` should leave behind. -/
def Kept (s : Server) (p : Path) (data : List Nat) (fs : Fs) : Prop :=
  (Plain s p → fs.content p = some data) ∧
  ∀ dir stem e, IsRaw s p dir stem e →
    (s.keepOrig = true → fs.content p = some data) ∧
    (s.keepOrig = false ∨ p ≠ dngOf dir stem → ∃ full, s.conv (stem ++ '.' :: e) data = .ok full ∧ fs.content (dngOf dir stem) = some full)

end Verif.Spec.FtpConv
