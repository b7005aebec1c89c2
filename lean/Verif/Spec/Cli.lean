import Verif.Model.CliPlan
/-! # What batches are meant to do, stated without the planner -/

namespace Verif.Cli
open Verif Verif.Path

/-- `names` leads, below a directory with these entries, to a regular file; through sub-directories only when `recursive`. -/
inductive FileAt (recursive : Bool) : List (Name × Node) → List Name → Prop
  | here {es n} : (n, .file) ∈ es → FileAt recursive es [n]
  | sub {es n sub rest} : recursive = true → (n, .dir sub) ∈ es → FileAt recursive sub rest → FileAt recursive es (n :: rest)

/-- No directory has two entries of one name. -/
inductive Tree : List (Name × Node) → Prop
  | nil : Tree []
  | file {n es} : (∀ e ∈ es, e.1 ≠ n) → Tree es → Tree ((n, .file) :: es)
  | other {n es} : (∀ e ∈ es, e.1 ≠ n) → Tree es → Tree ((n, .other) :: es)
  | dir {n sub es} : (∀ e ∈ es, e.1 ≠ n) → Tree sub → Tree es → Tree ((n, .dir sub) :: es)

/-- A file name that is one component of a path: not empty, no slash, not `.` or `..`. -/
def Plain (s : List Char) : Prop := s ≠ [] ∧ '/' ∉ s ∧ s ≠ ['.'] ∧ s ≠ ['.', '.']

/-- The file at `p` lies in the directory `d`, at any depth (names from the root). -/
def Below (d p : List Name) : Prop := ∃ rest, rest ≠ [] ∧ p = d ++ rest

end Verif.Cli
