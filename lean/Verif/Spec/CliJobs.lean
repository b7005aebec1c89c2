import Verif.Model.CliJobs
/-! # What a run of jobs is measured by -/

namespace Verif.Cli
open Verif Verif.Path

/-- A file system in which every file has one name (no hard links). -/
def FsOk (fs : Fs) : Prop := (∀ p i, fs.dir p = some i → i < fs.next) ∧ ∀ p q i, fs.dir p = some i → fs.dir q = some i → p = q

/-- The file at `p` is the same as before, with the same content - or there is still none. -/
def Same (fs fs' : Fs) (p : Path) : Prop := fs'.dir p = fs.dir p ∧ fs'.content p = fs.content p

/-- All outputs are different (C32). -/
def Distinct (ws : List Work) : Prop := ∀ (n m : Nat) (w v : Work), ws[n]? = some w → ws[m]? = some v → w.output = v.output → n = m

/-- No output of the run is one of its inputs. -/
def Apart (ws : List Work) : Prop := ∀ w ∈ ws, ∀ v ∈ ws, w.input ≠ v.output

/-- Only jobs of this run act. -/
def JobsOnly (es : List Event) : Prop := ∀ e ∈ es, ∃ n c, e = .job n c

/-- The failures after which the output is not removed: of the lock, of the final flush, of setting the time stamp, of the removal itself, and panics. -/
def Unclean (pc : Pc) (c : Choice) : Prop :=
  match pc with
  | .locking _ | .flushing _ _ | .mtime _ | .cleanup _ => c = .fail
  | .writing _ _ => c = .panic
  | _ => False

instance (pc : Pc) (c : Choice) : Decidable (Unclean pc c) := by
  unfold Unclean
  split <;> infer_instance

/-- No job of the run meets such a failure. -/
def Clean (ws : List Work) : Sys → List Event → Prop
  | _, [] => True
  | s, e :: es => (match e with
      | .job n c => ¬ Unclean (s.pc n) c
      | .env _ => True) ∧ Clean ws (sysStep ws s e) es

instance decClean (ws : List Work) : ∀ (s : Sys) (es : List Event), Decidable (Clean ws s es)
  | _, [] => .isTrue trivial
  | s, .job n c :: es =>
    have := decClean ws (sysStep ws s (.job n c)) es
    inferInstanceAs (Decidable (¬ Unclean (s.pc n) c ∧ _))
  | s, .env op :: es =>
    have := decClean ws (sysStep ws s (.env op)) es
    inferInstanceAs (Decidable (True ∧ _))

/-- The file a job has created or opened and not yet finished with -/
def holds : Pc → Option Nat
  | .locking i | .reading i | .writing i _ | .flushing i _ | .mtime i | .cleanup i => some i
  | _ => none

/-- `p` is a file that a job of the run is working on. -/
def InWork (s : Sys) (p : Path) : Prop := ∃ n i, holds (s.pc n) = some i ∧ s.fs.dir p = some i

/-- Other processes may create, write, remove and rename files as they like, also at the outputs, but leave the directory entries of files alone that a
job is working on. -/
def Polite (ws : List Work) : Sys → List Event → Prop
  | _, [] => True
  | s, e :: es => (match e with
      | .env (.unlink p) => ¬ InWork s p
      | .env (.rename p q) => ¬ InWork s p ∧ ¬ InWork s q
      | _ => True) ∧ Polite ws (sysStep ws s e) es

end Verif.Cli
