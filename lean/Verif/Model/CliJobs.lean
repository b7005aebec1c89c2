import Verif.Model.Path
/-! # The jobs of `dnglab` on a shared file system (bin/dnglab/dnglab-lib/src/jobs)

A file system maps paths to files (inodes) and files to contents. Every job is a little machine whose steps are the system calls of `internal_exec`, in
the order of the code; a schedule is any list of events, each of which lets one job do its next step or lets another process do something. What the
world decides - whether a call fails, what has reached the file so far - is part of the event. Paths are those after resolving links; contents are lists
of bytes. -/

namespace Verif.Cli
open Verif Verif.Path

/-- A file system. `next`: the next unused file. -/
structure Fs where
  dir : Path → Option Nat
  data : Nat → List Nat
  next : Nat

namespace Fs

def setDir (fs : Fs) (p : Path) (v : Option Nat) : Fs := { fs with dir := fun q => if q = p then v else fs.dir q }

/-- `unlink` -/
def unlink (fs : Fs) (p : Path) : Fs := fs.setDir p none

/-- A new empty file at `p` -/
def create (fs : Fs) (p : Path) : Fs :=
  { dir := fun q => if q = p then some fs.next else fs.dir q, data := fun i => if i = fs.next then [] else fs.data i, next := fs.next + 1 }

/-- Replace the content of a file, through a handle -/
def write (fs : Fs) (i : Nat) (c : List Nat) : Fs := { fs with data := fun k => if k = i then c else fs.data k }

/-- The content of the file at a path -/
def content (fs : Fs) (p : Path) : Option (List Nat) := (fs.dir p).map fs.data

end Fs

/-- `Raw2DngJob` (jobs/raw2dng.rs:23-30) or `Raw2Image` (jobs/process_raw.rs:25-31) -/
inductive Kind where
  | dng
  | tif
  deriving DecidableEq, Repr

/-- A job. `conv` stands for `convert_raw_file` / `process_raw_image`: the complete output for a given input file, or an error. -/
structure Work where
  kind : Kind
  input : Path
  output : Path
  replace : Bool
  conv : List Nat → Option (List Nat)

/-- Where a job is. The number is the file it holds open. -/
inductive Pc where
  | start
  | removing
  | creating
  | locking (i : Nat)
  | reading (i : Nat)
  | writing (i : Nat) (res : Option (List Nat))
  | flushing (i : Nat) (full : List Nat)
  | mtime (i : Nat)
  | cleanup (i : Nat)
  | done (ok : Bool)
  deriving DecidableEq, Repr

/-- What the world decides in a step: the call works, the call fails, some bytes reach the file (so that its content is now `c`), or the decoder panics. -/
inductive Choice where
  | ok
  | fail
  | put (c : List Nat)
  | panic
  deriving DecidableEq, Repr

/-- `Raw2DngJob::internal_exec`, jobs/raw2dng.rs:70-138, one step; the last component says that the process was aborted.

`start`: 80; `removing`: 81; `creating`: 88-94; `locking`: 95-97; `reading` and `writing`: 98-100 (`convert_raw_file` with the buffered writer; the input is
read at one moment); `flushing`: 102; `mtime`: 103-110; `cleanup`: 131-134. A panic inside the conversion happens in a closure given to `rayon::spawn`
(160-162), which aborts the process, because no panic handler is installed. -/
def dngStep (w : Work) (c : Choice) (pc : Pc) (fs : Fs) : Pc × Fs × Bool :=
  match pc with
  | .start => if w.replace ∧ fs.dir w.output ≠ none then (.removing, fs, false) else (.creating, fs, false)
  | .removing => if c = .fail ∨ fs.dir w.output = none then (.done false, fs, false) else (.creating, fs.unlink w.output, false)
  | .creating => if c = .fail ∨ fs.dir w.output ≠ none then (.done false, fs, false) else (.locking fs.next, fs.create w.output, false)
  | .locking i => if c = .fail then (.done false, fs, false) else (.reading i, fs, false)
  | .reading i => match fs.content w.input with
    | none => (.cleanup i, fs, false)
    | some b => if c = .fail then (.cleanup i, fs, false) else (.writing i (w.conv b), fs, false)
  | .writing i res => match c with
    | .put d => (.writing i res, fs.write i d, false)
    | .panic => (.writing i res, fs, true)
    | .fail => (.cleanup i, fs, false)
    | .ok => match res with
      | none => (.cleanup i, fs, false)
      | some full => (.flushing i full, fs, false)
  | .flushing i full => if c = .fail then (.done false, fs, false) else (.mtime i, fs.write i full, false)
  | .mtime _ => if c = .fail then (.done false, fs, false) else (.done true, fs, false)
  | .cleanup _ => if c = .fail then (.done false, fs, false) else (.done false, fs.unlink w.output, false)
  | .done b => (.done b, fs, false)

/-- `Raw2Image::internal_exec`, jobs/process_raw.rs:71-123, one step.

`start`: 72-74; `creating`: 84 (`File::create` empties an existing file); then as above: 86, 88-90, 91-95, 116-119. A panic ends the job with an error
(`spawn_blocking`, 134 and 146-150) and leaves everything else as it is. -/
def tifStep (w : Work) (c : Choice) (pc : Pc) (fs : Fs) : Pc × Fs × Bool :=
  match pc with
  | .start => if fs.dir w.output ≠ none ∧ ¬ w.replace then (.done false, fs, false) else (.creating, fs, false)
  | .removing => (.removing, fs, false)
  | .creating =>
    if c = .fail then (.done false, fs, false)
    else match fs.dir w.output with
      | some i => (.reading i, fs.write i [], false)
      | none => (.reading fs.next, fs.create w.output, false)
  | .locking i => (.locking i, fs, false)
  | .writing i res => if c = .panic then (.done false, fs, false) else dngStep w c (.writing i res) fs
  | pc => dngStep w c pc fs

def jobStep (w : Work) (c : Choice) (pc : Pc) (fs : Fs) : Pc × Fs × Bool :=
  match w.kind with
  | .dng => dngStep w c pc fs
  | .tif => tifStep w c pc fs

/-- What other processes may do. -/
inductive EnvOp where
  | create (p : Path)
  | put (p : Path) (c : List Nat)
  | unlink (p : Path)
  | rename (p q : Path)

def envStep (fs : Fs) : EnvOp → Fs
  | .create p => if fs.dir p = none then fs.create p else fs
  | .put p c => match fs.dir p with
    | none => fs
    | some i => fs.write i c
  | .unlink p => fs.unlink p
  | .rename p q => match fs.dir p with
    | none => fs
    | some i => (fs.setDir p none).setDir q (some i)

inductive Event where
  | job (n : Nat) (c : Choice)
  | env (op : EnvOp)

/-- A run: the file system, where every job is, and whether the process was aborted. -/
structure Sys where
  fs : Fs
  pc : Nat → Pc
  aborted : Bool

/-- One event. The jobs of a batch run concurrently (convert.rs:66-78, process_raw.rs:60-72); an order imposed by the chunks only removes schedules. -/
def sysStep (ws : List Work) (s : Sys) (e : Event) : Sys :=
  match e with
  | .env op => { s with fs := envStep s.fs op }
  | .job n c =>
    match ws[n]? with
    | none => s
    | some w =>
      if s.aborted then s
      else
        let r := jobStep w c (s.pc n) s.fs
        { fs := r.2.1, pc := fun m => if m = n then r.1 else s.pc m, aborted := r.2.2 }

def initSys (fs : Fs) : Sys := { fs := fs, pc := fun _ => .start, aborted := false }

def runSys (ws : List Work) (s : Sys) (es : List Event) : Sys := es.foldl (sysStep ws) s

end Verif.Cli
