import Verif.Model.MakeDng
/-! # `dnglab ftpserver`: files that are converted while they are uploaded (bin/dnglab/dnglab-lib/src/ftpconv.rs, embedftp/src/client.rs)

Uploads are taken one after the other. The making of the DNG file is a parameter. -/

namespace Verif.FtpConv
open Verif Verif.Path Verif.Cli Verif.MakeDng

/-- Options of the server, and what stands for the converter: given the name of a file and its content it makes the DNG file, or fails after having written something. -/
structure Server where
  exts : List Name
  keepOrig : Bool
  keepMtime : Bool
  conv : Name → List Nat → Except (List Nat) (List Nat)

/-- What the world decides: whether the DNG file can be created, whether its last bytes reach it when it is closed, and what is in it if not; whether the plain file can
be written, and what is in it if not. -/
structure World where
  creates : Bool
  flushes : Bool
  part : List Nat
  writes : Bool
  piece : List Nat

/-- `is_ext_supported`, ftpconv.rs:101-105; only the letters `a` to `z` are changed here. -/
def supported (s : Server) (e : Name) : Bool := s.exts.any fun x => x = e.map Char.toUpper

/-- A file opened with `File::create`, with its content after that. -/
def store (fs : Fs) (p : Path) (c : List Nat) : Fs :=
  let o := openTrunc fs p
  o.2.write o.1 c

/-- The extension of a path. -/
def extOf (p : Path) : Option Name := (fileName p).bind ext

/-- `FtpState::stor_file`, ftpconv.rs:28-60: whether the file is dealt with, or an error, and the files afterwards. `Path::with_extension` leaves a path without a name
alone, but such a path has no extension. The buffered writer is emptied and its error seen only if the time is to be kept. -/
def storFile (s : Server) (w : World) (p : Path) (data : List Nat) (fs : Fs) : Option Bool × Fs :=
  match extOf p with
  | none => (some false, fs)
  | some e =>
    if supported s e = false then (some false, fs)
    else
      let out := (setExt p "dng".toList).getD p
      if w.creates = false then (none, fs)
      else match s.conv ((fileName p).getD []) data with
        | .error part => (none, store fs out part)
        | .ok full =>
          if w.flushes then (some (!s.keepOrig), store fs out full)
          else if s.keepMtime then (none, store fs out w.part)
          else (some (!s.keepOrig), store fs out w.part)

/-- `Client::put_file`, client.rs:657-664: whether the client is told that the file was stored, and the files afterwards. `p` is the path below the root of the server. -/
def putFile (s : Server) (w : World) (p : Path) (data : List Nat) (fs : Fs) : Bool × Fs :=
  match storFile s w p data fs with
  | (none, fs) => (false, fs)
  | (some true, fs) => (true, fs)
  | (some false, fs) => if w.writes then (true, store fs p data) else (false, store fs p w.piece)

/-- Several uploads, one after the other. -/
def session (s : Server) : List (Path × List Nat × World) → Fs → List Bool × Fs
  | [], fs => ([], fs)
  | (p, data, w) :: us, fs =>
    let r := putFile s w p data fs
    let rest := session s us r.2
    (r.1 :: rest.1, rest.2)

end Verif.FtpConv
