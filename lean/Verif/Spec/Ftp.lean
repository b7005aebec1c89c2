import Verif.Model.Ftp
/-! # What an FTP server is measured by (RFC 959), independent of its implementation -/

namespace Verif.Ftp
open Verif Verif.Path

/-- A text without the end-of-line sequence -/
def NoCrlf (m : List Nat) : Prop := ∀ x y, m ≠ x ++ 13 :: 10 :: y

/-- A client reads one line: everything up to the first CRLF. -/
def takeLine : List Nat → Option (List Nat × List Nat)
  | [] => none
  | [_] => none
  | a :: b :: r => if a = 13 ∧ b = 10 then some ([], r) else (takeLine (b :: r)).map fun x => (a :: x.1, x.2)

def digit? (b : Nat) : Option Nat := if 48 ≤ b ∧ b ≤ 57 then some (b - 48) else none

/-- The reply code at the start of a line -/
def lineCode : List Nat → Option (Nat × List Nat)
  | a :: b :: c :: r => do
    let x ← digit? a
    let y ← digit? b
    let z ← digit? c
    some (x * 100 + y * 10 + z, r)
  | _ => none

/-- RFC 959, 4.2: a multi-line reply ends with the first line that starts with the same code and a space. -/
def skipBody (code : Nat) : Nat → List Nat → Option (List Nat)
  | 0, _ => none
  | fuel + 1, s => do
    let (l, rest) ← takeLine s
    match lineCode l with
    | some (c, 32 :: _) => if c = code then some rest else skipBody code fuel rest
    | _ => skipBody code fuel rest

/-- RFC 959, 4.2: a client reads one reply: its code and what follows in the stream. -/
def parseReply (s : List Nat) : Option (Nat × List Nat) := do
  let (l, rest) ← takeLine s
  let (code, more) ← lineCode l
  match more with
  | 45 :: _ => (skipBody code s.length rest).map fun r => (code, r)
  | 32 :: _ => some (code, rest)
  | [] => some (code, rest)
  | _ => none

/-- The commands of a list of lines, up to the first line that is no command; and whether there is one -/
def commands : List (List Nat) → List Cmd × Bool
  | [] => ([], false)
  | l :: ls => match parseCmd l with
    | .error _ => ([], true)
    | .ok c => (c :: (commands ls).1, (commands ls).2)

/-- All replies in a stream that are complete: their codes, and what is left -/
def parseReplies : Nat → List Nat → List Nat × List Nat
  | 0, s => ([], s)
  | fuel + 1, s => match parseReply s with
    | none => ([], s)
    | some (c, rest) => (c :: (parseReplies fuel rest).1, (parseReplies fuel rest).2)

/-- The texts in a command -/
def Cmd.texts : Cmd → List (List Nat)
  | .cwd p | .mkd p | .pass p | .retr p | .rmd p | .dele p | .stor p | .unknown p | .user p => [p]
  | .list p | .nlst p | .epsv p => p.toList
  | _ => []

/-- Names without end-of-line sequence -/
def PathOk (p : Path) : Prop := ∀ n, Comp.normal n ∈ p → NoCrlf (n.map Char.toNat)

/-- A path as `canonicalize` returns it: the root and plain names -/
def Canonical (p : Path) : Prop := ∃ ns : List Name, p = .root :: ns.map .normal

/-- `p` is `root` followed by plain names: `root` itself or something in it. -/
def Inside (root p : Path) : Prop := ∃ ns : List Name, p = root ++ ns.map .normal

/-- The system returns canonical paths. -/
def Sane (w : World) : Prop := ∀ p q, w.canon p = some q → Canonical q

/-- The path an operation works on -/
def Op.path : Op → Path
  | .readDir p | .stat p | .glob p | .readFile p | .mkDir p | .rmDir p | .rmFile p | .write p => p
  | .report _ real => real

/-- A name that `USER` accepts (without anonymous access) -/
def Known (cfg : Config) (u : List Nat) : Prop := u ≠ [] ∧ ∃ x ∈ cfg.users, x.name = u

/-- The commands sent so far are a login as `u`: the last accepted `USER` was `u`, and it was followed by a `PASS` with a password configured for `u` - or a
user `u` is configured without password. -/
def LoginAs (cfg : Config) (h : List Cmd) (u : List Nat) : Prop :=
  ∃ pre post, h = pre ++ .user u :: post ∧ Known cfg u ∧ (∀ v, .user v ∈ post → ¬ Known cfg v) ∧
    ((∃ x ∈ cfg.users, x.name = u ∧ x.password = []) ∨ ∃ pw, .pass pw ∈ post ∧ ∃ x ∈ cfg.users, x.name = u ∧ x.password = pw)

end Verif.Ftp
