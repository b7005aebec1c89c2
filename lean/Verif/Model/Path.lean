import Verif.Base
/-! # Paths of the Rust standard library (`std::path`, Unix)

Not code of the repository: the part of `Path`/`PathBuf` that `bin/dnglab` relies on. A path is its list of components, which is what `PathBuf` comparison
looks at; names are lists of characters. -/

namespace Verif.Path
open Verif

abbrev Name := List Char

/-- `std::path::Component` -/
inductive Comp where
  | root
  | cur
  | parent
  | normal (n : Name)
  deriving DecidableEq, Repr

abbrev Path := List Comp

/-- Split at `/` -/
def splitSlash : List Char → List Name
  | [] => [[]]
  | c :: cs =>
    if c = '/' then [] :: splitSlash cs
    else match splitSlash cs with
      | [] => [[c]]
      | n :: ns => (c :: n) :: ns

/-- One name of a path string; empty names and `.` vanish. -/
def compOf (n : Name) : Option Comp := if n = [] ∨ n = ['.'] then none else if n = ['.', '.'] then some .parent else some (.normal n)

/-- `Path::components`: a leading `/` is the root, a leading `.` stays. -/
def parse (s : List Char) : Path :=
  let rest := (splitSlash s).filterMap compOf
  match s with
  | '/' :: _ => .root :: rest
  | ['.'] => [.cur]
  | '.' :: '/' :: _ => .cur :: rest
  | _ => rest

/-- `Path::is_absolute` -/
def isAbs (p : Path) : Bool := p.head? == some .root

/-- `PathBuf::push`: an absolute path replaces what was there. -/
def push (p q : Path) : Path := if isAbs q then q else if p = [] then q else p ++ q.filter (· ≠ .cur)

/-- `Path::file_name` -/
def fileName (p : Path) : Option Name :=
  match p.getLast? with
  | some (.normal n) => some n
  | _ => none

/-- `Path::with_file_name`, `PathBuf::set_file_name` -/
def withFileName (p q : Path) : Path := push (if (fileName p).isSome then p.dropLast else p) q

/-- `rsplit_file_at_dot`: the parts before and after the last dot; none if there is no dot or only a leading one. -/
def splitDot (n : Name) : Option (Name × Name) :=
  match n.reverse.dropWhile (· ≠ '.') with
  | [] => none
  | _ :: b => if b = [] then none else some (b.reverse, (n.reverse.takeWhile (· ≠ '.')).reverse)

/-- `Path::file_stem` of a name -/
def stem (n : Name) : Name := match splitDot n with
  | none => n
  | some (b, _) => b

/-- `Path::extension` of a name -/
def ext (n : Name) : Option Name := (splitDot n).map (·.2)

/-- `PathBuf::set_extension` with a non-empty extension; `none`: there is no file name (returns `false`). -/
def setExt (p : Path) (e : Name) : Option Path := (fileName p).map fun n => p.dropLast ++ [.normal (stem n ++ '.' :: e)]

/-- `OsStr::eq_ignore_ascii_case` -/
def eqIgnoreCase (a b : Name) : Bool := a.map Char.toLower == b.map Char.toLower

/-- `Path::strip_prefix` -/
def stripPrefix (base p : Path) : Option Path := if base.isPrefixOf p then some (p.drop base.length) else none

/-- The file a path names, if there are no symbolic links: names from the root; `..` at the root stays there. Relative paths are taken from `cwd`. -/
def resolve (cwd : List Name) (p : Path) : List Name :=
  p.foldl (fun acc c => match c with
    | .root => []
    | .cur => acc
    | .parent => acc.dropLast
    | .normal n => acc ++ [n]) cwd

end Verif.Path
