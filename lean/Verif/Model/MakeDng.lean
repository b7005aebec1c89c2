import Verif.Model.CliJobs
import Verif.Model.Loader
/-! # `dnglab makedng`, bin/dnglab/dnglab-lib/src/makedng.rs

Reading of the inputs by the decoders and the bytes of the DNG file are a parameter (`make`). Numbers of matrices and white points are floating point and
have an abstract type here. -/

namespace Verif.MakeDng
open Verif Verif.Path Verif.Cli

/-! ## Which input is used for what -/

/-- `enum InputUsage`, makedng.rs:298-305. -/
inductive Usage where
  | raw | preview | thumbnail | exif | xmp
  deriving DecidableEq, Repr

/-- `InputUsage::from_str`, makedng.rs:307-320. -/
def parseUsage (s : List Char) : Option Usage :=
  if s = "raw".toList then some .raw
  else if s = "preview".toList then some .preview
  else if s = "thumbnail".toList then some .thumbnail
  else if s = "exif".toList then some .exif
  else if s = "xmp".toList then some .xmp
  else none

/-- `str::split` at a character. -/
def splitAt (x : Char) : List Char → List (List Char)
  | [] => [[]]
  | c :: cs =>
    if c = x then [] :: splitAt x cs
    else match splitAt x cs with
      | [] => [[c]]
      | n :: ns => (c :: n) :: ns

/-- `str::trim`. -/
def trim (s : List Char) : List Char := ((s.dropWhile Loader.isSpace).reverse.dropWhile Loader.isSpace).reverse

/-- The digits of `str::parse` for unsigned numbers. -/
def digits : Nat → List Char → Option Nat
  | n, [] => some n
  | n, c :: cs => if '0' ≤ c ∧ c ≤ '9' then digits (10 * n + (c.toNat - '0'.toNat)) cs else none

/-- Without a plus sign at the beginning. -/
def dropPlus (s : List Char) : List Char :=
  match s with
  | [] => []
  | c :: l => if c = '+' then l else c :: l

/-- `str::parse` for unsigned numbers below `bound`: digits, with a `+` before them if one likes. -/
def parseNum (bound : Nat) (s : List Char) : Option Nat :=
  if dropPlus s = [] then none
  else match digits 0 (dropPlus s) with
    | some n => if n < bound then some n else none
    | none => none

/-- `InputSourceUsageMap::from_str`, makedng.rs:328-341. -/
def parseMap (s : List Char) : Option (Nat × Usage) :=
  match (splitAt ':' s).map trim with
  | [a, b] =>
    match parseNum (2 ^ 64) a, parseUsage b with
    | some n, some u => some (n, u)
    | _, _ => none
  | _ => none

/-- A table of numbers given on the command line, makedng.rs:452. -/
def parseTable (s : List Char) : Option (List Nat) := ((splitAt ',' s).map trim).mapM (parseNum 65536)

/-- `get_input_path`, makedng.rs:31-37. -/
def getInput (inputs : List Path) (maps : List (Nat × Usage)) (u : Usage) : Option Path :=
  match maps.find? fun m => m.2 = u with
  | some m => inputs[m.1]?
  | none => none

/-! ## The file -/

/-- The command. -/
structure Cmd where
  output : Path
  inputs : List Path
  maps : List (Nat × Usage)
  replace : Bool

/-- What the world decides: whether the file can be created, whether the last bytes reach it when it is closed, and what is in it if not, and whether it can
be removed. -/
structure World where
  creates : Bool
  flushes : Bool
  part : List Nat
  unlinks : Bool

/-- `File::create`: makes the file or empties the one that is there. -/
def openTrunc (fs : Fs) (p : Path) : Nat × Fs :=
  match fs.dir p with
  | some i => (i, fs.write i [])
  | none => (fs.next, fs.create p)

/-- The number of the last input used, makedng.rs:64. -/
def maxSource (maps : List (Nat × Usage)) : Nat := (maps.map (·.1)).foldl max 0

/-- The inputs of all usages that have one, makedng.rs:107-228: `none` if one of the files isn't there. -/
def inputsThere (fs : Fs) (c : Cmd) : Bool :=
  [Usage.raw, .preview, .thumbnail, .exif, .xmp].all fun u =>
    match getInput c.inputs c.maps u with
    | some p => (fs.content p).isSome
    | none => true

/-- `makedng_internal`, makedng.rs:56-275. `make` stands for decoders and DNG writer: given what the inputs contain, the whole DNG file, or an error with the
bytes written before it. The inputs are read after the output was opened; here all at once. The buffered writer is dropped at the end, its errors are lost. -/
def body (c : Cmd) (w : World) (make : (Usage → Option (List Nat)) → Except (List Nat) (List Nat)) (fs : Fs) : Bool × Fs :=
  if maxSource c.maps ≥ c.inputs.length then (false, fs)
  else if fs.dir c.output ≠ none ∧ c.replace = false then (false, fs)
  else if w.creates = false then (false, fs)
  else
    let o := openTrunc fs c.output
    if inputsThere o.2 c = false then (false, o.2)
    else match make fun u => (getInput c.inputs c.maps u).bind o.2.content with
      | .error part => (false, o.2.write o.1 part)
      | .ok full => (true, o.2.write o.1 (if w.flushes then full else w.part))

/-- `makedng`, makedng.rs:39-53: after any error the output is removed. -/
def run (c : Cmd) (w : World) (make : (Usage → Option (List Nat)) → Except (List Nat) (List Nat)) (fs : Fs) : Bool × Fs :=
  match body c w make fs with
  | (true, fs) => (true, fs)
  | (false, fs) => (false, if w.unlinks then fs.unlink c.output else fs)

/-! ## Tags of the main directory -/

/-- The tags that the command line, the raw file and the metadata compete for. -/
inductive Tag where
  | artist | make | model | uniqueModel | colorRef | neutral | whiteXY | matrix1 | illu1 | matrix2 | illu2 | matrix3 | illu3 | xpacket | orientation | copyright
  deriving DecidableEq, Repr

/-- Options of the command line. -/
structure Opts (V : Type) where
  artist : Option V := none
  make : Option V := none
  model : Option V := none
  uniqueModel : Option V := none
  colorRef : Option V := none
  matrix1 : Option V := none
  illu1 : Option V := none
  matrix2 : Option V := none
  illu2 : Option V := none
  matrix3 : Option V := none
  illu3 : Option V := none
  neutral : Option V := none
  whiteXY : Option V := none
  version16 : Bool := false

/-- What the raw image brings, writer.rs:154-175: white balance, matrices with their illuminants. -/
structure RawTags (V : Type) where
  neutral : Option V := none
  first : Option (V × V) := none
  second : Option (V × V) := none

/-- What metadata of a raw file bring, tiff/writer.rs:338-346. -/
structure MetaTags (V : Type) where
  artist : Option V := none
  orientation : Option V := none
  copyright : Option V := none

inductive Op (V : Type) where
  | add (t : Tag) (v : V)
  | remove (t : Tag)

variable {V : Type}

/-- `add_tag` if there is a value. -/
def addOpt (t : Tag) (v : Option V) : List (Op V) := match v with | some v => [.add t v] | none => []

/-- A matrix given by the user, makedng.rs:230-254: its illuminant must be given too. -/
def matrixOps (tm ti : Tag) (m i : Option V) : Option (List (Op V)) :=
  match m with
  | none => some []
  | some m => match i with
    | some i => some [.add tm m, .add ti i]
    | none => none

/-- `add_tag` and `remove_tag` for the main directory in the order of makedng.rs:87-264. -/
def rootOps (o : Opts V) (raw : RawTags V) (md : MetaTags V) (xp : Option V) : Option (List (Op V)) := do
  let start := addOpt .artist o.artist ++ addOpt .make o.make ++ addOpt .model o.model ++ addOpt .uniqueModel o.uniqueModel ++ addOpt .colorRef o.colorRef
  let pic := addOpt .neutral raw.neutral ++
    (match raw.first with
      | some (m, i) => [.add .illu1 i, .add .matrix1 m] ++ (match raw.second with | some (m, i) => [.add .illu2 i, .add .matrix2 m] | none => [])
      | none => [])
  let data := addOpt .orientation md.orientation ++ addOpt .copyright md.copyright ++ addOpt .artist md.artist ++ addOpt .xpacket xp
  let m1 ← matrixOps .matrix1 .illu1 o.matrix1 o.illu1
  let m2 ← matrixOps .matrix2 .illu2 o.matrix2 o.illu2
  let m3 ← (if o.version16 then matrixOps .matrix3 .illu3 o.matrix3 o.illu3 else some [])
  let wb := (match o.neutral with | some v => [.add .neutral v, .remove .whiteXY] | none => []) ++
    (match o.whiteXY with | some v => [.add .whiteXY v, .remove .neutral] | none => [])
  some (start ++ pic ++ data ++ m1 ++ m2 ++ m3 ++ wb)

/-- `DirectoryWriter::add_tag` and `remove_tag`, tiff/writer.rs:149-164. -/
def applyOp (f : Tag → Option V) : Op V → Tag → Option V
  | .add t v => fun x => if x = t then some v else f x
  | .remove t => fun x => if x = t then none else f x

/-- The main directory at the end. -/
def rootTags (o : Opts V) (raw : RawTags V) (md : MetaTags V) (xp : Option V) : Option (Tag → Option V) :=
  (rootOps o raw md xp).map fun l => l.foldl applyOp fun _ => none

end Verif.MakeDng
