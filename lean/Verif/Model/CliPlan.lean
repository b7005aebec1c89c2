import Verif.Model.Path
/-! # Planning of batches in `dnglab` (bin/dnglab/dnglab-lib/src): which input is written to which output -/

namespace Verif.Cli
open Verif Verif.Path

/-! ## Directory mapping, filemap.rs -/

/-- A directory tree: regular files, directories and other things (sockets, devices). Links are followed by `metadata`, so they appear as what they
point to; a directory reachable from itself by links is not modelled. -/
inductive Node where
  | file
  | dir (entries : List (Name × Node))
  | other

/-- `read_filtered_dir`, filemap.rs:111-134, below the directory at path `base` -/
def readFiltered (recursive : Bool) (filter : Path → Bool) (base : Path) : List (Name × Node) → List Path
  | [] => []
  | (n, .file) :: es =>
    let rest := readFiltered recursive filter base es
    if filter (base ++ [.normal n]) then (base ++ [.normal n]) :: rest else rest
  | (n, .dir sub) :: es =>
    let rest := readFiltered recursive filter base es
    if recursive then readFiltered recursive filter (base ++ [.normal n]) sub ++ rest else rest
  | (_, .other) :: es => readFiltered recursive filter base es

/-- `FileMap`, filemap.rs:14-17 -/
structure FileMap where
  src : Path
  dest : Path
  deriving DecidableEq, Repr

/-- `DirMap::make_mapping`, filemap.rs:70-79 -/
def makeMapping (src dest input : Path) : R FileMap :=
  match stripPrefix src input with
  | none => fail'
  | some sub => .ok { src := input, dest := push dest sub }

/-- `DirMap::file_list`, filemap.rs:56-67 -/
def fileList (src dest : Path) (entries : List (Name × Node)) (recursive : Bool) (filter : Path → Bool) : R (List FileMap) :=
  (readFiltered recursive filter src entries).mapM (makeMapping src dest)

/-! ## `dnglab convert`, convert.rs -/

/-- Decimal digits of a number (`{}`) -/
def dec (n : Nat) : List Char :=
  if n < 10 then [Char.ofNat (48 + n)] else dec (n / 10) ++ [Char.ofNat (48 + n % 10)]

/-- `{:04}` -/
def pad4 (n : Nat) : List Char := List.replicate (4 - (dec n).length) '0' ++ dec n

/-- One source file of a run: its paths, whether the destination is an existing directory, and what `raw_image_count_file` returns -/
structure Source where
  map : FileMap
  destIsDir : Bool
  count : R Nat

/-- `Raw2DngJob`, as far as planned here -/
structure Job where
  input : Path
  output : Path
  index : Nat
  deriving DecidableEq, Repr

/-- `resolve_frame`, convert.rs:152-165: the file name for suffix `k` and frame `i` -/
def frameName (base : Name) (multi : Bool) (k i : Nat) : Name :=
  (if multi then
    if k = 0 then base ++ '_' :: pad4 i else base ++ '_' :: dec k ++ '_' :: pad4 i
  else if k = 0 then base else base ++ '_' :: dec k) ++ ".dng".toList

/-- The candidates for suffix `k`, convert.rs:178 -/
def candidates (output : Path) (base : Name) (multi : Bool) (count k : Nat) : List Path :=
  (List.range count).map fun i => withFileName output [.normal (frameName base multi k i)]

/-- The suffix loop, convert.rs:176-183. `fuel` bounds the rounds; `none`: not found within them. -/
def findSuffix (output : Path) (base : Name) (multi : Bool) (count : Nat) (claimed : List Path) : Nat → Nat → Option (List Path)
  | 0, _ => none
  | fuel + 1, k =>
    let c := candidates output base multi count k
    if c.any fun p => claimed.contains p then findSuffix output base multi count claimed fuel (k + 1) else some c

/-- The destination; for a directory the file name of the source is appended: convert.rs:120-126, process_raw.rs:127-133 -/
def destFile (s : Source) : R Path :=
  if s.destIsDir then
    match fileName s.map.src with
    | none => fail'
    | some n => .ok (push s.map.dest [.normal n])
  else .ok s.map.dest

/-- `batch_count`, convert.rs:116, process_raw.rs:110 -/
def batchCount (batch : Bool) (s : Source) : R Nat := if batch then s.count else .ok 1

/-- The output path with the `dng` extension, convert.rs:120-135 -/
def dngOutput (s : Source) : R Path := do
  let output ← destFile s
  let hasDng := match (fileName output).bind ext with
    | some e => eqIgnoreCase e "dng".toList
    | none => false
  if hasDng then .ok output
  else match setExt output "dng".toList with
    | none => fail'
    | some p => .ok p

/-- `generate_job`, convert.rs:104-232, up to the outputs. `batch`: `--index all`. The loop stops within `claimed.length + 2` rounds (theorem
`C32_terminates`), so that is the fuel. -/
def generateJob (batch : Bool) (index : Nat) (s : Source) (claimed : List Path) : R (List Job × List Path) := do
  let count ← batchCount batch s
  let output ← dngOutput s
  match fileName output with
  | none => fail'
  | some n =>
    match findSuffix output (stem n) (batch && decide (1 < count)) count claimed (claimed.length + 2) 0 with
    | none => panic'
    | some outs =>
      if outs = [] then panic'
      else .ok (outs.mapIdx fun i p => { input := s.map.src, output := p, index := if batch then i else index }, outs ++ claimed)

/-- The planning part of `convert`, convert.rs:35-60 -/
def planConvert (batch : Bool) (index : Nat) : List Source → List Path → R (List Job)
  | [], _ => .ok []
  | s :: ss, claimed => do
    let (jobs, claimed) ← generateJob batch index s claimed
    let rest ← planConvert batch index ss claimed
    .ok (jobs ++ rest)

/-! ## `dnglab process-raw`, process_raw.rs -/

/-- The output for frame `i` of `count`, process_raw.rs:127-145 -/
def tifOutput (s : Source) (batch : Bool) (count i : Nat) : R Path := do
  let output ← destFile s
  let output := (setExt output "tif".toList).getD output
  if batch ∧ 1 < count then
    match fileName output with
    | none => fail'
    | some n => .ok (withFileName output [.normal (stem n ++ '_' :: pad4 i ++ ".tif".toList)])
  else .ok output

/-- `generate_job`, process_raw.rs:98-169 -/
def generateTif (batch : Bool) (index : Nat) (s : Source) : R (List Job) := do
  let count ← batchCount batch s
  (List.range count).mapM fun i => do
    let output ← tifOutput s batch count i
    .ok { input := s.map.src, output := output, index := if batch then i else index }

/-- The planning part of `process_raw`, process_raw.rs:34-55 -/
def planTif (batch : Bool) (index : Nat) (ss : List Source) : R (List Job) := do
  let l ← ss.mapM (generateTif batch index)
  .ok l.flatten

/-! ## `dnglab extract`, extract.rs -/

/-- The output of `generate_job`, extract.rs:103-129, for the original file name stored in the DNG -/
def extractOutput (dest : Path) (destIsDir useOrig : Bool) (orig : List Char) : Path :=
  if destIsDir then push dest (parse orig) else if useOrig then withFileName dest (parse orig) else dest

end Verif.Cli
