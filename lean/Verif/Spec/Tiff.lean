import Verif.Model.Tiff
/-! # What a user of the TIFF writer and reader relies on -/

namespace Verif.Spec
open Verif Verif.Tiff

/-- The bytes `b` are found in the file `F` at offset `o`. -/
def At (F : List Nat) (o : Nat) (b : List Nat) : Prop := o + b.length ≤ F.length ∧ (F.drop o).take b.length = b

instance (F : List Nat) (o : Nat) (b : List Nat) : Decidable (At F o b) := by unfold At; infer_instance

/-- The content of a value: for strings the raw bytes that a reader keeps alongside are left out. -/
def content : Value → Value
  | .ascii a => .ascii { strings := a.strings, plain := [] }
  | v => v

/-- Every number fits its field and strings are NUL-free UTF-8: what the Rust types guarantee (NUL excepted). -/
def Typed (utf8 : List Nat → Bool) : Value → Prop
  | .byte v | .sbyte v | .undefined v => ∀ x ∈ v, x < 2 ^ 8
  | .unknown t v => (t = 0 ∨ 12 < t) ∧ t < 2 ^ 16 ∧ ∀ x ∈ v, x < 2 ^ 8
  | .short v | .sshort v => ∀ x ∈ v, x < 2 ^ 16
  | .long v | .slong v | .float v => ∀ x ∈ v, x < 2 ^ 32
  | .double v => ∀ x ∈ v, x < 2 ^ 64
  | .rational v | .srational v => ∀ x ∈ v, x.1 < 2 ^ 32 ∧ x.2 < 2 ^ 32
  | .ascii a => ∀ s ∈ a.strings, (∀ x ∈ s, 0 < x ∧ x < 2 ^ 8) ∧ utf8 s

/-- Values outside the known defects of the writer: not empty, one string, no single float, and among the
values stored inside the entry no negative 8 or 16 bit number before another number. -/
def Storable : Value → Prop
  | .ascii a => a.strings.length = 1
  | .float v => v ≠ [] ∧ v.length ≠ 1
  | .sbyte v => v ≠ [] ∧ (v.length ≤ 4 → ∀ x ∈ v.dropLast, x < 2 ^ 7)
  | .sshort v => v ≠ [] ∧ (v.length ≤ 2 → ∀ x ∈ v.dropLast, x < 2 ^ 15)
  | v => 0 < v.count

/-- A map from tags to values, changed as the names of the operations say. -/
def applyMap (m : Nat → Option Value) : DirOp → Nat → Option Value
  | .add t v => fun k => if k = t then some v else m k
  | .remove t => fun k => if k = t then none else m k
  | .copy src => src.foldl (fun m e k => if k = e.1 ∧ m k = none then some e.2 else m k) m
  | .copyOverride src => src.foldl (fun m e k => if k = e.1 then some e.2 else m k) m

/-- Lookup in a list of entries -/
def find {α : Type} (l : List (Nat × α)) (k : Nat) : Option α := (l.find? fun e => e.1 == k).map (·.2)

/-- Tags in ascending order, hence no tag twice -/
def Ascending {α : Type} (l : List (Nat × α)) : Prop := l.Pairwise fun a b => a.1 < b.1

/-- What a program does with the writer before it finishes the file -/
inductive WOp where
  /-- write a block of data -/
  | data (b : List Nat)
  /-- build up a directory by a history of calls and write it -/
  | dir (hist : List DirOp)

/-- The entries of a directory after a history of calls -/
def entriesOf (hist : List DirOp) : List (Nat × Value) := hist.foldl applyDirOp []

def WOp.run (t : Writer) : WOp → R (Writer × Nat)
  | .data b => .ok (t.writeData b)
  | .dir h => t.buildDir (entriesOf h)

/-- The writer after the operations, and the offset each of them returned -/
def runAll (t : Writer) : List WOp → R (Writer × List Nat)
  | [] => .ok (t, [])
  | o :: os => do
    let (t, off) ← o.run t
    let (t, offs) ← runAll t os
    .ok (t, off :: offs)

/-- A whole session on an empty file: the finished file and the offsets returned on the way -/
def session (ops : List WOp) (root : List DirOp) : R (List Nat × List Nat) := do
  let (t, offs) ← runAll (Writer.new { data := [], pos := 0 }) ops
  let F ← t.build (entriesOf root)
  .ok (F, offs)

/-- A directory that can be written faithfully -/
def WritableDir (utf8 : List Nat → Bool) (hist : List DirOp) : Prop :=
  entriesOf hist ≠ [] ∧ (entriesOf hist).length ≤ 4096 ∧
    ∀ e ∈ entriesOf hist, e.1 < 2 ^ 16 ∧ Typed utf8 e.2 ∧ Storable e.2 ∧ e.2.count < 2 ^ 32

def Writable (utf8 : List Nat → Bool) : WOp → Prop
  | .data _ => True
  | .dir h => WritableDir utf8 h

/-- The abstract map a history of calls denotes -/
def mapOf (hist : List DirOp) : Nat → Option Value := hist.foldl applyMap fun _ => none

/-- Blocks `(offset, length)` that lie between `lo` and `hi` one behind the other, each at a multiple of four: no two of them overlap. -/
def Laid : Nat → List (Nat × Nat) → Nat → Prop
  | lo, [], hi => lo ≤ hi
  | lo, (o, n) :: r, hi => lo ≤ o ∧ o % 4 = 0 ∧ Laid (o + n) r hi

/-- The blocks of values that do not fit into their entry: field `embedded` and size -/
def outside (es : List (Nat × Value × Nat)) : List (Nat × Nat) :=
  es.filterMap fun x => if x.2.1.byteSize > 4 then some (x.2.2, x.2.1.byteSize) else none

/-- A directory read from a file is the map `m`: each tag once, in ascending order, with the content of `m`, and no further directory behind it -/
def IsMap (d : Dir) (m : Nat → Option Value) : Prop :=
  d.next = 0 ∧ Ascending d.entries ∧ ∀ tag, (find d.entries tag).map (fun x => content x.1) = (m tag).map content

end Verif.Spec
