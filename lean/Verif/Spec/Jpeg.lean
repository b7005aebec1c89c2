import Verif.Spec.HuffCode
/-!
# Lossless JPEG files (ITU-T T.81, Annexes B, C and H), whoever wrote them
-/

namespace Verif.Spec.Jpeg
open Verif Verif.Spec

/-- A table: the numbers of words of 1, 2, …, 16 bits, and what the words stand for in this order. -/
structure Table where
  counts : List Nat
  vals : List Nat
  deriving DecidableEq

/-- The table fits the format: 16 counts, a value for each word, no more than 256 of them, room for all the words, and the
values are numbers of digits of differences. -/
structure Table.Valid (T : Table) : Prop where
  counts : T.counts.length = 16
  total : T.counts.sum = T.vals.length
  max : T.vals.length ≤ 256
  kraft : (T.counts.zipIdx.map fun p => p.1 * 2 ^ (15 - p.2)).sum ≤ 2 ^ 16
  cats : ∀ v ∈ T.vals, v ≤ 16

instance (T : Table) : Decidable T.Valid :=
  decidable_of_iff (T.counts.length = 16 ∧ T.counts.sum = T.vals.length ∧ T.vals.length ≤ 256 ∧
    (T.counts.zipIdx.map fun p => p.1 * 2 ^ (15 - p.2)).sum ≤ 2 ^ 16 ∧ ∀ v ∈ T.vals, v ≤ 16)
    ⟨fun h => ⟨h.1, h.2.1, h.2.2.1, h.2.2.2.1, h.2.2.2.2⟩, fun h => ⟨h.1, h.2, h.3, h.4, h.5⟩⟩

/-- A difference: the word for its number of digits, then the digits. The difference with 16 digits is always −32768 and needs
none; old DNG writers wrote them all the same (`bug`). -/
def Table.code (T : Table) (bug : Bool) (d : Int) : List Bool :=
  codeWord T.counts (T.vals.idxOf (catOf d)) ++
    if catOf d = 16 ∧ bug = false then [] else bitsMSB (catOf d) (extraOf d)

/-- Differences are taken modulo 2¹⁶. -/
def diff16 (a : Int) : Int := (a + 32768) % 65536 - 32768

/-- A component: its name, its sampling factors, the number of its table. -/
structure Comp where
  id : Nat
  h : Nat
  v : Nat
  tbl : Nat
  deriving DecidableEq

/-- What a frame header says. -/
structure Frame where
  width : Nat
  height : Nat
  prec : Nat
  comps : List Comp

/-- A segment before the scan, other than the frame header: some tables with their numbers, or anything else. -/
inductive Segment where
  | tables (l : List (Nat × Table))
  | other (marker : Nat) (body : List Nat)

/-- A 16 bit number. -/
def word (n : Nat) : List Nat := [n / 256, n % 256]

/-- The bytes of a segment. -/
def Segment.bytes : Segment → List Nat
  | tables l => [0xff, 0xc4] ++ word (2 + (l.map fun t => 17 + t.2.vals.length).sum) ++
      l.flatMap fun t => [t.1] ++ t.2.counts ++ t.2.vals
  | other m body => [0xff, m] ++ body

/-- The frame header. -/
def Frame.bytes (F : Frame) : List Nat :=
  [0xff, 0xc3] ++ word (8 + 3 * F.comps.length) ++ [F.prec] ++ word F.height ++ word F.width ++ [F.comps.length] ++
    F.comps.flatMap fun c => [c.id, 16 * c.h + c.v, 0]

/-- The scan header: component selectors with table numbers, predictor, point transform. -/
def scanHeader (F : Frame) (sel : List Nat) (pred pt : Nat) : List Nat :=
  [0xff, 0xda] ++ word (6 + 2 * F.comps.length) ++ [F.comps.length] ++
    (sel.zip F.comps).flatMap (fun p => [p.1, 16 * p.2.tbl]) ++ [pred, 0, pt]

/-- A whole file. -/
def file (F : Frame) (pre post : List Segment) (sel : List Nat) (pred pt : Nat) (data : List Nat) : List Nat :=
  [0xff, 0xd8] ++ pre.flatMap Segment.bytes ++ F.bytes ++ post.flatMap Segment.bytes ++ scanHeader F sel pred pt ++ data

/-- All tables of some segments, in order. -/
def tablesOf (segs : List Segment) : List (Nat × Table) :=
  segs.flatMap fun s => match s with
    | .tables l => l
    | .other _ _ => []

/-- The table in force for a number: the last one given. -/
def tableFor (segs : List Segment) (i : Nat) : Option Table := ((tablesOf segs).reverse.find? fun t => t.1 = i).map (·.2)

/-- Bytes without a marker: after each 0xff comes a zero or another 0xff, or nothing. -/
def quiet : List Nat → Bool
  | [] => true
  | [_] => true
  | a :: b :: r => (a != 0xff || b == 0 || b == 0xff) && quiet (b :: r)

/-- Segments as they should be. A segment that is to be passed over has no marker in it (the decoder looks for the next marker,
without regard to the length; it may end with fill bytes 0xff), and its own marker is not one with a meaning here. -/
def Segment.Ok : Segment → Prop
  | tables l => (∀ t ∈ l, t.1 ≤ 3 ∧ t.2.Valid) ∧ 2 + (l.map fun t => 17 + t.2.vals.length).sum < 65536
  | other m body => m ∉ [0, 0xff, 0xc3, 0xc4, 0xd9, 0xda, 0xdb] ∧ quiet body = true

instance : (s : Segment) → Decidable s.Ok
  | .tables l => inferInstanceAs (Decidable ((∀ t ∈ l, t.1 ≤ 3 ∧ t.2.Valid) ∧ 2 + (l.map fun t => 17 + t.2.vals.length).sum < 65536))
  | .other m body => inferInstanceAs (Decidable (m ∉ [0, 0xff, 0xc3, 0xc4, 0xd9, 0xda, 0xdb] ∧ quiet body = true))

/-- A frame header as it should be. -/
structure Frame.Ok (F : Frame) : Prop where
  w : 1 ≤ F.width ∧ F.width < 65536
  h : 1 ≤ F.height ∧ F.height < 65536
  prec : 10 ≤ F.prec ∧ F.prec ≤ 16
  n : 1 ≤ F.comps.length ∧ F.comps.length ≤ 4
  ids : (F.comps.map (·.id)).Nodup
  comps : ∀ c ∈ F.comps, c.h < 16 ∧ c.v < 16 ∧ c.tbl ≤ 3

instance (F : Frame) : Decidable F.Ok :=
  decidable_of_iff ((1 ≤ F.width ∧ F.width < 65536) ∧ (1 ≤ F.height ∧ F.height < 65536) ∧ (10 ≤ F.prec ∧ F.prec ≤ 16) ∧
    (1 ≤ F.comps.length ∧ F.comps.length ≤ 4) ∧ (F.comps.map (·.id)).Nodup ∧ ∀ c ∈ F.comps, c.h < 16 ∧ c.v < 16 ∧ c.tbl ≤ 3)
    ⟨fun h => ⟨h.1, h.2.1, h.2.2.1, h.2.2.2.1, h.2.2.2.2.1, h.2.2.2.2.2⟩, fun h => ⟨h.1, h.2, h.3, h.4, h.5, h.6⟩⟩

/-- The component selectors: the names of the components. Files of some writers have wrong ones; for these the decoder can be
told to number the components (`fix`), and their names must be these numbers. -/
def Selects (F : Frame) (sel : List Nat) (fix : Bool) : Prop :=
  sel.length = F.comps.length ∧ F.comps.map (·.id) = if fix then List.range F.comps.length else sel

instance (F : Frame) (sel : List Nat) (fix : Bool) : Decidable (Selects F sel fix) := by unfold Selects; infer_instance

/-- The bits of the scan of a file: what the bytes up to the next marker say. -/
def bitsOf (data : List Nat) : List Bool := bytesMSB (unstuff data)

/-! ### one sample after the other, components interleaved -/

/-- The prediction (Table H.1) from the samples to the left (`a`), above (`b`) and above left (`c`). -/
def predictor (sel : Nat) (a b c : Int) : Int :=
  match sel with
  | 1 => a
  | 2 => b
  | 3 => c
  | 4 => a + b - c
  | 5 => a + (b - c) / 2
  | 6 => b + (a - c) / 2
  | 7 => (a + b) / 2
  | _ => 0

/-- What the sample of component `k` in row `r` and column `c` is compared with (H.1.2.1). -/
def expected (sel : Nat) (base : Int) (px : Nat → Nat → Nat → Nat) (r c k : Nat) : Int :=
  if c = 0 then (if r = 0 then base else px (r - 1) 0 k)
  else if r = 0 then px 0 (c - 1) k
  else predictor sel (px r (c - 1) k) (px (r - 1) c k) (px (r - 1) (c - 1) k)

/-- The difference coded for a sample. -/
def delta (sel : Nat) (base : Int) (px : Nat → Nat → Nat → Nat) (r c k : Nat) : Int :=
  diff16 (px r c k - expected sel base px r c k)

/-- The scan: `T k` is the table of component `k`, of `n`. -/
def scan (T : Nat → Table) (bug : Bool) (n w h sel : Nat) (base : Int) (px : Nat → Nat → Nat → Nat) : List Bool :=
  (List.range h).flatMap fun r => (List.range w).flatMap fun c => (List.range n).flatMap fun k =>
    (T k).code bug (delta sel base px r c k)

end Verif.Spec.Jpeg
