import Verif.Spec.Tiff
import Mathlib.Data.List.Forall2
/-! # TIFF files as the format describes them, in either byte order -/

namespace Verif.Spec
open Verif Verif.Tiff

/-- The `n` bytes of a number in byte order `e` -/
def bytesOf (e : Endian) (n v : Nat) : List Nat :=
  match e with
  | .little => (List.range n).map fun i => v / 256 ^ i % 256
  | .big => (List.range n).map fun i => v / 256 ^ (n - 1 - i) % 256

/-- The bytes of a value -/
def encode (e : Endian) : Value → List Nat
  | .byte v | .sbyte v | .undefined v | .unknown _ v => v
  | .ascii a => a.plain
  | .short v | .sshort v => v.flatMap (bytesOf e 2)
  | .long v | .slong v | .float v => v.flatMap (bytesOf e 4)
  | .rational v | .srational v => v.flatMap fun x => bytesOf e 4 x.1 ++ bytesOf e 4 x.2
  | .double v => v.flatMap (bytesOf e 8)

/-- The number of elements noted in the entry -/
def elements : Value → Nat
  | .ascii a => a.plain.length
  | v => v.count

/-- Numbers fit their type; the string of a text value is what stands before its first NUL, or a marker if that is not UTF-8. -/
def Readable (utf8 : List Nat → Bool) : Value → Prop
  | .byte v | .sbyte v | .undefined v => ∀ x ∈ v, x < 2 ^ 8
  | .unknown t v => (t = 0 ∨ 12 < t) ∧ t < 2 ^ 16 ∧ ∀ x ∈ v, x < 2 ^ 8
  | .short v | .sshort v => ∀ x ∈ v, x < 2 ^ 16
  | .long v | .slong v | .float v => ∀ x ∈ v, x < 2 ^ 32
  | .double v => ∀ x ∈ v, x < 2 ^ 64
  | .rational v | .srational v => ∀ x ∈ v, x.1 < 2 ^ 32 ∧ x.2 < 2 ^ 32
  | .ascii a => (∀ x ∈ a.plain, x < 2 ^ 8) ∧
      a.strings = [if utf8 (a.plain.takeWhile (· != 0)) then a.plain.takeWhile (· != 0) else "!!!INVALID UTF8!!!".toList.map Char.toNat]

/-- A 32 bit pointer shifted by a correction -/
def shifted (o : Nat) (corr : Int) : Nat := (((o : Int) + corr) % 2 ^ 32).toNat

/-- At position `p` stands the entry for tag `x.1` with the value `x.2.1`, whose bytes are found at `x.2.2` (counted from `base`): inside the entry if
they are at most four, else where the pointer says. -/
def EntryAt (utf8 : List Nat → Bool) (F : List Nat) (e : Endian) (base : Nat) (corr : Int) (p : Nat) (x : Nat × Value × Nat) : Prop :=
  x.1 < 2 ^ 16 ∧ Readable utf8 x.2.1 ∧ elements x.2.1 < 2 ^ 32 ∧ p + 12 ≤ F.length ∧
  At F p (bytesOf e 2 x.1 ++ bytesOf e 2 x.2.1.type ++ bytesOf e 4 (elements x.2.1)) ∧ At F (base + x.2.2) (encode e x.2.1) ∧
  if (encode e x.2.1).length ≤ 4 then base + x.2.2 = p + 8
  else ∃ o, o < 2 ^ 32 ∧ At F (p + 8) (bytesOf e 4 o) ∧ x.2.2 = shifted o corr

/-- Bytes per element of a type -/
def typeSize (t : Nat) : Nat :=
  if t = 3 ∨ t = 8 then 2 else if t = 4 ∨ t = 9 ∨ t = 11 then 4 else if t = 5 ∨ t = 10 ∨ t = 12 then 8 else 1

/-- At position `p` stands an entry whose bytes reach beyond the end of the file. -/
def BrokenAt (F : List Nat) (e : Endian) (base : Nat) (corr : Int) (p : Nat) : Prop :=
  ∃ tag typ count o, tag < 2 ^ 16 ∧ typ < 2 ^ 16 ∧ count < 2 ^ 32 ∧ o < 2 ^ 32 ∧
    At F p (bytesOf e 2 tag ++ bytesOf e 2 typ ++ bytesOf e 4 count ++ bytesOf e 4 o) ∧
    4 < count * typeSize typ ∧ base + shifted o corr < 2 ^ 32 - 1 ∧ F.length < base + shifted o corr + count * typeSize typ

/-- A directory in the file: where it is, its entries (`none` = broken), the pointer behind them -/
structure FileDir where
  off : Nat
  entries : List (Option (Nat × Value × Nat))
  next : Nat

/-- The entries that are kept: broken ones are left out, but the fifth in a row ends the directory. `k` broken ones came just before. -/
def kept {α : Type} : Nat → List (Option α) → List α
  | _, [] => []
  | k, none :: l => if k = 4 then [] else kept (k + 1) l
  | _, some a :: l => a :: kept 0 l

/-- The last entry that is looked at is broken. -/
def endsBroken {α : Type} : Nat → List (Option α) → Bool
  | k, [] => k != 0
  | k, none :: l => if k = 4 then true else endsBroken (k + 1) l
  | _, some _ :: l => endsBroken 0 l

/-- The directory stands in the file. -/
def DirAt (utf8 : List Nat → Bool) (F : List Nat) (e : Endian) (base : Nat) (corr : Int) (d : FileDir) : Prop :=
  d.entries.length ≤ 4096 ∧ d.next < 2 ^ 32 ∧ At F (base + d.off) (bytesOf e 2 d.entries.length) ∧
  (∀ i x, d.entries[i]? = some (some x) → EntryAt utf8 F e base corr (base + d.off + 2 + 12 * i) x) ∧
  (∀ i, d.entries[i]? = some none → BrokenAt F e base corr (base + d.off + 2 + 12 * i)) ∧
  At F (base + d.off + 2 + 12 * d.entries.length) (bytesOf e 4 d.next) ∧ Ascending (kept 0 d.entries)

/-- The directory as a reader should see it. The pointer to the next directory is lost behind a broken last entry. -/
def FileDir.dir (d : FileDir) (corr : Int) : Dir :=
  { offset := d.off, next := if d.next = 0 ∨ endsBroken 0 d.entries then 0 else shifted d.next corr, entries := kept 0 d.entries }

/-- The sub-directory an offset leads to: one that stands in the file, or none if the offset is outside the file -/
def SubAt (utf8 : List Nat → Bool) (F : List Nat) (e : Endian) (base : Nat) (corr : Int) (o : Nat) : Option FileDir → Prop
  | some d => d.off = shifted o corr ∧ DirAt utf8 F e base corr d
  | none => base + shifted o corr < 2 ^ 32 ∧ F.length < base + shifted o corr + 2

/-- The sub-directories of an entry: present if the tag is one of `subTags`, one for each number of the value -/
def SubsAt (utf8 : List Nat → Bool) (F : List Nat) (e : Endian) (base : Nat) (corr : Int) (x : Nat × Value × Nat) (subs : List (Option FileDir)) : Prop :=
  ∃ os, x.2.1 = .long os ∧ List.Forall₂ (SubAt utf8 F e base corr) os subs

/-- A directory with its sub-directories: `subs` lists, for each kept entry with a tag of `subTags`, what its offsets lead to -/
structure FileIfd where
  main : FileDir
  subs : List (Nat × List (Option FileDir))

def IfdAt (utf8 : List Nat → Bool) (F : List Nat) (e : Endian) (base : Nat) (corr : Int) (subTags : List Nat) (d : FileIfd) : Prop :=
  DirAt utf8 F e base corr d.main ∧
  List.Forall₂ (fun x s => x.1 = s.1 ∧ SubsAt utf8 F e base corr x s.2) ((kept 0 d.main.entries).filter fun x => x.1 ∈ subTags) d.subs

/-- What a reader should return: unreadable sub-directories are left out -/
def FileIfd.ifd (d : FileIfd) (corr : Int) : Dir × List (Nat × List Dir) :=
  (d.main.dir corr, d.subs.map fun s => (s.1, (s.2.filterMap id).map fun x => x.dir corr))

/-- A chain of directories starting at `p`, each pointing at the following one, the last at none -/
def ChainAt (utf8 : List Nat → Bool) (F : List Nat) (e : Endian) (corr : Int) (subTags : List Nat) : Nat → List FileIfd → Prop
  | p, [] => p = 0
  | p, d :: ds => p ≠ 0 ∧ d.main.off = p ∧ IfdAt utf8 F e 0 corr subTags d ∧ kept 0 d.main.entries ≠ [] ∧
      ChainAt utf8 F e corr subTags (d.main.dir corr).next ds

/-- A TIFF file: byte order mark, one of the known magic numbers, pointer to the chain -/
def FileAt (utf8 : List Nat → Bool) (F : List Nat) (e : Endian) (corr : Int) (subTags : List Nat) (ds : List FileIfd) : Prop :=
  At F 0 (match e with | .little => [0x49, 0x49] | .big => [0x4d, 0x4d]) ∧
  (∃ m ∈ [42, 85, 21330, 20306], At F 2 (bytesOf e 2 m)) ∧
  ∃ o, o ≠ 0 ∧ o < 2 ^ 32 ∧ At F 4 (bytesOf e 4 o) ∧ ds ≠ [] ∧ ChainAt utf8 F e corr subTags (shifted o corr) ds

end Verif.Spec
