import Verif.Base
import Verif.Model.Slice
import Verif.Model.Endian
/-! # TIFF values, writer and reader (rawler/src/formats/tiff)

The machine is little-endian, so `NativeEndian` is little-endian. Files are byte lists held in memory: writes do not fail, a
read fails when too few bytes are left. Signed integers and floats are represented by their bit patterns. -/

namespace Verif.Tiff
open Verif

/-! ## Bytes -/

/-- `to_le_bytes` of an `n` byte number -/
def le : Nat → Nat → List Nat
  | 0, _ => []
  | n + 1, v => v % 256 :: le n (v / 256)

/-- `from_le_bytes` -/
def numLE : List Nat → Nat
  | [] => 0
  | b :: bs => b + 256 * numLE bs

/-- `from_le_bytes` or `from_be_bytes` -/
def num (e : Endian) (b : List Nat) : Nat :=
  match e with
  | .little => numLE b
  | .big => numLE b.reverse

/-! ## Values (value.rs) -/

/-- `TiffAscii`, value.rs:997-1001; strings are their UTF-8 bytes -/
structure Ascii where
  strings : List (List Nat)
  plain : List Nat := []
  deriving DecidableEq, Repr, Inhabited

/-- `enum Value`, value.rs:378-406 -/
inductive Value where
  | byte (v : List Nat)
  | ascii (v : Ascii)
  | short (v : List Nat)
  | long (v : List Nat)
  | rational (v : List (Nat × Nat))
  | sbyte (v : List Nat)
  | undefined (v : List Nat)
  | sshort (v : List Nat)
  | slong (v : List Nat)
  | srational (v : List (Nat × Nat))
  | float (v : List Nat)
  | double (v : List Nat)
  | unknown (t : Nat) (v : List Nat)
  deriving DecidableEq, Repr, Inhabited

/-- `TiffAscii::count`, value.rs:1030-1032 -/
def Ascii.count (a : Ascii) : Nat := (a.strings.map fun s => s.length + 1).sum

/-- `TiffAscii::as_vec_with_nul`, value.rs:1034-1041; `CString::new(..).expect(..)` panics on a NUL in the string -/
def Ascii.withNul (a : Ascii) : R (List Nat) := do
  let l ← a.strings.mapM fun s => if 0 ∈ s then panic' else .ok (s ++ [0])
  .ok l.flatten

/-- `TiffAscii::new_from_raw`, value.rs:1043-1059. `utf8` is `str::from_utf8(..).is_ok()`; `invalid` stands for the bytes of
"!!!INVALID UTF8!!!". -/
def invalidUtf8 : List Nat := [33, 33, 33, 73, 78, 86, 65, 76, 73, 68, 32, 85, 84, 70, 56, 33, 33, 33]
def Ascii.fromRaw (utf8 : List Nat → Bool) (raw : List Nat) : Ascii :=
  let s := raw.take ((raw.findIdx? (· == 0)).getD raw.length)
  { strings := [if utf8 s then s else invalidUtf8], plain := raw }

/-- `Value::count`, value.rs:801-817 -/
def Value.count : Value → Nat
  | .byte v | .short v | .long v | .sbyte v | .undefined v | .sshort v | .slong v | .float v | .double v | .unknown _ v => v.length
  | .rational v | .srational v => v.length
  | .ascii a => a.count

/-- `Value::byte_size`, value.rs:819-835 -/
def Value.byteSize : Value → Nat
  | .byte v | .sbyte v | .undefined v | .unknown _ v => v.length
  | .ascii a => a.count
  | .short v | .sshort v => v.length * 2
  | .long v | .slong v | .float v => v.length * 4
  | .rational v | .srational v => v.length * 8
  | .double v => v.length * 8

/-- `Value::value_type`, value.rs:958-974 -/
def Value.type : Value → Nat
  | .byte _ => 1 | .ascii _ => 2 | .short _ => 3 | .long _ => 4 | .rational _ => 5 | .sbyte _ => 6 | .undefined _ => 7
  | .sshort _ => 8 | .slong _ => 9 | .srational _ => 10 | .float _ => 11 | .double _ => 12 | .unknown t _ => t

/-- `x as u32` for an `i8` (`w = 8`) or `i16` (`w = 16`) bit pattern: sign extension -/
def sext (w x : Nat) : Nat := if x < 2 ^ (w - 1) then x else x + (2 ^ 32 - 2 ^ w)

/-- `x as u32` for an `f32` bit pattern: truncation towards zero, saturating, NaN to zero -/
def f32ToU32 (b : Nat) : Nat :=
  if b / 2 ^ 31 % 2 = 1 then 0
  else if b / 2 ^ 23 % 256 = 255 then (if b % 2 ^ 23 = 0 then 2 ^ 32 - 1 else 0)
  else if b / 2 ^ 23 % 256 < 127 then 0
  else if b / 2 ^ 23 % 256 ≥ 159 then 2 ^ 32 - 1
  else (2 ^ 23 + b % 2 ^ 23) * 2 ^ (b / 2 ^ 23 % 256 - 127) / 2 ^ 23

/-- The four bytes put together with shifts and `|`, value.rs:845-850 (`unwrap_or(&0)`); `<< 8` etc. on `u32` drop high bits -/
def embed4 (v : List Nat) : Nat :=
  v.getD 0 0 ||| ((v.getD 1 0) <<< 8) % 2 ^ 32 ||| ((v.getD 2 0) <<< 16) % 2 ^ 32 ||| ((v.getD 3 0) <<< 24) % 2 ^ 32

/-- value.rs:863, 879: two 16 bit numbers -/
def embed2 (v : List Nat) : R Nat := do
  let a ← idx v 0
  .ok (a ||| ((v.getD 1 0) <<< 16) % 2 ^ 32)

/-- `Value::as_embedded`, value.rs:837-889 -/
def Value.asEmbedded (v : Value) : R Nat :=
  if v.count = 0 then fail'
  else if v.byteSize > 4 then fail'
  else match v with
    | .byte v => .ok (embed4 v)
    | .ascii a => do
      let v ← a.withNul
      .ok (embed4 v)
    | .short v => embed2 v
    | .long v => idx v 0
    | .sbyte v => .ok (embed4 (v.map (sext 8)))
    | .undefined v => .ok (embed4 v)
    | .sshort v => embed2 (v.map (sext 16))
    | .slong v => idx v 0
    | .float v => do
      let x ← idx v 0
      .ok (f32ToU32 x)
    | .unknown _ v => .ok (embed4 v)
    | _ => panic'

/-- `Value::write`, value.rs:891-956: the bytes written -/
def Value.write : Value → R (List Nat)
  | .byte v | .undefined v | .unknown _ v | .sbyte v => .ok v
  | .ascii a => a.withNul
  | .short v | .sshort v => .ok (v.flatMap (le 2))
  | .long v | .slong v | .float v => .ok (v.flatMap (le 4))
  | .rational v | .srational v => .ok (v.flatMap fun x => le 4 x.1 ++ le 4 x.2)
  | .double v => .ok (v.flatMap (le 8))

/-! ## Directories under construction (writer.rs:145-225) -/

/-- `BTreeMap::insert` on the ascending list of entries -/
def insertTag {α : Type} (k : Nat) (v : α) : List (Nat × α) → List (Nat × α)
  | [] => [(k, v)]
  | (k', v') :: r => if k < k' then (k, v) :: (k', v') :: r else if k = k' then (k, v) :: r else (k', v') :: insertTag k v r

/-- `BTreeMap::remove` -/
def removeTag {α : Type} (k : Nat) (l : List (Nat × α)) : List (Nat × α) := l.filter fun e => e.1 ≠ k

/-- The calls that change a `DirectoryWriter` -/
inductive DirOp where
  /-- `add_tag`, `add_untyped_tag`, `add_value`, `add_tag_undefined` (writer.rs:157-180, 196-213) -/
  | add (tag : Nat) (v : Value)
  /-- `remove_tag` (writer.rs:152-155) -/
  | remove (tag : Nat)
  /-- `copy` (writer.rs:182-188): tags already present are kept -/
  | copy (src : List (Nat × Value))
  /-- `copy_with_override` (writer.rs:190-194) -/
  | copyOverride (src : List (Nat × Value))

def applyDirOp (l : List (Nat × Value)) : DirOp → List (Nat × Value)
  | .add t v => insertTag t v l
  | .remove t => removeTag t l
  | .copy src => src.foldl (fun l e => if l.any (fun x => x.1 == e.1) then l else insertTag e.1 e.2 l) l
  | .copyOverride src => src.foldl (fun l e => insertTag e.1 e.2 l) l

/-! ## The writer (writer.rs) -/

/-- An in-memory `Write + Seek` -/
structure File where
  data : List Nat
  pos : Nat
  deriving DecidableEq, Repr, Inhabited

/-- `write_all`: overwrites from the position on, growing the file -/
def File.put (f : File) (b : List Nat) : File :=
  { data := f.data.take f.pos ++ List.replicate (f.pos - f.data.length) 0 ++ b ++ f.data.drop (f.pos + b.length), pos := f.pos + b.length }

/-- `TiffWriter`, writer.rs:22-25 -/
structure Writer where
  file : File
  ifdLocation : Nat
  deriving DecidableEq, Repr, Inhabited

def Writer.put (t : Writer) (b : List Nat) : Writer := { t with file := t.file.put b }

/-- `TiffWriter::position`, writer.rs:136-138 (`as u32`) -/
def Writer.position (t : Writer) : Nat := t.file.pos % 2 ^ 32

/-- `TiffWriter::new` with `write_header`, writer.rs:31-52 -/
def Writer.new (f : File) : Writer :=
  let f := f.put [0x49, 0x49, 42, 0]
  { file := f.put (le 4 0), ifdLocation := f.pos }

/-- `TiffWriter::pad_word_boundary`, writer.rs:115-122 -/
def Writer.pad (t : Writer) : Writer :=
  if t.position % 4 ≠ 0 then t.put ([0, 0, 0].take (4 - t.position % 4)) else t

/-- `write_data`, writer.rs:82-90; `write_data_u16_le` and `write_data_f32_le` (writer.rs:92-113) with the bytes of the numbers -/
def Writer.writeData (t : Writer) (b : List Nat) : Writer × Nat := (t.pad.put b, t.pad.position)

/-- One entry of the first loop of `DirectoryWriter::build`, writer.rs:238-258: the `embedded` field -/
def Writer.putValue (t : Writer) (v : Value) : R (Writer × Nat) :=
  if v.byteSize > 4 then do
    let b ← v.write
    .ok (t.writeData b)
  else if v.count = 0 then panic'
  else do
    let e ← v.asEmbedded
    .ok (t, e)

/-- The loop: the writer and the entries with their `embedded` fields -/
def Writer.putValues (t : Writer) : List (Nat × Value) → R (Writer × List (Nat × Value × Nat))
  | [] => .ok (t, [])
  | (tag, v) :: r => do
    let (t, e) ← t.putValue v
    let (t, es) ← t.putValues r
    .ok (t, (tag, v, e) :: es)

/-- The bytes of one entry, writer.rs:265-271 -/
def entryBytes (x : Nat × Value × Nat) : List Nat := le 2 x.1 ++ le 2 x.2.1.type ++ le 4 (x.2.1.count % 2 ^ 32) ++ le 4 x.2.2

/-- The bytes of the directory, writer.rs:263-272; `entry_count` is a `u16`, `next_ifd` is always 0 -/
def dirBytes (es : List (Nat × Value × Nat)) : List Nat := le 2 (es.length % 2 ^ 16) ++ es.flatMap entryBytes ++ le 4 0

/-- `DirectoryWriter::build`, writer.rs:230-275 -/
def Writer.buildDir (t : Writer) (entries : List (Nat × Value)) : R (Writer × Nat) :=
  if entries = [] then fail'
  else do
    let (t, es) ← t.putValues entries
    .ok (t.writeData (dirBytes es))

/-- `TiffWriter::build`, writer.rs:124-129: the finished file -/
def Writer.build (t : Writer) (root : List (Nat × Value)) : R (List Nat) := do
  let (t, off) ← t.buildDir root
  .ok (({ t.file with pos := t.ifdLocation } : File).put (le 4 off)).data

/-! ## The reader -/

/-- `apply_corr`, mod.rs:286-288 -/
def applyCorr (offset : Nat) (corr : Int) : Nat := (((offset : Int) + corr) % 2 ^ 32).toNat

/-- `read_exact` of `n` bytes at `pos` -/
def rd (file : List Nat) (pos n : Nat) : Option (List Nat) :=
  if pos + n ≤ file.length then some ((file.drop pos).take n) else none

/-- Bytes per element, `1 << DATASHIFTS[..]`, entry.rs:63, 88-90; unknown types count bytes -/
def elemSize (typ : Nat) : Nat := [1, 1, 1, 2, 4, 8, 1, 1, 2, 4, 8, 4, 8].getD typ 1

/-- `read_u16_into` and friends -/
def groups (e : Endian) (n : Nat) (raw : List Nat) : List Nat :=
  (List.range (raw.length / n)).map fun i => num e ((raw.drop (i * n)).take n)

/-- `tmp.chunks_exact(2)`, entry.rs:151-153, 201-203 -/
def pairUp : List Nat → List (Nat × Nat)
  | a :: b :: r => (a, b) :: pairUp r
  | _ => []

/-- The `match typ`, entry.rs:109-237, on the bytes read -/
def decodeValue (utf8 : List Nat → Bool) (e : Endian) (typ : Nat) (raw : List Nat) : Value :=
  if typ = 1 then .byte raw
  else if typ = 2 then .ascii (Ascii.fromRaw utf8 raw)
  else if typ = 3 then .short (groups e 2 raw)
  else if typ = 4 then .long (groups e 4 raw)
  else if typ = 5 then .rational (pairUp (groups e 4 raw))
  else if typ = 6 then .sbyte raw
  else if typ = 7 then .undefined raw
  else if typ = 8 then .sshort (groups e 2 raw)
  else if typ = 9 then .slong (groups e 4 raw)
  else if typ = 10 then .srational (pairUp (groups e 4 raw))
  else if typ = 11 then .float (groups e 4 raw)
  else if typ = 12 then .double (groups e 8 raw)
  else .unknown typ raw

/-- Outcome of `Entry::parse`: the value and the `embedded` field (the reader then stands behind the entry), an error with the position the
reader is left at (a failed `read_exact` of a `Cursor` moves to the end), or a panic -/
inductive Parsed where
  | ok (v : Value) (embedded : Nat)
  | err (pos : Nat)
  | panic
  deriving DecidableEq, Repr

/-- The part of `Entry::parse` after the offset is known, entry.rs:102-239; `posNow` is the position of the reader, `start` that of the entry -/
def parseAt (utf8 : List Nat → Bool) (file : List Nat) (e : Endian) (base typ count offset posNow start : Nat) : Parsed :=
  if offset = 2 ^ 32 - 1 ∨ base + offset ≥ 2 ^ 32 then .err posNow
  else match rd file (base + offset) (count * elemSize typ) with
    | none => .err file.length
    | some raw => if start + 12 < 2 ^ 32 then .ok (decodeValue utf8 e typ raw) offset else .panic

/-- The offset of the data, entry.rs:87-95 -/
def parseOffset (utf8 : List Nat → Bool) (file : List Nat) (e : Endian) (base : Nat) (corr : Int) (typ count pos start : Nat) : Parsed :=
  if count * elemSize typ ≤ 4 then
    if base ≤ pos % 2 ^ 32 then parseAt utf8 file e base typ count (pos % 2 ^ 32 - base) pos start else .panic
  else match rd file pos 4 with
    | none => .err file.length
    | some o => parseAt utf8 file e base typ count (applyCorr (num e o) corr) (pos + 4) start

/-- `Entry::parse`, entry.rs:81-240; `pos` is the position behind the tag. The allocation of `count` elements is not modelled. -/
def parseEntry (utf8 : List Nat → Bool) (file : List Nat) (e : Endian) (base : Nat) (corr : Int) (pos : Nat) : Parsed :=
  if pos % 2 ^ 32 < 2 then .panic
  else match rd file pos 2 with
    | none => .err file.length
    | some t => match rd file (pos + 2) 4 with
      | none => .err file.length
      | some c => parseOffset utf8 file e base corr (num e t) (num e c) (pos + 6) (pos % 2 ^ 32 - 2)

/-- The parsed part of an IFD -/
structure Dir where
  offset : Nat
  next : Nat
  entries : List (Nat × Value × Nat)
  deriving DecidableEq, Repr, Inhabited

/-- State of the entry loop: entries, sub-IFD offsets, consecutive errors, reader position -/
structure LoopState where
  entries : List (Nat × Value × Nat) := []
  subs : List (Nat × List Nat) := []
  errors : Nat := 0
  pos : Nat := 0
  deriving DecidableEq, Repr, Inhabited

/-- Sub-IFD offsets of an entry, ifd.rs:145-169: `some none` is the index panic on an empty unknown value -/
def subOffsets (subTags : List Nat) (tag : Nat) (v : Value) (embedded : Nat) (subs : List (Nat × List Nat)) : R (List (Nat × List Nat)) :=
  if tag ∈ subTags then
    match v with
    | .long offsets => .ok (insertTag tag offsets subs)
    | .unknown t offsets => do
      let o ← idx offsets 0
      .ok (insertTag t [o] subs)
    | .undefined _ => .ok (insertTag tag [embedded] subs)
    | _ => .ok subs
  else .ok subs

/-- The entry loop of `IFD::new`, ifd.rs:119-186, `n` entries left, the next at `nextPos`. The limit of 4096 is applied by the caller. -/
def entryLoop (utf8 : List Nat → Bool) (file : List Nat) (e : Endian) (base : Nat) (corr : Int) (subTags : List Nat) :
    Nat → Nat → LoopState → R LoopState
  | 0, _, s => .ok s
  | n + 1, nextPos, s =>
    if nextPos + 12 ≥ 2 ^ 32 then panic'
    else match rd file nextPos 2 with
      | none => .ok { s with pos := file.length }
      | some t => match parseEntry utf8 file e base corr (nextPos + 2) with
        | .panic => panic'
        | .err p =>
          if s.errors + 1 ≥ 5 then .ok { s with errors := s.errors + 1, pos := p }
          else entryLoop utf8 file e base corr subTags n (nextPos + 12) { s with errors := s.errors + 1, pos := p }
        | .ok v emb => do
          let subs ← subOffsets subTags (num e t) v emb s.subs
          entryLoop utf8 file e base corr subTags n (nextPos + 12)
            { entries := insertTag (num e t) (v, emb) s.entries, subs := subs, errors := 0, pos := nextPos + 12 }

/-- `MAX_IFD_ENTRIES`, ifd.rs:23 -/
def maxEntries : Nat := 4096

/-- The next-IFD pointer, ifd.rs:188-199, 218 -/
def nextPointer (file : List Nat) (e : Endian) (corr : Int) (pos : Nat) : Nat :=
  match rd file pos 4 with
  | none => 0
  | some p => if num e p = 0 then 0 else applyCorr (num e p) corr

/-- `IFD::new` without the sub-IFDs, ifd.rs:103-199: the directory and the sub-IFD offsets -/
def readDir (utf8 : List Nat → Bool) (file : List Nat) (e : Endian) (base : Nat) (corr : Int) (subTags : List Nat) (offset : Nat) :
    R (Dir × List (Nat × List Nat)) :=
  if base + offset ≥ 2 ^ 32 then panic'
  else match rd file (base + offset) 2 with
    | none => fail'
    | some c => do
      let s ← entryLoop utf8 file e base corr subTags (min (num e c) maxEntries) ((base + offset + 2) % 2 ^ 32) { pos := base + offset + 2 }
      .ok ({ offset := offset, next := nextPointer file e corr s.pos, entries := s.entries }, s.subs)

/-- One list of sub-IFDs, ifd.rs:206-213: those that fail are left out -/
def readSubs (utf8 : List Nat → Bool) (file : List Nat) (e : Endian) (base : Nat) (corr : Int) : List Nat → R (List Dir)
  | [] => .ok []
  | o :: os => match readDir utf8 file e base corr [] (applyCorr o corr) with
    | .error .panic => panic'
    | .error .fail => readSubs utf8 file e base corr os
    | .ok (d, _) => do
      let ds ← readSubs utf8 file e base corr os
      .ok (d :: ds)

/-- `IFD::new`, ifd.rs:103-225: the directory and its sub-IFDs by tag -/
def readIfd (utf8 : List Nat → Bool) (file : List Nat) (e : Endian) (base : Nat) (corr : Int) (subTags : List Nat) (offset : Nat) :
    R (Dir × List (Nat × List Dir)) := do
  let (d, subs) ← readDir utf8 file e base corr subTags offset
  let sub ← subs.mapM fun (t, os) => do
    let ds ← readSubs utf8 file e base corr os
    .ok (t, ds)
  .ok (d, sub)

/-- The chain loop of `parse_file`, reader.rs:163-181, at most `fuel` rounds: `none` means that the loop is still running. `read` is `IFD::new`. -/
def chainLoop (read : Nat → R (Dir × List (Nat × List Dir))) (max : Option Nat) :
    Nat → Nat → List (Dir × List (Nat × List Dir)) → Option (R (List (Dir × List (Nat × List Dir))))
  | _, 0, chain => some (.ok chain)
  | 0, _, _ => none
  | fuel + 1, next, chain =>
    match read next with
    | .error e => some (.error e)
    | .ok d =>
      if d.1.entries = [] then some fail'
      else match max with
        | some m => if chain.length + 1 > m then some (.ok (chain ++ [d])) else chainLoop read max fuel d.1.next (chain ++ [d])
        | none => chainLoop read max fuel d.1.next (chain ++ [d])

/-- `parse_file`, reader.rs:142-188 (base 0 and the reader at the start of the file): the chain of IFDs. `none` = still running after `fuel`
rounds. -/
def parseFile (utf8 : List Nat → Bool) (file : List Nat) (corr : Int) (max : Option Nat) (subTags : List Nat) (fuel : Nat) :
    Option (R (List (Dir × List (Nat × List Dir)))) :=
  match rd file 0 2 with
  | some [0x49, 0x49] => go .little
  | some [0x4d, 0x4d] => go .big
  | _ => some fail'
where
  go (e : Endian) : Option (R (List (Dir × List (Nat × List Dir)))) :=
    match rd file 2 2, rd file 4 4 with
    | some m, some p =>
      if num e m ≠ 42 ∧ num e m ≠ 85 ∧ num e m ≠ 21330 ∧ num e m ≠ 20306 then some fail'
      else if num e p = 0 then some fail'
      else match chainLoop (readIfd utf8 file e 0 corr subTags) max fuel (applyCorr (num e p) corr) [] with
        | none => none
        | some (.ok []) => some fail'
        | some r => some r
    | _, _ => some fail'

end Verif.Tiff
