import Verif.Model.Crw
import Verif.Model.Slice
/-! # Canon CIFF directories, formats/ciff/mod.rs, and what crw.rs reads from them

Offsets are natural numbers; a sum of a position in the file and a 32 bit number does not overflow a 64 bit `usize`. A `HashMap` is a
list of pairs, the newest first. -/

namespace Verif.Ciff
open Verif

/-- `LEu16`, bits.rs:206-208. -/
def leU16 (buf : List Nat) (pos : Nat) : R Nat := do
  let b ← slice buf pos (pos + 2)
  match b with
  | [x, y] => .ok (x + y * 256)
  | _ => panic'

/-- `LEu32`, bits.rs:154-156. -/
def leU32 (buf : List Nat) (pos : Nat) : R Nat := do
  let b ← slice buf pos (pos + 4)
  match b with
  | [x, y, z, w] => .ok (x + y * 256 + z * 65536 + w * 16777216)
  | _ => panic'

/-- `struct CiffEntry`, mod.rs:25-33. -/
structure Entry where
  tag : Nat
  typ : Nat
  count : Nat
  bytesize : Nat
  dataOffset : Nat
  data : List Nat
  deriving Repr, DecidableEq

/-- `struct CiffIFD`, mod.rs:35-39. -/
inductive Ifd where
  | mk (entries : List (Nat × Entry)) (subs : List Ifd)

/-- `is_ciff`, mod.rs:41-46; `RawSource::subview` fails when the file is too short. -/
def isCiff (file : List Nat) : Bool :=
  if 14 ≤ file.length then (file.drop 6).take 8 == [72, 69, 65, 80, 67, 67, 68, 82] else false

/-- `element_shift`, mod.rs:128-140. -/
def elementShift (typ : Nat) : Nat :=
  if typ = 0x0000 ∨ typ = 0x8000 then 0
  else if typ = 0x1000 then 1
  else if typ = 0x1800 ∨ typ = 0x2000 ∨ typ = 0x2800 ∨ typ = 0x3000 then 2
  else 0

/-- `CiffEntry::new`, mod.rs:101-126. -/
def Entry.new (buf : List Nat) (valueData offset : Nat) : R Entry := do
  let p ← leU16 buf offset
  let tag := p &&& 0x3fff
  let loc := p &&& 0xc000
  let typ := p &&& 0x3800
  let (bytesize, dataOffset) ← (if loc = 0x0000 then do
      let n ← leU32 buf (offset + 2)
      let o ← leU32 buf (offset + 6)
      .ok (n, o + valueData)
    else if loc = 0x4000 then .ok (8, offset + 2)
    else fail' : R (Nat × Nat))
  let data ← slice buf dataOffset (dataOffset + bytesize)
  .ok ⟨tag, typ, bytesize >>> elementShift typ, bytesize, dataOffset, data⟩

/-- One entry of a directory, mod.rs:62-80. `sub` reads a subdirectory; it is absent at depth 10. -/
def dirStep (buf : List Nat) (sub : Option (Nat → Nat → R Ifd)) (start vs i : Nat) (st : List (Nat × Entry) × List Ifd) :
    R (List (Nat × Entry) × List Ifd) := do
  let e ← Entry.new buf start (start + vs + 2 + i * 10)
  if e.typ = 0x2800 ∨ e.typ = 0x3000 then
    match sub with
    | none => .ok st
    | some f =>
      match f e.dataOffset (e.dataOffset + e.bytesize) with
      | .ok v => .ok (st.1, st.2 ++ [v])
      | .error .fail => .ok ((e.tag, e) :: st.1, st.2)
      | .error .panic => panic'
  else .ok ((e.tag, e) :: st.1, st.2)

/-- A directory, mod.rs:55-84. -/
def dir (buf : List Nat) (sub : Option (Nat → Nat → R Ifd)) (start end' : Nat) : R Ifd := do
  let e4 ← usub end' 4
  let vs ← leU32 buf e4
  let n ← leU16 buf (start + vs)
  let st ← forN n (fun i st => dirStep buf sub start vs i st) ([], [])
  .ok (.mk st.1 st.2)

/-- `CiffIFD::new`, mod.rs:55-84, with `10 - depth` for `depth`. -/
def Ifd.new (buf : List Nat) : Nat → Nat → Nat → R Ifd
  | 0, start, end' => dir buf none start end'
  | lv + 1, start, end' => dir buf (some (Ifd.new buf lv)) start end'

/-- `CiffIFD::new_file`, mod.rs:49-53. -/
def Ifd.newFile (file : List Nat) : R Ifd := do
  let start ← leU32 file 2
  Ifd.new file 9 start file.length

mutual
/-- `find_entry`, mod.rs:86-97. -/
def Ifd.find (tag : Nat) : Ifd → Option Entry
  | .mk entries subs => (entries.lookup tag).or (findAny tag subs)
/-- The loop of `find_entry`, mod.rs:90-95. -/
def findAny (tag : Nat) : List Ifd → Option Entry
  | [] => none
  | x :: xs => (Ifd.find tag x).or (findAny tag xs)
end

/-- `get_u32`, mod.rs:146-153. -/
def Entry.getU32 (e : Entry) (i : Nat) : R Nat :=
  if e.typ = 0x0000 ∨ e.typ = 0x8000 then idx e.data i
  else if e.typ = 0x1000 then leU16 e.data (i * 2)
  else if e.typ = 0x1800 ∨ e.typ = 0x2000 ∨ e.typ = 0x2800 ∨ e.typ = 0x3000 then leU32 e.data (i * 4)
  else panic'

/-- `get_force_u16`, mod.rs:161-163. -/
def Entry.getForceU16 (e : Entry) (i : Nat) : R Nat := leU16 e.data (i * 2)

/-- Text up to each NUL: `split_terminator('\0')`. -/
def splitNul : List Nat → List Nat → List (List Nat)
  | acc, [] => if acc = [] then [] else [acc]
  | acc, c :: l => if c = 0 then acc :: splitNul [] l else splitNul (acc ++ [c]) l

/-- `get_strings`, mod.rs:142-144, on bytes: `from_utf8_lossy`, which keeps ASCII text as it is, is left out. -/
def Entry.getStrings (e : Entry) : List (List Nat) := splitNul [] e.data

/-- `fetch_ciff_tag!`, decoders/mod.rs. -/
def fetch (ifd : Ifd) (tag : Nat) : R Entry :=
  match ifd.find tag with
  | some e => .ok e
  | none => fail'

/-- `CrwDecoder::new`, crw.rs:74-84: the directory, maker and model. The camera database is not modelled. -/
def openCrw (file : List Nat) : R (Ifd × List Nat × List Nat) := do
  let ifd ← Ifd.newFile file
  let e ← fetch ifd 0x080a
  match e.getStrings with
  | a :: b :: _ => .ok (ifd, a, b)
  | _ => fail'

/-- The samples, crw.rs:92-97 and 178-185, for cameras other than the PowerShot Pro70. `lowbits`: the camera has no hint `nolowbits`. -/
def samples (file : List Nat) (ifd : Ifd) (lowbits : Bool) : R (Nat × Nat × List Nat) := do
  let s ← fetch ifd 0x1031
  let w ← s.getU32 1
  let h ← s.getU32 2
  let t ← fetch ifd 0x1835
  let n ← t.getU32 0
  let out ← Crw.decodeCompressed file lowbits n w h
  .ok (w, h, out)

/-- White balance: four levels as they are stored; or four numbers to divide 1024 by; or nothing. -/
inductive Wb where
  | levels (l : List Nat)
  | recips (l : List Nat)
  | none
  deriving Repr, DecidableEq

/-- `get_wb`, crw.rs:133-172, before the numbers become floats. `off`: the parameter `wb_offset` of the camera, 0 if it has none;
`noInfo2` and `mangle`: its hints `nocinfo2` and `wb_mangle`. -/
def getWb (ifd : Ifd) (off : Nat) (noInfo2 mangle : Bool) : R Wb :=
  match ifd.find 0x10a9 with
  | some e => do
    let l ← [off, off + 1, off + 2, off + 3].mapM e.getU32
    .ok (.levels l)
  | none =>
    let rest : R Wb :=
      match ifd.find 0x0032 with
      | some e =>
        if e.count = 768 then do
          let l ← [36, 37, 38, 39].mapM e.getForceU16
          .ok (.recips l)
        else do
          let k0 := if mangle then 0x410 else 0
          let k1 := if mangle then 0x45f3 else 0
          let a ← e.getForceU16 (off + 1)
          let b ← e.getForceU16 off
          let c ← e.getForceU16 off
          let d ← e.getForceU16 (off + 2)
          .ok (.levels [a ^^^ k1, b ^^^ k0, c ^^^ k0, d ^^^ k0])
      | none => .ok .none
    if noInfo2 then rest else
    match ifd.find 0x102c with
    | some e => do
      let x ← e.getU32 0
      let l ← (if x > 512 then [62, 63, 60, 61] else [51, 50, 53, 52]).mapM e.getU32
      .ok (.levels l)
    | none => rest

end Verif.Ciff
