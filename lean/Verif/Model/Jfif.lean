import Verif.Base
/-! # JPEG files with EXIF data, formats/jfif.rs

A reader is a file and a position in it; as in `std::io::Cursor`, a position may lie behind the end, and a failed read moves it to the end
(`Cursor::read_exact`). The TIFF reader (`IFD::new_root`, formats/tiff) is a parameter: from a position in the file it makes a directory
or fails. Positions are natural numbers (the code converts the position of an EXIF block to `u32`). -/

namespace Verif.Jfif
open Verif

/-- `Read::read_exact` of `n > 0` bytes at a position. -/
def read (file : List Nat) (pos n : Nat) : Option (List Nat) :=
  if pos + n ≤ file.length then some ((file.drop pos).take n) else none

/-- Big endian number: `read_u16::<BigEndian>`. -/
def be (l : List Nat) : Nat := l.foldl (fun a b => 256 * a + b) 0

/-- `struct App0`, jfif.rs:32-42. -/
structure App0 where
  len : Nat
  version : Nat
  units : Nat
  xdensity : Nat
  ydensity : Nat
  xthumbnail : Nat
  ythumbnail : Nat
  thumbnail : Option (List Nat)
  deriving Repr, DecidableEq

/-- `enum Payload`, jfif.rs:125-130. -/
inductive Payload (D : Type) where
  | exif (ifd : D)
  | xpacket (data : List Nat)
  | unknown
  deriving Repr, DecidableEq

/-- `struct App1`, jfif.rs:84-89. -/
structure App1 (D : Type) where
  len : Nat
  payload : Payload D
  deriving Repr, DecidableEq

/-- `enum Segment`, jfif.rs:196-204; `struct SOS` is its length. -/
inductive Segment (D : Type) where
  | soi (offset : Nat)
  | app0 (offset : Nat) (a : App0)
  | app1 (offset : Nat) (a : App1 D)
  | sos (offset len : Nat)
  | eoi
  | unknown (offset marker : Nat)
  deriving Repr, DecidableEq

/-- `b"JFIF\0"`, `b"Exif\0\0"` and `"http://ns.adobe.com/xap/1.0/\0"`, jfif.rs:49, 137, 169. -/
def jfifMark : List Nat := [74, 70, 73, 70, 0]
def exifMark : List Nat := [69, 120, 105, 102, 0, 0]
def xmpMark : List Nat :=
  [104, 116, 116, 112, 58, 47, 47, 110, 115, 46, 97, 100, 111, 98, 101, 46, 99, 111, 109, 47, 120, 97, 112, 47, 49, 46, 48, 47, 0]

/-- `?` after a read. -/
def must {α : Type} (o : Option α) : R α := match o with | some x => .ok x | none => fail'

/-- `App0::read_segment`, jfif.rs:44-82: the segment and the position behind what was read. The product of the two thumbnail sizes is
computed in eight bits. -/
def readApp0 (file : List Nat) (pos : Nat) : R (App0 × Nat) := do
  let len ← must (read file pos 2)
  if be len < 5 then fail' else do
  let mark ← must (read file (pos + 2) 5)
  if mark ≠ jfifMark then fail' else do
  let version ← must (read file (pos + 7) 2)
  let units ← must (read file (pos + 9) 1)
  let xd ← must (read file (pos + 10) 2)
  let yd ← must (read file (pos + 12) 2)
  let x ← must (read file (pos + 14) 1)
  let y ← must (read file (pos + 15) 1)
  assert' (be x * be y < 256)
  if be x * be y > 0 then do
    assert' (3 * be x * be y < 256)
    let data ← must (read file (pos + 16) (3 * be x * be y))
    .ok (⟨be len, be version, be units, be xd, be yd, be x, be y, some data⟩, pos + 16 + 3 * be x * be y)
  else .ok (⟨be len, be version, be units, be xd, be yd, be x, be y, none⟩, pos + 16)

/-- `App1::read_segment` from line 169 on, jfif.rs:169-193: XMP packets and unknown data. -/
def readXmp {D : Type} (file : List Nat) (pos len : Nat) : R (App1 D) × Nat :=
  if 29 ≤ len then
    match read file (pos + 2) 29 with
    | none => (fail', file.length)
    | some mark =>
      if mark = xmpMark then
        if len < 31 then (panic', pos + 31)
        else if len = 31 then (.ok ⟨len, .xpacket []⟩, pos + len)
        else match read file (pos + 31) (len - 31) with
          | none => (fail', file.length)
          | some x => (.ok ⟨len, .xpacket x⟩, pos + len)
      else (.ok ⟨len, .unknown⟩, pos + len)
  else (.ok ⟨len, .unknown⟩, pos + len)

/-- `App1::read_segment`, jfif.rs:132-194: the result, and where the reader stands afterwards, also after a failure. -/
def readApp1 {D : Type} (tiff : Nat → Option D) (file : List Nat) (pos : Nat) : R (App1 D) × Nat :=
  match read file pos 2 with
  | none => (fail', file.length)
  | some h =>
    let len := be h
    if 6 ≤ len then
      match read file (pos + 2) 6 with
      | none => (fail', file.length)
      | some mark =>
        if mark = exifMark then
          match tiff (pos + 8) with
          | some ifd => (.ok ⟨len, .exif ifd⟩, pos + len)
          | none => (fail', pos + len)
        else readXmp file pos len
    else readXmp file pos len

/-- The loop of `SOS::read_segment`, jfif.rs:96-117: the position it ends at; `none` when the file ends first. -/
def scan : List Nat → Nat → Nat → Option Nat
  | [], _, _ => none
  | v :: l, prev, p =>
    if prev = 0xFF ∧ v = 0xFF then scan l 0 (p + 1)
    else if prev = 0xFF ∧ v &&& 0xF8 = 0xD0 then scan l 0 (p + 1)
    else if prev = 0xFF ∧ v = 0 then scan l 0 (p + 1)
    else if prev = 0xFF then some (p + 1 - 2)
    else scan l v (p + 1)

/-- The variables of the loop of `Jfif::parse`: the position of the marker, the marker, the position of the reader and the segments. -/
structure St (D : Type) where
  pos : Nat
  sym : Nat
  cur : Nat
  segs : List (Segment D)
  deriving Repr, DecidableEq

/-- One turn of the loop ends the function or leads to the next one. -/
inductive Out (D : Type) where
  | next (st : St D)
  | done (r : R (List (Segment D)))

/-- The end of a turn, jfif.rs:246-254: `seg` was read up to position `cur`. -/
def push {D : Type} (file : List Nat) (st : St D) (seg : Segment D) (cur : Nat) : Out D :=
  if st.segs = [] ∧ st.sym ≠ 0xFFD8 then .done fail'
  else if st.sym = 0xFFD9 then .done (.ok (st.segs ++ [seg]))
  else match read file cur 2 with
    | some h => .next ⟨cur, be h, cur + 2, st.segs ++ [seg]⟩
    | none => .done (.ok (st.segs ++ [seg]))

/-- One turn of the loop of `Jfif::parse`, jfif.rs:217-255. When an `APP1` segment cannot be read, the code goes on with the same marker
from wherever the reader is now. -/
def step {D : Type} (tiff : Nat → Option D) (file : List Nat) (st : St D) : Out D :=
  if st.sym = 0xFFD8 then push file st (.soi st.pos) st.cur
  else if st.sym = 0xFFD9 then push file st .eoi st.cur
  else if st.sym = 0xFFE0 then
    match readApp0 file st.cur with
    | .ok (a, cur) => push file st (.app0 st.pos a) cur
    | .error e => .done (.error e)
  else if st.sym = 0xFFE1 then
    match readApp1 tiff file st.cur with
    | (.ok a, cur) => push file st (.app1 st.pos a) cur
    | (.error .fail, cur) => .next { st with cur := cur }
    | (.error .panic, _) => .done panic'
  else if st.sym = 0xFFDA then
    match scan (file.drop st.cur) 0 st.cur with
    | some cur => push file st (.sos st.pos (cur - st.cur)) cur
    | none => .done fail'
  else
    match read file st.cur 2 with
    | some h => push file st (.unknown st.pos st.sym) (st.cur + 2 + be h - 2)
    | none => .done fail'

/-- `n` turns of the loop: its result if it has ended by then. -/
def run {D : Type} (tiff : Nat → Option D) (file : List Nat) : Nat → St D → Option (R (List (Segment D)))
  | 0, _ => none
  | n + 1, st => match step tiff file st with
    | .next s => run tiff file n s
    | .done r => some r

/-- `Jfif::parse`, jfif.rs:212-261: its result if it takes at most `n` turns. (The list is never empty at the end.) -/
def parse {D : Type} (tiff : Nat → Option D) (file : List Nat) (n : Nat) : Option (R (List (Segment D))) :=
  match read file 0 2 with
  | some h => run tiff file n ⟨0, be h, 2, []⟩
  | none => some fail'

/-- `Jfif::exif_ifd`, jfif.rs:267-277. -/
def exifIfd {D : Type} (l : List (Segment D)) : Option D :=
  l.findSome? fun
    | .app1 _ ⟨_, .exif d⟩ => some d
    | _ => none

/-- `Jfif::xpacket`, jfif.rs:279-290. -/
def xpacket {D : Type} (l : List (Segment D)) : Option (List Nat) :=
  l.findSome? fun
    | .app1 _ ⟨_, .xpacket d⟩ => some d
    | _ => none

/-- `is_exif`, jfif.rs:310-318. -/
def isExif (file : List Nat) : Bool := read file 0 4 == some [0xFF, 0xD8, 0xFF, 0xE1]

/-- What `RawLoader::get_decoder` does with a file beginning like this, decoders/mod.rs:927-928: it parses it before anything else is
tried, with no bound on the number of turns. -/
def opens {D : Type} (tiff : Nat → Option D) (file : List Nat) : Prop := isExif file = true → ∃ n r, parse tiff file n = some r

end Verif.Jfif
