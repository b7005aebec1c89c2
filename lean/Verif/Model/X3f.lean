import Verif.Model.Small
/-! # Foveon X3F files (decoders/x3f.rs)

The bytes of a name are kept instead of a string: `from_utf8_lossy` gives `IMA2` for no other bytes. The EXIF reader and the lookup of the camera are one parameter. -/

namespace Verif.X3f
open Verif

/-- `&buf[offset..]` -/
def from' (b : List Nat) (off : Nat) : R (List Nat) := if off ≤ b.length then .ok (b.drop off) else panic'

/-- `&buf[a..a + n]` -/
def slice (b : List Nat) (a n : Nat) : R (List Nat) := if a + n ≤ b.length then .ok ((b.drop a).take n) else panic'

/-- `is_x3f`, x3f.rs:6-11 -/
def isX3f (file : List Nat) : Bool :=
  match Small.subview file 0 4 with
  | .ok b => b == [0x46, 0x4f, 0x56, 0x62]
  | .error _ => false

/-- `X3fDirectory`, x3f.rs:20-26 -/
structure Dir where
  offset : Nat
  len : Nat
  id : List Nat
  deriving DecidableEq, Repr

/-- `X3fImage`, x3f.rs:28-37 -/
structure Image where
  typ : Nat
  format : Nat
  width : Nat
  height : Nat
  pitch : Nat
  doffset : Nat
  deriving DecidableEq, Repr

/-- `X3fDirectory::new`, x3f.rs:64-71 -/
def readDir (buf : List Nat) (offset : Nat) : R Dir := do
  let data ← from' buf offset
  let off ← Small.le32 data 0
  let len ← Small.le32 data 4
  let name ← slice data 8 4
  .ok ⟨off, len, name⟩

/-- `X3fImage::new`, x3f.rs:75-86 -/
def readImage (buf : List Nat) (offset : Nat) : R Image := do
  let data ← from' buf offset
  let typ ← Small.le32 data 8
  let format ← Small.le32 data 12
  let width ← Small.le32 data 16
  let height ← Small.le32 data 20
  let pitch ← Small.le32 data 24
  .ok ⟨typ, format, width, height, pitch, offset + 28⟩

/-- One turn of the loop, x3f.rs:52-57 -/
def entry (buf data : List Nat) (i : Nat) (st : List Dir × List Image) : R (List Dir × List Image) := do
  let dir ← readDir data (12 + i * 12)
  let images ← (if dir.id = [0x49, 0x4d, 0x41, 0x32] then do
      let img ← readImage buf dir.offset
      .ok (st.2 ++ [img])
    else .ok st.2 : R (List Image))
  .ok (st.1 ++ [dir], images)

/-- `X3fFile::new`, x3f.rs:40-61 -/
def open' (buf : List Nat) : R (List Dir × List Image) := do
  let p ← usub buf.length 4
  let offset ← Small.le32 buf p
  let data ← from' buf offset
  let version ← Small.le32 data 4
  if version < 0x20000 then fail' else do
  let entries ← Small.le32 data 8
  forN entries (entry buf data) ([], [])

/-- `raw_image`, x3f.rs:105-132; `camera` reads the EXIF data and looks up the camera. -/
def rawImage {α β : Type} (camera : List Nat → Nat → R α) (buf : List Nat) (images : List Image) : R β := do
  let info ← (match images.find? fun i => i.typ == 2 && i.format == 0x12 with
    | some i => .ok i
    | none => fail' : R Image)
  let data ← from' buf (info.doffset + 6)
  let b ← slice data 0 4
  if b ≠ [0x45, 0x78, 0x69, 0x66] then fail' else do
  let _ ← camera buf (info.doffset + 12)
  let img ← (match images.find? fun i => i.typ == 1 || i.typ == 3 with
    | some i => .ok i
    | none => fail' : R Image)
  let _ ← from' buf img.doffset
  if img.format = 35 then fail' else fail'

end Verif.X3f
