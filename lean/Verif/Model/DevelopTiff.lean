import Verif.Model.Exif
import Verif.Model.Develop
import Verif.Model.Strips
/-! # The TIFF file of a developed picture

rawler/src/imgop/develop.rs: `develop`; rawler/src/formats/tiff/writer.rs: `write_strips_lzw`. The LZW encoder (crate weezl) is a parameter. -/

namespace Verif.DevelopTiff
open Verif Verif.Tiff Verif.Spec Verif.Exif Verif.Develop Verif.Strips

/-- `convert_from_f32_scaled_u16(_, 0, u16::MAX)`, imgop/mod.rs:312-318, for one sample: the cast saturates. The rounding of the `f32` product and NaN are
not modelled. -/
def scale16 (p : ℚ) : Nat := min 65535 (p * 65535).floor.toNat

/-- `flatten` and the conversion, develop.rs:356, 372, 388: the samples of the picture, those of a pixel side by side -/
def samples : Inter → List Nat
  | .mono p => p.data.map scale16
  | .three p => (p.data.flatMap fun x => [x.1, x.2.1, x.2.2]).map scale16
  | .four p => (p.data.flatMap fun x => [x.1, x.2.1, x.2.2.1, x.2.2.2]).map scale16

/-- Samples per pixel, develop.rs:357, 373, 389 -/
def channels : Inter → Nat
  | .mono _ => 1
  | .three _ => 3
  | .four _ => 4

/-- `PhotometricInt`, develop.rs:366, 382, 398: black is zero, or RGB -/
def photometric : Inter → Nat
  | .mono _ => 1
  | .three _ => 2
  | .four _ => 2

/-- Lines per strip, writer.rs:56-62 -/
def stripLines (h lines : Nat) : Nat := if lines = 0 then (if h > 256 then 256 else h) else lines

/-- The loop over the compressed strips, writer.rs:73-77: offset and length (`as u32`) of each -/
def putBlocks (t : Writer) : List (List Nat) → Writer × List (Nat × Nat)
  | [] => (t, [])
  | b :: bs =>
    let (t, off) := t.writeData b
    let (t, r) := putBlocks t bs
    (t, (off, b.length % 2 ^ 32) :: r)

/-- `write_strips_lzw`, writer.rs:55-79. `dim.h / strip_lines` (writer.rs:63) and `par_chunks` panic at zero; the bytes of a sample are those of a little
endian machine (`as_bytes`). The strips are compressed in parallel, each for itself, and collected in order. `usize` products do not overflow. -/
def writeStripsLzw (lzw : List Nat → List Nat) (t : Writer) (data : List Nat) (cpp w h lines : Nat) : R (Writer × Nat × List (Nat × Nat)) := do
  assert' (stripLines h lines != 0)
  let strips ← chunks data (cpp * w * stripLines h lines)
  let (t, tags) := putBlocks t (strips.map fun s => lzw (s.flatMap le16))
  .ok (t, stripLines h lines % 2 ^ 32, tags)

/-- The EXIF directory, develop.rs:342-345, writer.rs:292-336 -/
def exifDirOps (e : Exif) : List DirOp := .add 0x9000 (.undefined [48, 50, 50, 48]) :: (exifTags e).flatMap transfer

/-- The tags of the image data, develop.rs:360-369, 376-385, 392-401. An untyped `5` or `1` is an `i32`. The dimensions are cut to 16 bits. -/
def imageTags (i : Inter) (rows : Nat) (strips : List (Nat × Nat)) : List DirOp :=
  [.add 0x0103 (.slong [5]), .add 0x013d (.slong [1]), .add 0x0111 (.long (strips.map (·.1))), .add 0x0117 (.long (strips.map (·.2))),
   .add 0x0102 (.short (List.replicate (channels i) 16)), .add 0x0115 (.short [channels i]),
   .add 0x0106 (.short [photometric i]), .add 0x0116 (.long [rows]),
   .add 0x0100 (.short [i.dim.1 % 2 ^ 16]), .add 0x0101 (.short [i.dim.2 % 2 ^ 16])]

/-- The root directory: `fill_exif_root` (writer.rs:342-386), then develop.rs:346-347, 351-352 and the tags of the image -/
def rootOps (e : Exif) (make model : List Nat) (orientation : Nat) (gps : List DirOp) (exifOffset : Nat) (image : List DirOp) : List DirOp :=
  (rootTags e).flatMap transfer ++ gps ++ [.add 0x010f (text make), .add 0x0110 (text model), .add 0x8769 (.long [exifOffset]),
    .add 0x0112 (.short [orientation])] ++ image

/-- `develop`, develop.rs:332-408, after `develop_intermediate`: the finished file -/
def developTiff (lzw : List Nat → List Nat) (i : Inter) (e : Exif) (make model : List Nat) (orientation : Nat) : R (List Nat) := do
  let t := Writer.new { data := [], pos := 0 }
  let (t, gps) ← (if entriesOf (gpsOps e) = [] then .ok (t, []) else do
    let (t, off) ← t.buildDir (entriesOf (gpsOps e))
    .ok (t, [.add 0x8825 (.long [off])]) : R (Writer × List DirOp))
  let (t, off) ← t.buildDir (entriesOf (exifDirOps e))
  let (t, rows, strips) ← writeStripsLzw lzw t (samples i) (channels i) i.dim.1 i.dim.2 0
  t.build (entriesOf (rootOps e make model orientation gps off (imageTags i rows strips)))

end Verif.DevelopTiff
