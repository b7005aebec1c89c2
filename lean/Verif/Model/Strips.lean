import Verif.Model.Packed
/-! # Uncompressed strips: `dng_put_raw_uncompressed` and `IFD::strip_data`

The file under construction is the list of bytes written so far, the write position is its end (`DngWriter` only appends while
image data is written). -/

namespace Verif.Strips
open Verif Verif.Packed

/-- `u16::to_le_bytes` -/
def le16 (v : Nat) : List Nat := [v % 256, v / 256 % 256]

/-- `TiffWriter::pad_word_boundary`, formats/tiff/writer.rs:115-122 -/
def padWord (file : List Nat) : List Nat :=
  if file.length % 4 ≠ 0 then file ++ [0, 0, 0].take (4 - file.length % 4) else file

/-- `TiffWriter::write_data_u16_le`, formats/tiff/writer.rs:91-101, with `position()` (`as u32`). Returns the file and the offset. -/
def writeU16le (file : List Nat) (data : List Nat) : List Nat × Nat :=
  let file := padWord file
  (file ++ data.flatMap le16, file.length % 2 ^ 32)

/-- The loop over the strips, dng/writer.rs:665-670: file, offsets, byte counts (`as u32`), rows (`as u32`). -/
def putStrips (lineWidth : Nat) : List (List Nat) → List Nat → List Nat × List Nat × List Nat × List Nat
  | [], file => (file, [], [], [])
  | strip :: strips, file =>
    let (file, off) := writeU16le file strip
    let (file, offs, sizes, rows) := putStrips lineWidth strips file
    (file, off :: offs, 2 * strip.length % 2 ^ 32 :: sizes, strip.length / lineWidth % 2 ^ 32 :: rows)

/-- Rows per strip, dng/writer.rs:657-661; `threshold` and `rows` are the two environment settings
(`RAWLER_DNG_MULTISTRIP_THRESHOLD`, `RAWLER_DNG_ROWS_PER_STRIP`, envparams.rs:28-50). -/
def rowsPerStrip (threshold rows : Option Nat) (height : Nat) : Nat :=
  if height > threshold.getD 100 then rows.getD 256 else height

/-- `dng_put_raw_uncompressed`, dng/writer.rs:649-690, 16 bit samples: new file, StripOffsets, StripByteCounts, RowsPerStrip.
`usize` products do not overflow. -/
def putUncompressed (threshold rows : Option Nat) (file : List Nat) (data : List Nat) (width height cpp : Nat) :
    R (List Nat × List Nat × List Nat × List Nat) := do
  let strips ← chunks data (rowsPerStrip threshold rows height * width * cpp)
  .ok (putStrips (width * cpp) strips file)

/-- `RawSource::subview`, rawsource.rs:74-79 -/
def subview (file : List Nat) (off size : Nat) : R (List Nat) :=
  if off + size ≤ file.length then .ok ((file.drop off).take size) else fail'

/-- `u32` addition, overflow panics -/
def add32 (a b : Nat) : R Nat := if a + b < 2 ^ 32 then .ok (a + b) else panic'

/-- The continuity check, formats/tiff/ifd.rs:531-537 -/
def continuity : Bool × Nat → List (Nat × Nat) → R (Bool × Nat)
  | acc, [] => .ok acc
  | acc, (o, s) :: r =>
    if acc.1 ∧ acc.2 = o then do
      let e ← add32 acc.2 s
      continuity (true, e) r
    else continuity (false, 0) r

/-- `IFD::strip_data`, formats/tiff/ifd.rs:507-551, given the two tags (type Long). -/
def stripData (base : Nat) (file offsets sizes : List Nat) : R (List (List Nat) × Option (List Nat)) := do
  if offsets.length ≠ sizes.length then fail' else do
  let first ← idx offsets 0
  let (cont, endOff) ← continuity (true, first) (offsets.zip sizes)
  let views ← (offsets.zip sizes).mapM fun (o, s) => do
    let a ← add32 base o
    subview file a s
  if cont then do
    let a ← add32 base first
    let len ← usub endOff first
    let v ← subview file a len
    .ok (views, some v)
  else .ok (views, none)

/-- Reading back: the tags are those written (`RowsPerStrip` read with index 0), `ImageWidth`, `ImageLength`,
`SamplesPerPixel` are the image's; 16 bits per sample, little-endian file; decoders/mod.rs:624, 721-751. `PackedDecompressor`
can skip rows (packed.rs:74-76). The crop to the image size that follows (decoders/mod.rs:654) keeps
everything. -/
def readUncompressed (base : Nat) (file offsets sizes rows : List Nat) (width height cpp : Nat) : R (List Nat) := do
  let (strips, cont) ← stripData base file offsets sizes
  decodeStrips (decompress .little 16) true strips cont width height cpp (rows.getD 0 0)

end Verif.Strips
