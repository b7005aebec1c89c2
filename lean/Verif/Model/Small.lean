import Verif.Model.Packed
import Verif.Model.Linearize
import Verif.Model.Kdc
/-! # Small raw formats: ARRI (decoders/ari.rs), Epson ERF (decoders/erf.rs), Mamiya MEF (decoders/mef.rs), Kodak DCS (decoders/dcs.rs) and files without a
header (decoders/nkd.rs)

A TIFF entry of numbers is the list of its values, as in `Model/Kdc`. The lookup of the camera is not modelled; its hints and sizes are parameters. Numbers of
type `f32` in a file are their 32 bits. The `dummy` flag is `false`. -/

namespace Verif.Small
open Verif Verif.Packed Verif.Kdc

/-- `RawSource::subview`, rawsource.rs:74-79, for constant places -/
def subview (file : List Nat) (off size : Nat) : R (List Nat) := if off + size ≤ file.length then .ok ((file.drop off).take size) else fail'

/-- `RawSource::subview_until_eof_padded`, rawsource.rs:106-118; the slice of the `PaddedBuf` has the 16 bytes at the end, buffer.rs:42-51. -/
def untilEofPadded (file : List Nat) (off : Nat) : R (List Nat) := if off < file.length then .ok (file.drop off ++ List.replicate 16 0) else fail'

/-- `LEu32`, and the bits of `LEf32` -/
def le32 (b : List Nat) (i : Nat) : R Nat := do
  let b0 ← idx b i
  let b1 ← idx b (i + 1)
  let b2 ← idx b (i + 2)
  let b3 ← idx b (i + 3)
  .ok (b0 + b1 * 256 + b2 * 65536 + b3 * 16777216)

/-- A picture -/
structure Pic where
  width : Nat
  height : Nat
  data : List Nat
  deriving DecidableEq

/-- `get_wb` of ARRI, ari.rs:86-89 -/
def ariWb (file : List Nat) : R (Nat × Nat × Nat) := do
  let buffer ← subview file 0 (100 + 12)
  let r ← le32 buffer 100
  let g ← le32 buffer 104
  let b ← le32 buffer 108
  .ok (r, g, b)

/-- `raw_image` of ARRI, ari.rs:42-58; `le` is the hint `little-endian`. -/
def ariImage (le : Bool) (file : List Nat) : R (Pic × (Nat × Nat × Nat)) := do
  let buffer ← subview file 0 100
  let offset ← le32 buffer 0x0008
  let width ← le32 buffer 0x0014
  let height ← le32 buffer 0x0018
  let src ← untilEofPadded file offset
  let image ← if le then dec12le src width height else dec12beMsb32 src width height
  let wb ← ariWb file
  .ok (⟨width, height, image⟩, wb)

/-- The model name of ARRI, ari.rs:34-35, for names in ASCII -/
def ariModel (file : List Nat) : R (List Nat) := do
  let buffer ← subview file 668 30
  .ok (buffer.takeWhile (· ≠ 0))

/-- Metadata of ARRI: exposure index, exposure time in microseconds, focal length in micrometers and the name of the lens -/
structure AriMeta where
  exposureIndex : Nat
  exposureTime : Nat
  focalLength : Nat
  lens : List Nat
  deriving DecidableEq

/-- `raw_metadata` of ARRI, ari.rs:63-79. The denominators 1000000 and 1000 are left out, and so is the removal of blanks around the name. -/
def ariMeta (file : List Nat) : R AriMeta := do
  let buffer ← subview file 0 0x0a98
  let idx ← le32 buffer 0x0074
  let lens ← slice buffer 0x0398 (0x0398 + 32)
  let time ← le32 buffer 0x018c
  let focal ← le32 buffer 0x037c
  .ok ⟨idx, time, focal, lens.takeWhile (· ≠ 0)⟩

/-- The tags of the directory with the picture -/
structure Dir where
  width : Option (List Nat)
  length : Option (List Nat)
  stripOffsets : Option (List Nat)

/-- `get_wb` of ERF, erf.rs:95-104: the factors of red and blue. `f32` is rational. -/
def erfWb (epsonWB : Option Entry) : R (Rat × Rat) := do
  let levels ← fetch epsonWB
  if levels.count ≠ 256 then fail' else do
  let d ← levels.data
  let r ← be16 d 48
  let d ← levels.data
  let b ← be16 d 50
  .ok ((r : Rat) * 508 * (1078 / 1000) / 65536, (b : Rat) * 382 * (1173 / 1000) / 65536)

/-- `get_blacklevel` of ERF, erf.rs:106-112; `force_u16` gives 0 for missing values. -/
def erfBlack (entry : Option (List Nat)) : Option (List Nat) := entry.map fun l => [force l 0, force l 1, force l 2, force l 3]

/-- `raw_image` of ERF, erf.rs:60-77 -/
def erfImage (file : List Nat) (dir : Option Dir) (black : Option (List Nat)) (epsonWB : Option Entry) : R (Pic × Option (List Nat) × (Rat × Rat)) := do
  let raw ← fetch dir
  let w ← fetch raw.width
  let h ← fetch raw.length
  let o ← fetch raw.stripOffsets
  let src ← untilEof file (force o 0)
  let image ← dec12beWcontrol src (force w 0) (force h 0)
  let wb ← erfWb epsonWB
  .ok (⟨force w 0, force h 0, image⟩, erfBlack black, wb)

/-- `raw_image` of MEF, mef.rs:36-49 -/
def mefImage (file : List Nat) (dir : Option Dir) : R Pic := do
  let raw ← fetch dir
  let w ← fetch raw.width
  let h ← fetch raw.length
  let o ← fetch raw.stripOffsets
  let src ← untilEof file (force o 0)
  let image ← dec12be src (force w 0) (force h 0)
  .ok ⟨force w 0, force h 0, image⟩

/-- The table of DCS, dcs.rs:50-54 -/
def dcsTable (gray : List Nat) : List Nat := (List.range 256).map fun i => force gray i % 65536

/-- `raw_image` of DCS, dcs.rs:38-60 -/
def dcsImage (file : List Nat) (dir : Option Dir) (gray : Option (List Nat)) : R Pic := do
  let raw ← fetch dir
  let w ← fetch raw.width
  let h ← fetch raw.length
  let o ← fetch raw.stripOffsets
  let src ← untilEofPadded file (force o 0)
  let g ← fetch gray
  let table ← Linearize.new (dcsTable g)
  let image ← Linearize.decompress8bitWtable src table (force w 0) (force h 0)
  .ok ⟨force w 0, force h 0, image⟩

/-- `raw_image` of files without a header, nkd.rs:23-43; `aligned` is the hint `12le_16bitaligned`, the size and the file size are those of the camera. -/
def nakedImage (file : List Nat) (width height filesize : Nat) (aligned : Bool) : R Pic :=
  if width = 0 ∨ height = 0 then panic' else do
  let bits := filesize * 8 / width / height
  let image ←
    if aligned then dec12le16 file width height
    else if bits = 10 then dec10leLsb16 file width height
    else if bits = 12 then dec12beMsb16 file width height
    else fail'
  .ok ⟨width, height, image⟩

end Verif.Small
