import Verif.Model.Packed
import Mathlib.Data.Rat.Defs
/-! # Kodak KDC files (rawler/src/decoders/kdc.rs)

A TIFF entry of numbers is the list of its values. The JPEG decoder of the `image` crate is a parameter. The lookup of the camera, its colours and levels,
and the DC50 (RADC coding) are not modelled. The `dummy` flag is `false`. -/

namespace Verif.Kdc
open Verif Verif.Packed

/-- `mul`, kdc.rs:188 -/
def mul : List Nat := [162, 192, 187, 92]

/-- `add`, kdc.rs:189 -/
def add : List Nat := [0, 636, 424, 212]

/-- One sample, kdc.rs:191-193 -/
def dc120Sample (src : List Nat) (width row col : Nat) : R Nat := do
  let m ← idx mul (row % 4)
  let a ← idx add (row % 4)
  let shift := row * m + a
  idx src (row * width + (col + shift) % 848)

/-- `decode_dc120`, kdc.rs:185-197 -/
def decodeDc120 (src : List Nat) (width height : Nat) : R (List Nat) := genRows height width (dc120Sample src width)

/-- A picture from the JPEG decoder; `samples` is `none` if they are not bytes (`as_flat_samples_u8`). -/
structure Jpeg where
  width : Nat
  height : Nat
  samples : Option (List Nat)

/-- `[x[1], x[0]]` -/
def swap (x : List Nat) : R (List Nat) := do
  let b ← idx x 1
  let a ← idx x 0
  .ok [b, a]

/-- `swapped_src`, kdc.rs:202 -/
def swapped (src : List Nat) : R (List Nat) := do
  let pairs ← chunksExact src 2
  let l ← pairs.mapM swap
  .ok l.flatten

/-- `*out.at_mut(row, col) = v` -/
def setAt (out : List Nat) (width row col v : Nat) : R (List Nat) := upd out (row * width + col) v

/-- Four samples from two pixels of the JPEG, kdc.rs:216-219 -/
def block (width row : Nat) (iline : List Nat) (col : Nat) (out : List Nat) : R (List Nat) := do
  let g0 ← idx iline (col * 3 + 1)
  let out ← setAt out width (row + 0) (col + 0) (g0 * 2)
  let g1 ← idx iline ((col + 1) * 3 + 1)
  let out ← setAt out width (row + 1) (col + 1) (g1 * 2)
  let r0 ← idx iline (col * 3 + 0)
  let r1 ← idx iline ((col + 1) * 3 + 0)
  let out ← setAt out width (row + 0) (col + 1) (r0 + r1)
  let b0 ← idx iline (col * 3 + 2)
  let b1 ← idx iline ((col + 1) * 3 + 2)
  setAt out width (row + 1) (col + 0) (b0 + b1)

/-- Two rows from a row of the JPEG, kdc.rs:212-220 -/
def blockRow (width : Nat) (jpeg : List Nat) (irow : Nat) (out : List Nat) : R (List Nat) := do
  let iline ← from' jpeg (irow * width * 3)
  forN ((width + 1) / 2) (fun k => block width (irow * 2) iline (2 * k)) out

/-- `decode_dc120_jpeg`, kdc.rs:199-224 -/
def decodeDc120Jpeg (load : List Nat → Option Jpeg) (src : List Nat) (width height : Nat) : R (List Nat) := do
  let s ← swapped src
  match load s with
  | none => fail'
  | some img => do
    assert' (decide (width = img.width))
    assert' (decide (height = img.height * 2))
    match img.samples with
    | none => fail'
    | some jpeg => forN img.height (blockRow width jpeg) (List.replicate (width * height) 0)

/-- `fetch_tiff_tag!` -/
def fetch {α : Type} (t : Option α) : R α :=
  match t with
  | some v => .ok v
  | none => fail'

/-- `force_usize(i)`, value.rs:443-457 -/
def force (v : List Nat) (i : Nat) : Nat := v.getD i 0

/-- `RawSource::subview_until_eof`, rawsource.rs:99-104 -/
def untilEof (file : List Nat) (off : Nat) : R (List Nat) := if off ≤ file.length then .ok (file.drop off) else fail'

/-- The tags of the first directory with a CFA pattern -/
structure CfaDir where
  stripOffsets : Option (List Nat)
  compression : Option (List Nat)

/-- `raw_image` for the DC120, kdc.rs:64-96: the image and its white level (`camWhite` is that of the camera description). -/
def dc120 (load : List Nat → Option Jpeg) (file : List Nat) (dir : Option CfaDir) (camWhite : Nat) : R (List Nat × Nat) := do
  let raw ← fetch dir
  let offs ← fetch raw.stripOffsets
  let src ← untilEof file (force offs 0)
  let comp ← fetch raw.compression
  if force comp 0 = 1 then do
    let img ← decodeDc120 src 848 976
    .ok (img, camWhite)
  else if force comp 0 = 7 then do
    let img ← decodeDc120Jpeg load src 848 976
    .ok (img, 0xff * 2)
  else fail'

/-- The tags of the first directory with the Kodak width -/
structure KdcDir where
  kdcWidth : Option (List Nat)
  kdcLength : Option (List Nat)
  kdcOffset : Option (List Nat)

/-- Where the data is, kdc.rs:129-137; `hack` is the hint `easyshare_offset_hack`. -/
def dataOffset (offset : List Nat) (hack : Bool) : Nat :=
  let off := force offset 4 + force offset 12
  if hack then (if off < 0x15000 then 0x15000 else 0x17000) else off

/-- `raw_image` for other cameras, kdc.rs:120-142, without `get_wb`: width, height and samples -/
def kdcImage (file : List Nat) (dir : Option KdcDir) (hack : Bool) : R (Nat × Nat × List Nat) := do
  let raw ← fetch dir
  let w ← fetch raw.kdcWidth
  let h ← fetch raw.kdcLength
  let offset ← fetch raw.kdcOffset
  if offset.length < 13 then fail' else do
  let src ← untilEof file (dataOffset offset hack)
  let image ← dec12be src (force w 0 + 80) (force h 0 + 70)
  .ok (force w 0 + 80, force h 0 + 70, image)

/-- The entry with the Kodak white balance: bytes, or values of another type -/
inductive Entry where
  | bytes (data : List Nat)
  | other (count : Nat)

/-- `count()` -/
def Entry.count : Entry → Nat
  | .bytes d => d.length
  | .other n => n

/-- `get_data()`, value.rs:431-441 -/
def Entry.data : Entry → R (List Nat)
  | .bytes d => .ok d
  | .other _ => panic'

/-- `BEu16` -/
def be16 (b : List Nat) (i : Nat) : R Nat := do
  let x ← idx b i
  let y ← idx b (i + 1)
  .ok (x * 256 + y)

/-- The maker note: the values of the tag KdcWB, as converted by `force_f32`, and the entry KodakWB -/
structure MakerNote where
  kdcWB : Option (List Rat)
  kodakWB : Option Entry

/-- `get_wb`, kdc.rs:163-187: the factors of red, green and blue, `none` for NaN. The divisions are exact in `f32`. -/
def getWb (note : Option MakerNote) : R (Option (Rat × Rat × Rat)) :=
  match note with
  | none => .ok none
  | some m =>
    match m.kdcWB with
    | some levels => if levels.length ≠ 3 then fail' else .ok (some (levels.getD 0 0, levels.getD 1 0, levels.getD 2 0))
    | none => do
      let levels ← fetch m.kodakWB
      if ¬ [734, 1502, 1512, 2288].contains levels.count then fail' else do
      let d ← levels.data
      let r ← be16 d 148
      let d ← levels.data
      let b ← be16 d 150
      .ok (some ((r : Rat) / 256, 1, (b : Rat) / 256))

end Verif.Kdc
