import Verif.Model.Cr2
/-! # Sony ARW files with lossless JPEG tiles (rawler/src/decoders/arw.rs: `decode_ljpeg`)

The whole file is the list `buffer`. Tags are parameters. `decompress_strips_fn` runs its closure in parallel on disjoint pieces of the
image; here one after the other. `usize` overflow is not modelled, except `- 1`. -/

namespace Verif.ArwLjpeg
open Verif Verif.Ljpeg

/-- What `decode_ljpeg` takes from the tags, arw.rs:493-501. -/
structure Tags where
  offsets : List Nat
  width : Nat
  height : Nat
  twidth : Nat
  tlength : Nat
  cpp : Nat

/-- `(n - 1) / t + 1`, arw.rs:499-500 -/
def tiles (n t : Nat) : R Nat := do
  let a ← usub n 1
  if t = 0 then panic' else .ok (a / t + 1)

/-- `&buffer[offset..]` -/
def from' (buffer : List Nat) (offset : Nat) : R (List Nat) := if offset ≤ buffer.length then .ok (buffer.drop offset) else panic'

/-- One packed line into two lines, arw.rs:570-577; the strip begins at `base`, the tile at column `x`. -/
def unpackLine (width x base : Nat) (data : List Nat) (line : Nat) (lines : List Nat) : R (List Nat) :=
  forN 256 (fun i lines => do
    let c0 ← idx data (line * 1024 + 4 * i)
    let lines ← upd lines (base + (x + i * 2)) c0
    let c1 ← idx data (line * 1024 + 4 * i + 1)
    let lines ← upd lines (base + (x + i * 2 + 1)) c1
    let c2 ← idx data (line * 1024 + 4 * i + 2)
    let lines ← upd lines (base + (width + x + i * 2)) c2
    let c3 ← idx data (line * 1024 + 4 * i + 3)
    upd lines (base + (width + x + i * 2 + 1)) c3) lines

/-- The tile at column `x` of a strip, arw.rs:568-580; `data` has 256 lines of 1024 samples. `&mut strip[width * 2..]` panics when
less is left. -/
def unpackTile (width x : Nat) (data lines : List Nat) : R (List Nat) :=
  forN 256 (fun line lines => do
    let lines ← unpackLine width x (line * (2 * width)) data line lines
    assert' ((line + 1) * (2 * width) ≤ lines.length)
    .ok lines) lines

/-- The closure for one sample per pixel, arw.rs:554-583. -/
def strip1 (t : Tags) (buffer : List Nat) (coltiles row : Nat) (lines : List Nat) : R (List Nat) :=
  forN coltiles (fun col lines => do
    let offset ← idx t.offsets (row * coltiles + col)
    let src ← from' buffer offset
    let d ← Dec.newFull src false false
    let data ← d.decode (List.replicate (256 * 256 * 4) 0) 0 1024 1024 256
    unpackTile t.width (col * t.twidth) data lines) lines

/-- The lines of a tile with three samples per pixel, arw.rs:535-541. -/
def copyTile (width x : Nat) (data lines : List Nat) : R (List Nat) :=
  forN 512 (fun line lines => do
    let lines ← Cr2.copyIn lines (line * (width * 3) + x) data (line * 1536) 1536
    assert' ((line + 1) * (width * 3) ≤ lines.length)
    .ok lines) lines

/-- The closure for three samples per pixel, arw.rs:516-544; `interpolate_yuv` of imgop/yuv.rs:34-74 is the same as that of cr2.rs. -/
def strip3 (t : Tags) (buffer : List Nat) (coltiles row : Nat) (lines : List Nat) : R (List Nat) :=
  forN coltiles (fun col lines => do
    let offset ← idx t.offsets (row * coltiles + col)
    let src ← from' buffer offset
    let d ← Dec.newFull src false false
    let data ← d.decodeSony (List.replicate (512 * 512 * 3) 0) 0 1536 1536 512
    let (sh, sv) ← Cr2.supers d
    let data ← Cr2.interpolateYuv sh sv 1536 data
    copyTile t.width (col * t.twidth * 3) data lines) lines

/-- `decompress_strips_fn`, decompressors/mod.rs:210-222 -/
def stripsFn (width height stripsize : Nat) (closure : Nat → List Nat → R (List Nat)) : R (List Nat) := do
  let cs ← chunks (List.replicate (width * height) 0) (width * stripsize)
  let cs ← (List.range cs.length).mapM fun i => do
    let c ← idx cs i
    closure i c
  .ok cs.flatten

/-- `decode_ljpeg`, arw.rs:492-592, up to the conversion to RGB in floating point (`ycbcr_to_rgb`, imgop/yuv.rs:10-31), which is
the parameter `rgb`. `row / tlength` is the number of the strip. -/
def decodeArw (t : Tags) (rgb : List Nat → List Nat) (buffer : List Nat) : R (List Nat) := do
  let coltiles ← tiles t.width t.twidth
  let rowtiles ← tiles t.height t.tlength
  if coltiles * rowtiles ≠ t.offsets.length then fail' else
  if t.cpp = 3 then do
    let image ← stripsFn (t.width * 3) t.height t.tlength (strip3 t buffer coltiles)
    .ok (rgb image)
  else if t.cpp = 1 then stripsFn t.width t.height t.tlength (strip1 t buffer coltiles)
  else fail'

end Verif.ArwLjpeg
