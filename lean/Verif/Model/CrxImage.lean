import Verif.Model.CrxLine

/-!
# Model of the CR3 (CRX) image decoder

`rawler/src/decompressors/crx/mdat.rs` (header), `mod.rs` (codec parameters, tile layout) and
`decoder.rs` (planes, conversion to samples, assembly of the mosaic) for images without wavelet
levels (lossless CR3). Not modelled: wavelet levels, tiles with quantization data (both end in
`Unmodelled`, here `panic'`), and the order in which the parallel plane decoders run: the planes do not
share state, the model decodes them in order.
-/

namespace Verif.Crx

/-! ## mdat.rs: the header -/

/-- `ReadBytesExt::read_u16::<BigEndian>` on the unread bytes; too few bytes are an `Err`. -/
def u16be : List Nat → R (Nat × List Nat)
  | a :: b :: r => .ok (a * 256 + b, r)
  | _ => fail'

/-- `read_u32::<BigEndian>` -/
def u32be : List Nat → R (Nat × List Nat)
  | a :: b :: c :: d :: r => .ok (((a * 256 + b) * 256 + c) * 256 + d, r)
  | _ => fail'

/-- mdat.rs:194-243 `Subband`, the fields used without wavelets -/
structure Sub where
  subbandSize : Nat
  dataOffset : Nat
  dataSize : Nat
  width : Nat
  height : Nat
  deriving DecidableEq, Repr

/-- mdat.rs:131-149 `Plane` -/
structure Plane where
  planeSize : Nat
  supportPartial : Bool
  mask : Nat
  dataOffset : Nat
  subbands : List Sub
  deriving DecidableEq, Repr

/-- mdat.rs:13-38 `Tile` -/
structure Tile where
  id : Nat
  tileSize : Nat
  /-- `qp_data`: `mdat_qp_data_size`, `mdat_extra_size` -/
  qp : Option (Nat × Nat)
  dataOffset : Nat
  tileWidth : Nat
  tileHeight : Nat
  planeWidth : Nat
  planeHeight : Nat
  planes : List Plane
  deriving DecidableEq, Repr

/-- mdat.rs:44-60: the optional part of the tile record -/
def tileQp (size : Nat) (h : List Nat) : R (Option (Nat × Nat) × List Nat) :=
  if size = 16 then do
    let (qs, h) ← u32be h
    let (es, h) ← u16be h
    let (term, h) ← u16be h
    assert' (term = 0)
    .ok (some (qs, es), h)
  else .ok (none, h)

/-- mdat.rs:41-84 `Tile::new` -/
def newTile (id : Nat) (h : List Nat) (offset : Nat) : R (Tile × List Nat) := do
  let (size, h) ← u16be h
  let (tileSize, h) ← u32be h
  let (flags, h) ← u32be h
  let (qp, h) ← tileQp size h
  assert' ((size = 8 ∧ flags &&& 0xffff = 0) ∨ (size = 16 ∧ flags &&& 0xffff = 0x4000))
  .ok ({ id, tileSize, qp, dataOffset := offset, tileWidth := 0, tileHeight := 0, planeWidth := 0, planeHeight := 0, planes := [] }, h)

/-- mdat.rs:152-181 `Plane::new` -/
def newPlane (h : List Nat) (offset : Nat) : R (Plane × List Nat) := do
  let (_, h) ← u16be h
  let (planeSize, h) ← u32be h
  let (flags, h) ← u32be h
  assert' (flags &&& 0x00ffffff = 0)
  let m := (flags >>> 25) &&& 3
  .ok ({ planeSize, supportPartial := decide (flags &&& 0x8000000 ≠ 0), mask := if m ≠ 0 then 1 <<< (m - 1) else 0, dataOffset := offset,
         subbands := [] }, h)

/-- mdat.rs:250-277: record 0xFF03 after its `subband_size` -/
def sub03 (size offset : Nat) (h : List Nat) : R (Sub × List Nat) := do
  let (flags, h) ← u32be h
  let dataSize ← usub size (flags &&& 0x7ffff)
  .ok ({ subbandSize := size, dataOffset := offset, dataSize, width := 0, height := 0 }, h)

/-- mdat.rs:278-309: record 0xFF13 after its `subband_size` -/
def sub13 (size offset : Nat) (h : List Nat) : R (Sub × List Nat) := do
  let (_, h) ← u16be h
  let (_, h) ← u16be h
  let (_, h) ← u32be h
  let (unused, h) ← u16be h
  let (mark, h) ← u16be h
  assert' (mark = 0)
  let dataSize ← usub size unused
  .ok ({ subbandSize := size, dataOffset := offset, dataSize, width := 0, height := 0 }, h)

/-- mdat.rs:246-312 `Subband::new`; `ind` is 0xff03 or 0xff13 -/
def newSub (ind : Nat) (h : List Nat) (offset : Nat) : R (Sub × List Nat) := do
  let (size, h) ← u16be h
  assert' ((size = 8 ∧ ind = 0xff03) ∨ (size = 16 ∧ ind = 0xff13))
  let (subSize, h) ← u32be h
  if ind = 0xff03 then sub03 subSize offset h else sub13 subSize offset h

/-- mdat.rs:402: `next_indicator(..).unwrap_or(0x0000)`; a failed read at the end of the data leaves nothing to read (a single byte
left over is consumed or not; the header ends either way). -/
def indOrZero : List Nat → Nat × List Nat
  | a :: b :: r => (a * 256 + b, r)
  | _ => (0, [])

/-- mdat.rs:392-409: the records of one plane. `fuel` bounds the iterations, every one consumes bytes. -/
def subLoop : Nat → Nat → List Nat → Nat → List Sub → R (List Sub × Nat × List Nat)
  | 0, _, _, _, _ => panic'
  | fuel + 1, ind, h, offset, acc =>
    if ind = 0xff03 ∨ ind = 0xff13 then do
      let (s, h) ← newSub ind h offset
      subLoop fuel (indOrZero h).1 (indOrZero h).2 (offset + s.subbandSize) (acc ++ [s])
    else .ok (acc, ind, h)

/-- mdat.rs:386-418: the planes of one tile -/
def planeLoop : Nat → Nat → List Nat → Nat → List Plane → R (List Plane × Nat × List Nat)
  | 0, _, _, _, _ => panic'
  | fuel + 1, ind, h, offset, acc =>
    if ind = 0xff02 ∨ ind = 0xff12 then do
      let (p, h) ← newPlane h offset
      let (ind, h) ← u16be h
      let (subs, ind, h) ← subLoop (h.length + 1) ind h 0 []
      planeLoop fuel ind h (offset + p.planeSize) (acc ++ [{ p with subbands := subs }])
    else .ok (acc, ind, h)

/-- mdat.rs:380-434: the tiles -/
def tileLoop : Nat → Nat → List Nat → Nat → List Tile → R (List Tile)
  | 0, _, _, _, _ => panic'
  | fuel + 1, ind, h, offset, acc =>
    if ind = 0xff01 ∨ ind = 0xff11 then do
      let (t, h) ← newTile acc.length h offset
      let (ind, h) ← u16be h
      let (planes, ind, h) ← planeLoop (h.length + 1) ind h 0 []
      tileLoop fuel ind h (offset + t.tileSize) (acc ++ [{ t with planes }])
    else if ind = 0 then .ok acc
    else fail'

/-- mdat.rs:371-437 `parse_header` -/
def parseHeader (hdr : List Nat) : R (List Tile) := do
  let (ind, h) ← u16be hdr
  tileLoop (hdr.length + 1) ind h 0 []

/-! ## mod.rs: parameters and layout -/

/-- bmff/ext_cr3/cmp1.rs `Cmp1Box`, the fields the decoder uses -/
structure Cmp1 where
  fWidth : Nat
  fHeight : Nat
  tileWidth : Nat
  tileHeight : Nat
  nBits : Nat
  nPlanes : Nat
  encType : Nat
  imageLevels : Nat
  mdatHdrSize : Nat
  medianBits : Nat
  deriving DecidableEq, Repr

/-- mod.rs:86-109 `CodecParams`, the fields used -/
structure Codec where
  imageWidth : Nat
  imageHeight : Nat
  levels : Nat
  medianBits : Nat
  encType : Nat
  tileCols : Nat
  tileRows : Nat
  tileWidth : Nat
  tileHeight : Nat
  hdrSize : Nat
  deriving DecidableEq, Repr

/-- `u32::div_ceil`: panics for a zero divisor -/
def divCeil (a b : Nat) : R Nat := if b = 0 then panic' else .ok ((a + b - 1) / b)

/-- mod.rs:137-189 `CodecParams::new`. The index `4 * enc_type + 2` into a table of 16 panics from `enc_type` 4 on; the sums of `u8`
(`n_bits + .. + 1`, `3 * levels + 1`) panic above 255. -/
def newCodec (c : Cmp1) : R Codec :=
  if c.nPlanes ≠ 4 then fail'
  else do
    let cols ← divCeil c.fWidth c.tileWidth
    let rows ← divCeil c.fHeight c.tileHeight
    assert' (0 < cols)
    assert' (0 < rows)
    assert' (4 * c.encType + 2 < 16)
    assert' (c.nBits + [0, 0, 0, 0, 0, 0, 0, 0, 0, 1, 1, 0, 0, 0, 1, 0].getD (4 * c.encType + 2) 0 + 1 < 256)
    assert' (3 * c.imageLevels + 1 < 256)
    if 0xff < cols then fail'
    else if 0xff < rows then fail'
    else .ok { imageWidth := c.fWidth, imageHeight := c.fHeight, levels := c.imageLevels, medianBits := c.medianBits, encType := c.encType,
               tileCols := cols, tileRows := rows, tileWidth := c.tileWidth, tileHeight := c.tileHeight, hdrSize := c.mdatHdrSize }

/-- mod.rs:196-218: width of a tile (the flags `tiles_left`, `tiles_right` are only used with wavelets) -/
def tileWidthOf (c : Codec) (id : Nat) : R Nat :=
  if (id + 1) % c.tileCols ≠ 0 then .ok c.tileWidth else usub c.imageWidth (c.tileWidth * (c.tileCols - 1))

/-- mod.rs:219-235: height of a tile -/
def tileHeightOf (c : Codec) (count id : Nat) : R Nat := do
  let d ← usub count c.tileCols
  if id < d then .ok c.tileHeight else usub c.imageHeight (c.tileHeight * (c.tileRows - 1))

/-- mod.rs:271-278, 333-340 `process_subbands` without levels: the only band has the size of the plane -/
def processSubbands (t : Tile) : R Tile := do
  let planes ← t.planes.mapM fun p => match p.subbands with
    | [] => panic'
    | b :: bs => .ok { p with subbands := { b with width := t.planeWidth, height := t.planeHeight } :: bs }
  .ok { t with planes }

/-- mod.rs:244-256: the consistency checks of a plane -/
def checkPlane (p : Plane) : R Unit := do
  p.subbands.forM fun b => do
    assert' (b.subbandSize ≠ 0)
    assert' (b.subbandSize % 8 = 0)
  assert' (p.planeSize = (p.subbands.map (·.subbandSize)).sum)

/-- mod.rs:237-262: the consistency checks of a tile -/
def checkTile (t : Tile) : R Unit := do
  t.planes.forM checkPlane
  let net ← usub t.tileSize (match t.qp with | some (q, e) => q + e | none => 0)
  assert' (net = (t.planes.map (·.planeSize)).sum)

/-- mod.rs:192-263 `process_tiles` (`plane_count` is 4) -/
def processTiles (c : Codec) (tiles : List Tile) : R (List Tile) := do
  let sized ← tiles.mapM fun t => do
    let w ← tileWidthOf c t.id
    let h ← tileHeightOf c tiles.length t.id
    .ok { t with tileWidth := w, planeWidth := w >>> 1, tileHeight := h, planeHeight := h >>> 1 }
  sized.mapM fun t => do
    assert' (c.levels = 0)
    let t ← processSubbands t
    checkTile t
    .ok t

/-! ## decoder.rs: planes -/

/-- `&data[a..a + n]` -/
def slice (data : List Nat) (a n : Nat) : R (List Nat) :=
  if a + n ≤ data.length then .ok ((data.drop a).take n) else panic'

/-- decoder.rs:36-97 `PlaneLineIter::new` without levels, and decoder.rs:100-128, 154-159: decode all lines of a plane.
`debug_assert_eq!(subbands.len(), 1)` and the width assertions are kept. -/
def decodePlane (t : Tile) (data : List Nat) (p : Plane) : R (List (List Int)) := do
  assert' (0 < t.planeHeight)
  assert' (0 < t.planeWidth)
  let extra ← match t.qp with
    | none => .ok 0
    | some _ => panic'
  match p.subbands with
  | [b] => do
    let buf ← slice data (t.dataOffset + extra + p.dataOffset + b.dataOffset) b.dataSize
    assert' (b.width = t.planeWidth)
    decodeLines t.planeHeight
      { newBand b.width b.height p.supportPartial (bytesMSB buf) with mask := if p.supportPartial then p.mask else 0 }
  | _ => panic'

/-! ## decoder.rs: conversion to samples -/

/-- decoder.rs:625-626 `constrain` -/
def constrain (v lo hi : Int) : Int := min (max v lo) hi

/-- decoder.rs:676-677: `1 << (median_bits - 1)` and `(1 << median_bits) - 1` as `i32` (panics for 0 bits, from 32 bits on, and where the
subtraction overflows: at 31 bits `1 << 31` is the smallest `i32`). -/
def medianMax (bits : Nat) : R (Int × Int) := do
  assert' (1 ≤ bits ∧ bits < 31)
  .ok (2 ^ (bits - 1), 2 ^ bits - 1)

/-- decoder.rs:679-684: one sample of encoding type 0; the result is `as u16` -/
def conv0 (median maxVal v : Int) : R Nat := do
  let s ← i32 (median + v)
  .ok ((constrain s 0 maxVal).toNat % 65536)

/-- A left shift `v << 10` of an `i32` keeps the low 32 bits. -/
def shl10 (v : Int) : Int := (v * 1024 + 2147483648) % 4294967296 - 2147483648

/-- decoder.rs:691-696: the green component. `gr & !1` on a non-negative number clears bit 0. -/
def green (median v0 v1 v3 : Int) : R Int := do
  let s ← i32 (median + shl10 v0)
  let a ← i32 (168 * v1)
  let s ← i32 (s - a)
  let b ← i32 (585 * v3)
  let s ← i32 (s - b)
  let m ← i32 ((s.natAbs : Int) + 512)
  .ok (if s < 0 then -(m / 512 / 2 * 2) else m / 512 / 2 * 2)

/-- decoder.rs:697, 700: red and blue -/
def chroma (median maxVal v0 f v : Int) : R Nat := do
  let s ← i32 (median + shl10 v0)
  let a ← i32 (f * v)
  let s ← i32 (s + a)
  let s ← i32 (s + 512)
  .ok ((constrain (s / 1024) 0 maxVal).toNat % 65536)

/-- decoder.rs:698, 699: the two greens -/
def greenOut (maxVal a b : Int) : R Nat := do
  let s ← i32 (a + b)
  let s ← i32 (s + 1)
  .ok ((constrain (s / 2) 0 maxVal).toNat % 65536)

/-- decoder.rs:690-701: one position of the four planes for encoding type 3. `median` is `1 << (median_bits - 1) << 10`. -/
def conv3 (median maxVal v0 v1 v2 v3 : Int) : R (Nat × Nat × Nat × Nat) := do
  let gr ← green median v0 v1 v3
  let p0 ← chroma median maxVal v0 1510 v3
  let p1 ← greenOut maxVal v2 gr
  let p2 ← greenOut maxVal gr (-v2)
  let p3 ← chroma median maxVal v0 1927 v1
  .ok (p0, p1, p2, p3)

/-- `izip!(l0, l1, l2, l3)` -/
def zip4 (l0 l1 l2 l3 : List Int) : List (Int × Int × Int × Int) := l0.zip (l1.zip (l2.zip l3))

/-- decoder.rs:674-706: the converted positions -/
def convertQuads (c : Codec) (l0 l1 l2 l3 : List Int) : R (List (Nat × Nat × Nat × Nat)) :=
  if c.encType = 0 then do
    let (median, maxVal) ← medianMax c.medianBits
    (zip4 l0 l1 l2 l3).mapM fun (v0, v1, v2, v3) => do
      let p0 ← conv0 median maxVal v0
      let p1 ← conv0 median maxVal v1
      let p2 ← conv0 median maxVal v2
      let p3 ← conv0 median maxVal v3
      .ok (p0, p1, p2, p3)
  else if c.encType = 3 then do
    let (median, maxVal) ← medianMax c.medianBits
    (zip4 l0 l1 l2 l3).mapM fun (v0, v1, v2, v3) => conv3 (shl10 median) maxVal v0 v1 v2 v3
  else fail'

/-- decoder.rs:668-709 `convert_plane_line`: positions beyond the shortest line stay 0 -/
def convertPlaneLine (c : Codec) (l0 l1 l2 l3 : List Int) : R (List Nat × List Nat × List Nat × List Nat) := do
  let qs ← convertQuads c l0 l1 l2 l3
  .ok (qs.map (·.1) ++ List.replicate (l0.length - qs.length) 0, qs.map (·.2.1) ++ List.replicate (l1.length - qs.length) 0,
    qs.map (·.2.2.1) ++ List.replicate (l2.length - qs.length) 0, qs.map (·.2.2.2) ++ List.replicate (l3.length - qs.length) 0)

/-! ## decoder.rs: assembly -/

/-- decoder.rs:715-757 `integrate_cfa`. Line 735: the row offset is computed from the tile *width*. -/
def integrateCfa (c : Codec) (tile : Tile) (tileId planeId planeRow : Nat) (plane : List Nat) (cfa : List Nat) : R (List Nat) := do
  assert' (plane.length ≠ 0)
  assert' (cfa.length ≠ 0)
  let rowOffset := tileId / c.tileCols * c.tileWidth
  let colOffset := tileId % c.tileCols * c.tileWidth
  let rowIdx := rowOffset + planeRow * 2 + planeId / 2
  forN tile.planeWidth (fun col cfa => do
    let v ← idx plane col
    upd cfa (rowIdx * c.imageWidth + (colOffset + col * 2 + planeId % 2)) v) cfa

/-- decoder.rs:196-202: one line of each of the four planes of a tile -/
def integrateLine (c : Codec) (tile : Tile) (tileId row : Nat) (l0 l1 l2 l3 : List Int) (cfa : List Nat) : R (List Nat) := do
  let (c0, c1, c2, c3) ← convertPlaneLine c l0 l1 l2 l3
  let cfa ← integrateCfa c tile tileId 0 row c0 cfa
  let cfa ← integrateCfa c tile tileId 1 row c1 cfa
  let cfa ← integrateCfa c tile tileId 2 row c2 cfa
  integrateCfa c tile tileId 3 row c3 cfa

/-- decoder.rs:196-203: the lines of a tile; `izip!` stops with the shortest plane -/
def integrateLines (c : Codec) (tile : Tile) (tileId : Nat) :
    Nat → List (List Int) → List (List Int) → List (List Int) → List (List Int) → List Nat → R (List Nat)
  | row, l0 :: p0, l1 :: p1, l2 :: p2, l3 :: p3, cfa => do
    let cfa ← integrateLine c tile tileId row l0 l1 l2 l3 cfa
    integrateLines c tile tileId (row + 1) p0 p1 p2 p3 cfa
  | _, _, _, _, _, cfa => .ok cfa

/-- decoder.rs:186-203: the tiles in turn. `debug_assert_eq!(plane_count, 4)`. -/
def integrateTiles (c : Codec) : Nat → List Tile → List (List (List (List Int))) → List Nat → R (List Nat)
  | id, tile :: tiles, [p0, p1, p2, p3] :: bufs, cfa => do
    let cfa ← integrateLines c tile id 0 p0 p1 p2 p3 cfa
    integrateTiles c (id + 1) tiles bufs cfa
  | _, _, [], cfa => .ok cfa
  | _, _, _, _ => panic'

/-- decoder.rs:166-213 `decode`. -/
def decode (c : Codec) (mdat : List Nat) : R (List Nat) := do
  assert' (c.hdrSize ≤ mdat.length)
  let tiles ← parseHeader (mdat.take c.hdrSize)
  let tiles ← processTiles c tiles
  let bufs ← tiles.mapM fun t => t.planes.mapM (decodePlane t (mdat.drop c.hdrSize))
  integrateTiles c 0 tiles bufs (List.replicate (c.imageWidth * c.imageHeight) 0)

/-- mod.rs:415-419 `decompress_crx_image` -/
def decompressCrx (mdat : List Nat) (cmp1 : Cmp1) : R (List Nat) := do
  let c ← newCodec cmp1
  decode c mdat

end Verif.Crx
