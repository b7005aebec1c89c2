import Verif.Model.Pumps
import Verif.Model.Slice
import Verif.Model.Endian
/-! # Packed samples: `rawler/src/decompressors/packed.rs` and the line drivers of `decompressors/mod.rs`

`usize` arithmetic on sizes is unbounded here (an image whose size computations exceed 64 bits cannot be allocated).
The `multiversion` attribute only selects instruction sets. The `dummy` flag is taken to be `false`. -/

namespace Verif.Packed
open Verif Verif.Pumps

/-- `<<` on `u16`: bits shifted out are lost. -/
def shl16 (a n : Nat) : Nat := (a <<< n) % 65536

/-- `&src[off..]` -/
def from' (src : List Nat) (off : Nat) : R (List Nat) :=
  if off ≤ src.length then .ok (src.drop off) else panic'

/-- `for (o, i) in line.as_chunks_mut::<k>().0.zip(inb.as_chunks::<m>().0) { o = f(i) }`, `n` rounds. -/
def zipChunks (k m : Nat) (f : List Nat → List Nat) : Nat → List Nat → List Nat → List Nat
  | 0, line, _ => line
  | n + 1, line, inb => f (inb.take m) ++ zipChunks k m f n (line.drop k) (inb.drop m)

/-- The same loop with as many rounds as both sides have full chunks. -/
def unpackLine (k m : Nat) (f : List Nat → List Nat) (line inb : List Nat) : List Nat :=
  zipChunks k m f (min (line.length / k) (inb.length / m)) line inb

/-- `((skip_rows + lines.len()) * width * BITS).div_ceil(8)` -/
def need (rows width bits : Nat) : Nat := (rows * width * bits + 7) / 8

/-- Loop over the lines, `inb = &src[off(skip_rows + row)..]`. -/
def unpackRows (k m : Nat) (f : List Nat → List Nat) (off : Nat → Nat) (src : List Nat) (skip : Nat) (lines : List (List Nat)) :
    R (List (List Nat)) :=
  lines.zipIdx.mapM fun (line, row) => do
    let inb ← from' src (off (skip + row))
    .ok (unpackLine k m f line inb)

/-! ## One group of samples -/

/-- `u16::from_be_bytes`, packed.rs:88-90 -/
def g16be : List Nat → List Nat
  | [a, b] => [a * 256 + b]
  | _ => []

/-- `u16::from_le_bytes`, packed.rs:104-106 -/
def g16le : List Nat → List Nat
  | [a, b] => [b * 256 + a]
  | _ => []

/-- `*o = *i as u16`, packed.rs:167-169 -/
def g8 : List Nat → List Nat
  | [a] => [a]
  | _ => []

/-- packed.rs:120-127; also 12be_wcontrol (749-754), 12be_interlaced (798-804), 12be_interlaced_unaligned (845-851) and
12le_16bitaligned (517-523). -/
def g12be : List Nat → List Nat
  | [g1, g2, g3] => [shl16 g1 4 ||| (g2 >>> 4), shl16 (g2 &&& 0x0f) 8 ||| g3]
  | _ => []

/-- packed.rs:142-153 -/
def g10be : List Nat → List Nat
  | [g1, g2, g3, g4, g5] =>
    [shl16 g1 2 ||| (g2 >>> 6), shl16 (g2 &&& 0x3f) 4 ||| (g3 >>> 4), shl16 (g3 &&& 0x0f) 6 ||| (g4 >>> 2),
      shl16 (g4 &&& 0x03) 8 ||| g5]
  | _ => []

/-- packed.rs:395-415, `decompress_10le_lsb16` -/
def g10lsb16 : List Nat → List Nat
  | [g1, g2, g3, g4, g5, g6, g7, g8, g9, g10] =>
    [shl16 g2 2 ||| (g1 >>> 6), shl16 (g1 &&& 0x3f) 4 ||| (g4 >>> 4), shl16 (g4 &&& 0x0f) 6 ||| (g3 >>> 2),
      shl16 (g3 &&& 0x03) 8 ||| g6, shl16 g5 2 ||| (g8 >>> 6), shl16 (g8 &&& 0x3f) 4 ||| (g7 >>> 4),
      shl16 (g7 &&& 0x0f) 6 ||| (g10 >>> 2), shl16 (g10 &&& 0x03) 8 ||| g9]
  | _ => []

/-- packed.rs:477-489, `decompress_12be_msb16` -/
def g12msb16 : List Nat → List Nat
  | [g1, g2, g3, g4, g5, g6] =>
    [shl16 g2 4 ||| (g1 >>> 4), shl16 (g1 &&& 0x0f) 8 ||| g4, shl16 g3 4 ||| (g6 >>> 4), shl16 (g6 &&& 0x0f) 8 ||| g5]
  | _ => []

/-- packed.rs:551-576, `decompress_12be_msb32` -/
def g12msb32 : List Nat → List Nat
  | [g1, g2, g3, g4, g5, g6, g7, g8, g9, g10, g11, g12] =>
    [shl16 g4 4 ||| (g3 >>> 4), shl16 (g3 &&& 0x0f) 8 ||| g2, shl16 g1 4 ||| (g8 >>> 4), shl16 (g8 &&& 0x0f) 8 ||| g7,
      shl16 g6 4 ||| (g5 >>> 4), shl16 (g5 &&& 0x0f) 8 ||| g12, shl16 g11 4 ||| (g10 >>> 4), shl16 (g10 &&& 0x0f) 8 ||| g9]
  | _ => []

/-- packed.rs:603-662, `decompress_14be_msb32` -/
def g14msb32 : List Nat → List Nat
  | [g1, g2, g3, g4, g5, g6, g7, g8, g9, g10, g11, g12, g13, g14, g15, g16, g17, g18, g19, g20, g21, g22, g23, g24, g25, g26,
      g27, g28] =>
    [shl16 g4 6 ||| (g3 >>> 2),
      shl16 (g3 &&& 0x3) 12 ||| shl16 g2 4 ||| (g1 >>> 4),
      shl16 (g1 &&& 0xf) 10 ||| shl16 g8 2 ||| (g7 >>> 6),
      shl16 (g7 &&& 0x3f) 8 ||| g6,
      shl16 g5 6 ||| (g12 >>> 2),
      shl16 (g12 &&& 0x3) 12 ||| shl16 g11 4 ||| (g10 >>> 4),
      shl16 (g10 &&& 0xf) 10 ||| shl16 g9 2 ||| (g16 >>> 6),
      shl16 (g16 &&& 0x3f) 8 ||| g15,
      shl16 g14 6 ||| (g13 >>> 2),
      shl16 (g13 &&& 0x3) 12 ||| shl16 g20 4 ||| (g19 >>> 4),
      shl16 (g19 &&& 0xf) 10 ||| shl16 g18 2 ||| (g17 >>> 6),
      shl16 (g17 &&& 0x3f) 8 ||| g24,
      shl16 g23 6 ||| (g22 >>> 2),
      shl16 (g22 &&& 0x3) 12 ||| shl16 g21 4 ||| (g28 >>> 4),
      shl16 (g28 &&& 0xf) 10 ||| shl16 g27 2 ||| (g26 >>> 6),
      shl16 (g26 &&& 0x3f) 8 ||| g25]
  | _ => []

/-- packed.rs:884-891 `decompress_12le`, also 12le_padded (924-931) and 12le_wcontrol (700-707) -/
def g12le : List Nat → List Nat
  | [g1, g2, g3] => [shl16 (g2 &&& 0x0f) 8 ||| g1, shl16 g3 4 ||| (g2 >>> 4)]
  | _ => []

/-- packed.rs:965-977, `decompress_14le_padded` -/
def g14le : List Nat → List Nat
  | [g1, g2, g3, g4, g5, g6, g7] =>
    [shl16 (g2 &&& 0x3f) 8 ||| g1, shl16 (g4 &&& 0xf) 10 ||| shl16 g3 2 ||| (g2 >>> 6),
      shl16 (g6 &&& 0x3) 12 ||| shl16 g5 4 ||| (g4 >>> 4), shl16 g7 6 ||| (g6 >>> 2)]
  | _ => []

/-- A 16 bit word and a mask or shift: packed.rs:1009 (12le), 1043 (12be), 1145 (14le), 1180 (14be, padded), 1214 (14be). -/
def gMask (g : List Nat → List Nat) (mask : Nat) (i : List Nat) : List Nat := (g i).map (· &&& mask)

/-- packed.rs:1077 (12be left aligned), 1111 (12le left aligned). -/
def gShift (g : List Nat → List Nat) (s : Nat) (i : List Nat) : List Nat := (g i).map (· >>> s)

/-! ## `PackedDecompressor` -/

/-- Read `n` fields of `bits` bits, each cast to `u16`. -/
def getMany {P : Type} [BitPump P] (bits : Nat) : Nat → P → R (List Nat × P)
  | 0, p => .ok ([], p)
  | n + 1, p => do
    let (v, p) ← getBits p bits
    let (vs, p) ← getMany bits n p
    .ok (v % 65536 :: vs, p)

/-- Fill the lines one after another from one pump, packed.rs:186-190. -/
def getLines {P : Type} [BitPump P] (bits : Nat) : List (List Nat) → P → R (List (List Nat))
  | [], _ => .ok []
  | line :: lines, p => do
    let (vs, p) ← getMany bits line.length p
    let rest ← getLines bits lines p
    .ok (vs :: rest)

/-- `unpack_16be`, packed.rs:80-93 -/
def unpack16be (src : List Nat) (skip : Nat) (lines : List (List Nat)) (width : Nat) : R (List (List Nat)) :=
  if src.length < need (skip + lines.length) width 16 then fail' else unpackRows 1 2 g16be (fun r => r * width * 2) src skip lines

/-- `unpack_16le`, packed.rs:96-109 -/
def unpack16le (src : List Nat) (skip : Nat) (lines : List (List Nat)) (width : Nat) : R (List (List Nat)) :=
  if src.length < need (skip + lines.length) width 16 then fail' else unpackRows 1 2 g16le (fun r => r * width * 2) src skip lines

/-- `unpack_12be`, packed.rs:112-130 -/
def unpack12be (src : List Nat) (skip : Nat) (lines : List (List Nat)) (width : Nat) : R (List (List Nat)) :=
  if src.length < need (skip + lines.length) width 12 then fail'
  else unpackRows 2 3 g12be (fun r => r * width * 12 / 8) src skip lines

/-- `unpack_10be`, packed.rs:133-156 -/
def unpack10be (src : List Nat) (skip : Nat) (lines : List (List Nat)) (width : Nat) : R (List (List Nat)) :=
  if src.length < need (skip + lines.length) width 10 then fail'
  else unpackRows 4 5 g10be (fun r => r * width * 10 / 8) src skip lines

/-- `unpack_8bit`, packed.rs:159-172 -/
def unpack8 (src : List Nat) (skip : Nat) (lines : List (List Nat)) (width : Nat) : R (List (List Nat)) :=
  if src.length < need (skip + lines.length) width 8 then fail' else unpackRows 1 1 g8 (fun r => r * width) src skip lines

/-- `unpack_generic_msb`, packed.rs:175-192 -/
def unpackGeneric (src : List Nat) (skip : Nat) (lines : List (List Nat)) (width bits : Nat) : R (List (List Nat)) :=
  if src.length < need (skip + lines.length) width bits then fail'
  else do
    assert' (bits ≤ 16)
    let inb ← from' src (skip * width * bits / 8)
    let pump ← BitPump.consume (PumpMSB.new inb) (skip * width * bits % 8)
    getLines bits lines pump

/-- `<PackedDecompressor as Decompressor<u16>>::decompress`, packed.rs:56-72 -/
def decompress (endian : Endian) (bps : Nat) (src : List Nat) (skip : Nat) (lines : List (List Nat)) (width : Nat) :
    R (List (List Nat)) :=
  if bps = 16 then (match endian with | .big => unpack16be src skip lines width | .little => unpack16le src skip lines width)
  else if bps = 12 then unpack12be src skip lines width
  else if bps = 10 then unpack10be src skip lines width
  else if bps = 8 then unpack8 src skip lines width
  else if bps > 0 ∧ bps < 16 then unpackGeneric src skip lines width bps
  else fail'

/-! ## Line drivers, `decompressors/mod.rs` -/

/-- A decompressor: data, rows to skip, lines to fill, line width. -/
abbrev Dec := List Nat → Nat → List (List Nat) → Nat → R (List (List Nat))

/-- `decompress_lines_fn`, decompressors/mod.rs:146-158: the image starts out zero; the closure is called once per row, in
any order (each call sees only its own row, so the order is not observable and rows are listed in sequence here; which of
several failures is reported is not modelled). `par_chunks_mut(0)` panics. -/
def linesFn (width height : Nat) (closure : List Nat → Nat → R (List Nat)) : R (List Nat) :=
  if width = 0 then panic'
  else do
    let rows ← (List.range height).mapM fun row => closure (List.replicate width 0) row
    .ok rows.flatten

/-- One line through a decompressor: `decompressor.decompress(src, row, std::iter::once(line), width)`. -/
def oneLine (dec : Dec) (src : List Nat) (width : Nat) (line : List Nat) (row : Nat) : R (List Nat) := do
  let out ← dec src row [line] width
  .ok out.flatten

/-- `decompress_lines`, decompressors/mod.rs:176-188 -/
def decompressLines (dec : Dec) (src : List Nat) (width height : Nat) : R (List Nat) :=
  linesFn width height (oneLine dec src width)

/-- `decompress_strips_fn`, decompressors/mod.rs:210-222: the pieces of `width * stripsize` samples of the zero image; the
closure gets the strip and its number. -/
def stripsFn (width height stripsize : Nat) (closure : List Nat → Nat → R (List Nat)) : R (List Nat) := do
  let pieces ← chunks (List.replicate (width * height) 0) (width * stripsize)
  let out ← pieces.zipIdx.mapM fun (piece, strip) => closure piece strip
  .ok out.flatten

/-- `dec.decompress(src, skip, strip.chunks_exact_mut(width), width)`; samples after the last full line keep their value. -/
def stripLines (dec : Dec) (src : List Nat) (skip width : Nat) (piece : List Nat) : R (List Nat) := do
  let lines ← chunksExact piece width
  let out ← dec src skip lines width
  .ok (out.flatten ++ piece.drop (piece.length / width * width))

/-- `decompress_strips`, decompressors/mod.rs:247-259 -/
def decompressStrips (dec : Dec) (src : List Nat) (width height stripsize : Nat) : R (List Nat) :=
  stripsFn width height stripsize fun piece strip => stripLines dec src (strip * stripsize) width piece

/-- `decode_strips`, decoders/mod.rs:721-751 after the tags are read: `strips` and `cont` come from `IFD::strip_data`. -/
def decodeStrips (dec : Dec) (canSkip : Bool) (strips : List (List Nat)) (cont : Option (List Nat)) (width height cpp rowsPerStrip : Nat) :
    R (List Nat) :=
  match cont, canSkip with
  | some src, true => linesFn (width * cpp) height (oneLine dec src (width * cpp))
  | _, _ => stripsFn (width * cpp) height rowsPerStrip fun piece strip => do
      let src ← idx strips strip
      stripLines dec src 0 (width * cpp) piece

/-! ## Camera-specific layouts -/

/-- Shape of the functions that check the size and then unpack each row from its own offset. -/
def rowsAt (k m : Nat) (f : List Nat → List Nat) (needed : Nat) (off : Nat → Nat) (buf : List Nat) (width height : Nat) : R (List Nat) :=
  if buf.length < needed then fail'
  else linesFn width height fun line row => do
    let inb ← from' buf (off row)
    .ok (unpackLine k m f line inb)

/-- `decompress_8bit`, packed.rs:358-364 -/
def dec8 (buf : List Nat) (width height : Nat) : R (List Nat) :=
  if buf.length < height * width then fail' else decompressLines (decompress .little 8) buf width height

/-- `decompress_10le_lsb16`, packed.rs:383-419 -/
def dec10leLsb16 (buf : List Nat) (width height : Nat) : R (List Nat) :=
  rowsAt 8 10 g10lsb16 ((height * width * 10 + 7) / 8) (fun row => row * width * 10 / 8) buf width height

/-- `decompress_10be`, packed.rs:432-438 -/
def dec10be (buf : List Nat) (width height : Nat) : R (List Nat) :=
  if buf.length < (height * width * 10 + 7) / 8 then fail' else decompressLines (decompress .big 10) buf width height

/-- `decompress_12be`, packed.rs:451-453 -/
def dec12be (buf : List Nat) (width height : Nat) : R (List Nat) := decompressLines (decompress .big 12) buf width height

/-- Shape of the functions that unpack the whole image as one run of groups (`chunks_exact_mut(k)` over all pixels). -/
def wholeImage (k m : Nat) (f : List Nat → List Nat) (bits : Nat) (buf : List Nat) (width height : Nat) : R (List Nat) :=
  if buf.length < (height * width * bits + 7) / 8 then fail'
  else .ok (unpackLine k m f (List.replicate (width * height) 0) buf)

/-- `decompress_12be_msb16`, packed.rs:470-491 -/
def dec12beMsb16 (buf : List Nat) (width height : Nat) : R (List Nat) := wholeImage 4 6 g12msb16 12 buf width height

/-- `decompress_12be_msb32`, packed.rs:544-578 -/
def dec12beMsb32 (buf : List Nat) (width height : Nat) : R (List Nat) := wholeImage 8 12 g12msb32 12 buf width height

/-- `decompress_14be_msb32`, packed.rs:595-664 -/
def dec14beMsb32 (buf : List Nat) (width height : Nat) : R (List Nat) := wholeImage 16 28 g14msb32 14 buf width height

/-- `decompress_12le_16bitaligned`, packed.rs:505-528 -/
def dec12le16 (buf : List Nat) (width height : Nat) : R (List Nat) :=
  rowsAt 2 3 g12be (height * (((width * 12 / 8 + 1) >>> 1) <<< 1)) (fun row => row * (((width * 12 / 8 + 1) >>> 1) <<< 1)) buf width height

/-- A group with a control byte: five groups of three bytes, the 16th byte ignored (packed.rs:699-709, 747-757; the inner
`chunks_exact(3)` of 16 bytes has five pieces). -/
def gControl (g : List Nat → List Nat) (ic : List Nat) : List Nat := zipChunks 2 3 g 5 (List.replicate 10 0) ic

/-- `decompress_12le_wcontrol`, packed.rs:683-712 -/
def dec12leWcontrol (buf : List Nat) (width height : Nat) : R (List Nat) :=
  rowsAt 10 16 (gControl g12le) (height * (width * 12 / 8 + (width + 2) / 10)) (fun row => row * (width * 12 / 8 + (width + 2) / 10))
    buf width height

/-- `decompress_12be_wcontrol`, packed.rs:731-760 -/
def dec12beWcontrol (buf : List Nat) (width height : Nat) : R (List Nat) :=
  rowsAt 10 16 (gControl g12be) (height * (width * 12 / 8 + (width + 2) / 10)) (fun row => row * (width * 12 / 8 + (width + 2) / 10))
    buf width height

/-- The row loop of the interlaced layouts, packed.rs:794-807, 841-854. -/
def interlaced (buf second : List Nat) (width height : Nat) : R (List Nat) :=
  linesFn width height fun line row => do
    let inb ← from' (if row % 2 = 0 then buf else second) (row / 2 * width * 12 / 8)
    .ok (unpackLine 2 3 g12be line inb)

/-- `decompress_12be_interlaced`, packed.rs:779-809 -/
def dec12beInterlaced (buf : List Nat) (width height : Nat) : R (List Nat) :=
  let half := (height + 1) >>> 1
  let second := (((half * width * 3 / 2) >>> 11) + 1) <<< 11
  if buf.length < second + ((height - half) * width * 12 + 7) / 8 then fail'
  else do
    let field ← from' buf second
    interlaced buf field width height

/-- `decompress_12be_interlaced_unaligned`, packed.rs:828-856 -/
def dec12beInterlacedUnaligned (buf : List Nat) (width height : Nat) : R (List Nat) :=
  if buf.length < (height * width * 12 + 7) / 8 then fail'
  else do
    let field ← from' buf ((height + 1) / 2 * width * 12 / 8)
    interlaced buf field width height

/-- `decompress_12le`, packed.rs:872-898 -/
def dec12le (buf : List Nat) (width height : Nat) : R (List Nat) :=
  rowsAt 2 3 g12le ((height * width * 12 + 7) / 8) (fun row => row * width * 12 / 8) buf width height

/-- `decompress_12le_padded`, packed.rs:912-935 -/
def dec12lePadded (buf : List Nat) (width height stride : Nat) : R (List Nat) :=
  rowsAt 2 3 g12le (height * stride) (fun row => row * stride) buf width height

/-- `decompress_14le_padded`, packed.rs:953-981 -/
def dec14lePadded (buf : List Nat) (width height stride : Nat) : R (List Nat) :=
  rowsAt 4 7 g14le (height * stride) (fun row => row * stride) buf width height

/-- The layouts of one sample per 16 bit word, packed.rs:997-1219: `decompress_12le_unpacked` (`gMask g16le 0xfff`),
`12be_unpacked`, `12be_unpacked_left_aligned` (`gShift g16be 4`), `12le_unpacked_left_aligned`, `14le_unpacked`
(`gMask g16le 0x3fff`), `14be_unpacked`, all with rows of `width * 2` bytes. The index `out[i]`, `i < width`, is in range. -/
def decUnpacked (g : List Nat → List Nat) (buf : List Nat) (width height : Nat) : R (List Nat) :=
  rowsAt 1 2 g (height * width * 2) (fun row => row * width * 2) buf width height

/-- `decompress_14le_unpacked_padded`, packed.rs:1167-1185 (big-endian words in spite of its name) -/
def dec14UnpackedPadded (buf : List Nat) (width height stride : Nat) : R (List Nat) :=
  rowsAt 1 2 (gMask g16be 0x3fff) (height * stride) (fun row => row * stride) buf width height

/-- `decompress_16le`, packed.rs:1234-1240 -/
def dec16le (buf : List Nat) (width height : Nat) : R (List Nat) :=
  if buf.length < width * height * 2 then fail' else decompressLines (decompress .little 16) buf width height

/-- `decompress_16be`, packed.rs:1290-1296 -/
def dec16be (buf : List Nat) (width height : Nat) : R (List Nat) :=
  if buf.length < width * height * 2 then fail' else decompressLines (decompress .big 16) buf width height

/-- `decompress_16le_skiplines`, packed.rs:1257-1275 -/
def dec16leSkiplines (buf : List Nat) (width height : Nat) : R (List Nat) :=
  rowsAt 1 2 g16le (width * height * 4) (fun row => row * width * 4) buf width height

/-- `decompress_generic_msb`, packed.rs:1311-1323 -/
def decGenericMsb (buf : List Nat) (width height bits : Nat) : R (List Nat) := do
  assert' (bits ≤ 16)
  if buf.length < (width * height * bits + 7) / 8 then fail'
  else do
    let (vs, _) ← getMany bits (width * height) (PumpMSB.new buf)
    .ok vs

/-- `decompress_generic_lsb`, packed.rs:1338-1350 -/
def decGenericLsb (buf : List Nat) (width height bits : Nat) : R (List Nat) := do
  assert' (bits ≤ 16)
  if buf.length < (width * height * bits + 7) / 8 then fail'
  else do
    let (vs, _) ← getMany bits (width * height) (PumpLSB.new buf)
    .ok vs

end Verif.Packed
