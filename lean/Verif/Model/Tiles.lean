import Verif.Model.PixArray
import Verif.Model.LjpegEnc
import Verif.Model.LjpegDec
/-! # Tiles (rawler/src/tiles.rs), the LJPEG tile writer (rawler/src/dng/writer.rs) and the tile reader
(rawler/src/decoders/mod.rs) -/

namespace Verif.Tiles
open Verif Verif.Pix
variable {α : Type} [Inhabited α]

/-- `struct ImageTiler`, tiles.rs:13-24 (the `tiles` range is the iteration state, see `ImageTiler.all`). -/
structure ImageTiler (α : Type) where
  data : List α
  width : Nat
  height : Nat
  cpp : Nat
  tw : Nat
  th : Nat
  tcols : Nat
  trows : Nat

/-- `usize::div_ceil` -/
def divCeil (a b : Nat) : R Nat := if b = 0 then panic' else .ok ((a + b - 1) / b)

/-- `ImageTiler::new`, tiles.rs:26-41. -/
def ImageTiler.new (data : List α) (width height cpp tw th : Nat) : R (ImageTiler α) := do
  assert' (height * width * cpp ≤ data.length)
  let tcols ← divCeil width tw
  let trows ← divCeil height th
  .ok ⟨data, width, height, cpp, tw, th, tcols, trows⟩

/-- `ImageTiler::tile_count`, tiles.rs:51-53. -/
def ImageTiler.tileCount (t : ImageTiler α) : Nat := t.trows * t.tcols

/-- One pass of the row loop of `build_tile`, tiles.rs:75-92. -/
def ImageTiler.tileRow (t : ImageTiler α) (tileRow tileCol row : Nat) (buf : List α) : R (List α) :=
  let offRow := tileRow * t.th + row
  let offset := offRow * t.width * t.cpp + tileCol * t.tw * t.cpp
  if offset < t.data.length then
    if tileCol + 1 < t.tcols ∨ ¬ (t.width % t.tw > 0) then do
      let sub ← slice t.data offset (offset + t.tw * t.cpp)
      .ok (buf ++ sub)
    else do
      let sub ← slice t.data offset (offset + (t.width % t.tw) * t.cpp)
      let buf := buf ++ sub
      .ok (buf ++ List.replicate ((t.tw - t.width % t.tw) * t.cpp) (buf.getLast?.getD default))
  else do
    let r1 ← usub row 1
    let sub ← slice buf (r1 * t.tw * t.cpp) (r1 * t.tw * t.cpp + t.tw * t.cpp)
    .ok (buf ++ sub)

/-- `ImageTiler::build_tile`, tiles.rs:69-95. `idx / tcols` panics for an image without columns. -/
def ImageTiler.buildTile (t : ImageTiler α) (i : Nat) : R (List α) :=
  if t.tcols = 0 then panic' else
  forN t.th (fun row buf => t.tileRow (i / t.tcols) (i % t.tcols) row buf) []

/-- The tiles the iterator yields, tiles.rs:97-110. -/
def ImageTiler.all (t : ImageTiler α) : R (List (List α)) := (List.range t.tileCount).mapM t.buildTile

/-! ## mutable tile windows -/

/-- `struct IntoTilesIter`, tiles.rs:172-179; of the buffer only its length matters. -/
structure TilesIter where
  count : Nat
  width : Nat
  cpp : Nat
  tw : Nat
  th : Nat
  len : Nat
  deriving DecidableEq, Repr

/-- `into_tiles_iter_mut`, tiles.rs:140-156. -/
def TilesIter.new (len width cpp tw th : Nat) : R TilesIter := do
  assert' (width > 0)
  assert' (tw * th > 0)
  assert' (cpp > 0)
  if ¬ (len % (tw * cpp * th) = 0) then fail' else
  .ok ⟨0, width, cpp, tw, th, len⟩

/-- `IntoTilesIter::tile_count`, tiles.rs:183-185. -/
def TilesIter.tileCount (t : TilesIter) : Nat := t.len / t.cpp / (t.th * t.tw)

/-- `struct Tile`, tiles.rs:248-255: position of the first line in the buffer, its length, number of lines, and the
distance of two lines in samples. -/
structure Tile where
  start : Nat
  lineLen : Nat
  th : Nat
  dist : Nat
  deriving DecidableEq, Repr

/-- `IntoTilesIter::next`, tiles.rs:198-230. -/
def TilesIter.next (t : TilesIter) : R (Option Tile × TilesIter) := do
  let cols := t.width / t.tw
  if cols = 0 then panic' else          -- `self.count % tile_cols`
  let x := t.count % cols
  let y := t.count / cols
  assert' (t.count ≤ t.tileCount)
  let start := x * (t.tw * t.cpp) + y * (t.width * t.cpp) * t.th
  let t' := { t with count := t.count + 1 }
  if start ≥ t.len then .ok (none, t') else do
  let need ← usub (t.th * (t.width * t.cpp)) (x * t.tw * t.cpp)
  if t.len - start < need then panic' else
  if t.len - start < t.tw * t.cpp then panic' else
  .ok (some ⟨start, t.tw * t.cpp, t.th, t.width * t.cpp⟩, t')

/-- `for tile in iter`: calls `next` until it returns `None`; `fuel` bounds the number of calls (running out = panic). -/
def TilesIter.drain : Nat → TilesIter → R (List Tile)
  | 0, _ => panic'
  | n + 1, t => do
    let (o, t') ← t.next
    match o with
    | none => .ok []
    | some tile => do
      let rest ← TilesIter.drain n t'
      .ok (tile :: rest)

/-- The lines of `TileIterMut` (tiles.rs:282-304) as (offset, length) ranges of the buffer. -/
def Tile.lines (t : Tile) : List (Nat × Nat) := (List.range t.th).map fun i => (t.start + i * t.dist, t.lineLen)

/-- The lines a decoder gets to overwrite, with their present content. `from_raw_parts_mut` past the end of the buffer
is undefined behaviour in Rust; here it panics. -/
def Tile.load (t : Tile) (buf : List α) : R (List (List α)) := t.lines.mapM fun l => slice buf l.1 (l.1 + l.2)

/-- Writing one line back into the buffer. -/
def blit (buf : List α) (off : Nat) (line : List α) : List α := buf.take off ++ line ++ buf.drop (off + line.length)

/-- Writing the lines of a tile into the buffer. -/
def Tile.store (t : Tile) (buf : List α) (lines : List (List α)) : List α :=
  (t.lines.zip lines).foldl (fun b p => blit b p.1.1 p.2) buf

/-! ## writer and reader -/

/-- `RawPhotometricInterpretation` as far as it matters here (rawimage.rs): the size of the colour filter pattern for `Cfa`. -/
inductive Photometric where
  | blackIsZero
  | cfa (width height : Nat)
  | linearRaw
  deriving DecidableEq, Repr

/-- JPEG geometry of a tile, `(width, height, components, realign)`, dng/writer.rs:580-597. -/
def ljpegGeometry (ph : Photometric) (cpp predictor tw th : Nat) : R (Nat × Nat × Nat × Nat) :=
  match ph with
  | .blackIsZero => if cpp ≠ 1 then panic' else .ok (tw, th, 1, 1)
  | .cfa w h => if cpp ≠ 1 then panic' else
      .ok (tw / 2, th, 2, if 4 ≤ predictor ∧ predictor ≤ 7 ∧ w = 2 ∧ h = 2 then 2 else 1)
  | .linearRaw => .ok (tw, th, cpp, 1)

/-- The compression of one tile, dng/writer.rs:609-615. -/
def compressTile (t : ImageTiler Nat) (g : Nat × Nat × Nat × Nat) (bps predictor : Nat) (dbg : Bool) (i : Nat) : R (List Nat) := do
  let tile ← t.buildTile i
  Ljpeg.encode tile (g.1 * g.2.2.2) (g.2.1 / g.2.2.2) g.2.2.1 bps predictor 0 0 dbg

/-- `dng_put_raw_ljpeg`, dng/writer.rs:569-644, up to the list of compressed tiles: 256x256 tiles, `bps as u8`. The
parallel map over the tiles is a map over independent tiles. -/
def putRawLjpeg (data : List Nat) (width height cpp bps : Nat) (ph : Photometric) (predictor : Nat) (dbg : Bool) :
    R (List (List Nat)) := do
  let tw := 256
  let th := 256
  let g ← ljpegGeometry ph cpp predictor tw th
  let t ← ImageTiler.new data width height cpp tw th
  (List.range t.tileCount).mapM (compressTile t g (bps % 256) predictor dbg)

/-- Decoding one tile into its window, the closure in decoders/mod.rs:796-799. -/
def decodeOne (dec : List Nat → List (List Nat) → Nat → R (List (List Nat))) (tiles : List (List Nat)) (wins : List Tile)
    (lineWidth : Nat) (buf : List Nat) (k : Nat) : R (List Nat) := do
  let src ← idx tiles k
  let win ← idx wins k
  let lines ← win.load buf
  let lines ← dec src lines lineWidth
  .ok (win.store buf lines)

/-- `decode_tiles`, decoders/mod.rs:768-802. `dec src lines lineWidth` is `dc.decompress(src, 0, lines, line_width)`. The
tiles are decoded by `par_bridge().try_for_each`, that is in any order: `sched` is the order in which they finish. -/
def decodeTiles (dec : List Nat → List (List Nat) → Nat → R (List (List Nat))) (tiles : List (List Nat))
    (width height cpp tw th : Nat) (sched : List Nat) : R (Pix Nat) := do
  let w1 ← usub width 1
  let h1 ← usub height 1
  if tw = 0 ∨ th = 0 then panic' else
  let coltiles := w1 / tw + 1
  let rowtiles := h1 / th + 1
  let dw := coltiles * tw
  let dh := rowtiles * th
  if coltiles * rowtiles ≠ tiles.length then fail' else do
  if cpp = 0 then panic' else
  let it ← TilesIter.new (dw * cpp * dh) (dw * cpp / cpp) cpp tw th
  let wins ← TilesIter.drain (tiles.length + 1) it
  let data ← sched.foldlM (fun buf k => decodeOne dec tiles wins (tw * cpp) buf k) (List.replicate (dw * cpp * dh) 0)
  .ok ⟨dw * cpp, dh, data⟩

/-- `plain_image_from_ifd`, decoders/mod.rs:598-662, for an LJPEG compressed, tiled, unsigned image without linearization
table and without interleaving: decode the tiles, crop to the image size. -/
def readLjpegTiles (tiles : List (List Nat)) (width height cpp tw th : Nat) (sched : List Nat) : R (List Nat) := do
  let p ← decodeTiles (fun src lines lw => Ljpeg.decompress src 0 lines lw) tiles width height cpp tw th sched
  let p ← p.intoCrop ⟨0, 0, width * cpp, height⟩
  .ok p.data

end Verif.Tiles
