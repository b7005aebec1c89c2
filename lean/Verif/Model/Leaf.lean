import Verif.Model.ArwLjpeg
/-! # Hasselblad 3FR and Leaf MOS files (rawler/src/decoders/{tfr,mos}.rs)

`decode_hasselblad` is in `Model/LjpegDec`. -/

namespace Verif.Leaf
open Verif Verif.Ljpeg Verif.Pumps

/-- `TfrDecoder::decode_compressed`, tfr.rs:171-176 -/
def decodeTfr (src : List Nat) (width height : Nat) : R (List Nat) := do
  let d ← Dec.newFull src true false
  d.decode (List.replicate (width * height) 0) 0 width width height

/-- Where the prediction for two pixels of `decode_leaf_strip` is, decompressors.rs:342-348. -/
def leafPos (width row col : Nat) : R Nat :=
  if col = 0 then do
    let r ← usub row 1
    .ok (r * width)
  else usub (row * width + col) 2

/-- Two pixels of `decode_leaf_strip`, decompressors.rs:341-355. -/
def leafPair (t1 t2 : HuffTable) (width row col : Nat) (st : List Nat × PumpJPEG) : R (List Nat × PumpJPEG) := do
  let (out, pump) := st
  let pos ← leafPos width row col
  let p1 ← idx out pos
  let p2 ← idx out (pos + 1)
  let (d1, pump) ← huffDecode t1 pump
  let (d2, pump) ← huffDecode t2 pump
  let out ← upd out (row * width + col) (asU16 (p1 + d1))
  let out ← upd out (row * width + col + 1) (asU16 (p2 + d2))
  .ok (out, pump)

/-- `decode_leaf_strip`, decompressors.rs:335-359. -/
def leafStrip (src out : List Nat) (width height : Nat) (t1 t2 : HuffTable) (bpred : Int) : R (List Nat) := do
  let (d1, pump) ← huffDecode t1 (PumpJPEG.new src)
  let out ← upd out 0 (asU16 (bpred + d1))
  let (d2, pump) ← huffDecode t2 pump
  let out ← upd out 1 (asU16 (bpred + d2))
  let (out, _) ← forN height (fun row st => do
    let startcol := if row = 0 then 2 else 0
    forN ((width - startcol + 1) / 2) (fun k st => leafPair t1 t2 width row (startcol + 2 * k) st) st) (out, pump)
  .ok out

/-- The loop over the markers of `decode_leaf`, mod.rs:361-369: what follows each of them. An error ends the loop, a panic does not.
The bound is the number of bytes. -/
def leafMarkers : Nat → List Nat → R (List (List Nat))
  | 0, _ => panic'
  | fuel + 1, s =>
    match nextMarker s with
    | .error .panic => panic'
    | .error .fail => .ok []
    | .ok (m, s) =>
      if m = 0xd9 then .ok [] else do
        let r ← leafMarkers fuel s
        .ok (s :: r)

/-- `decode_leaf`, mod.rs:360-390. -/
def decodeLeaf (d : Dec) (width height : Nat) : R (List Nat) := do
  let r ← leafMarkers (d.buffer.length + 1) d.buffer
  let starts := d.buffer :: r
  let a ← usub height 1
  if starts.length ≠ a / 8 + 1 then fail' else do
  let t1 ← d.htable 0
  let t2 ← d.htable 1
  if d.sof.precision < d.pt + 1 then panic' else do
  let bpred : Int := ((1 <<< (d.sof.precision - d.pt - 1) : Nat) : Int)
  ArwLjpeg.stripsFn width height 8 fun strip lines => do
    let src ← idx starts strip
    leafStrip src lines width (lines.length / width) t1 t2 bpred

/-- The row of the image for a row of the data, mos.rs:135. -/
def interlacedRow (height row : Nat) : R Nat :=
  if row % 2 = 1 then do
    let a ← usub height 1
    usub a (row / 2)
  else .ok (row / 2)

/-- `MosDecoder::do_decode`, mos.rs:125-142. -/
def decodeMos (src : List Nat) (interlaced : Bool) (width height : Nat) : R (List Nat) := do
  let d ← Dec.newFull src true true
  let px ← decodeLeaf d width height
  if interlaced then
    if width = 0 then panic' else
    forN (px.length / width) (fun row out => do
      let orow ← interlacedRow height row
      Cr2.copyIn out (orow * width) px (row * width) width) (List.replicate (width * height) 0)
  else .ok px

end Verif.Leaf
