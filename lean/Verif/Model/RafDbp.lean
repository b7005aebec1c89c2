import Verif.Base
import Verif.Model.Packed
/-! # Fujifilm DBP for GX680 (decoders/raf/dbp.rs), and the choice of the unpacker (decoders/raf.rs)

The `dummy` flag is `false`. -/

namespace Verif.RafDbp
open Verif

/-- `read_u16_into::<BigEndian>` of `n` numbers, dbp.rs:23 -/
def readInto (buf : List Nat) (p n : Nat) : R (List Nat) :=
  if p + 2 * n ≤ buf.length then .ok ((List.range n).map fun i => 256 * buf.getD (p + 2 * i) 0 + buf.getD (p + 2 * i + 1) 0) else fail'

/-- The copy of a line, dbp.rs:25-26 -/
def copyLine (tile : List Nat) (w tw t line : Nat) (out : List Nat) : R (List Nat) :=
  forN tw (fun i out => do
    let v ← idx tile (line * tw + i)
    upd out (line * w + t * tw + i) v) out

/-- `decode_dbp`, dbp.rs:12-30. The first part of the state is the place of the cursor. -/
def decode (buf : List Nat) (w h : Nat) : R (List Nat) := do
  let tw := w / 8
  let st ← forN 8 (fun t (st : Nat × List Nat) => do
    let tile ← readInto buf st.1 (h * tw)
    let out ← forN h (fun line out => copyLine tile w tw t line out) st.2
    .ok (st.1 + 2 * (h * tw), out)) (0, List.replicate (w * h) 0)
  .ok st.2

/-- What is known of a camera and a file, raf.rs:311-341: hints, the name of the DBP, and the byte order of the file -/
structure Kind where
  doubleWidth : Bool := false
  jpeg32 : Bool := false
  dbp : Bool := false
  little : Bool := true

/-- The choice of the unpacker, raf.rs:308-350. `src` has the padding of `PaddedBuf`; `fuji` is the decompressor. -/
def pixels (fuji : List Nat → Nat → Nat → Nat → R (List Nat)) (k : Kind) (bps : Nat) (src : List Nat) (w h : Nat) : R (List Nat) :=
  if k.doubleWidth then Packed.dec16leSkiplines src w h
  else if k.jpeg32 then
    (if bps = 12 then Packed.dec12beMsb32 src w h else if bps = 14 then Packed.dec14beMsb32 src w h else fail')
  else if k.dbp then do
    assert' (bps = 16)
    decode src w h
  else if src.length < bps * w * h / 8 then fuji src w h bps
  else if bps = 12 then Packed.dec12le src w h
  else if bps = 14 then Packed.decUnpacked (Packed.gMask Packed.g16le 0x3fff) src w h
  else if bps = 16 then (if k.little then Packed.dec16le src w h else Packed.dec16be src w h)
  else fail'

end Verif.RafDbp
