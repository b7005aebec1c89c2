import Verif.Model.Packed
import Verif.Model.I32
/-! # Panasonic RW2, formats 3 to 7 (rawler/src/decoders/rw2)

The `dummy` flag is `false`. The work on the pieces of the image runs in parallel; each sees only its own piece. -/

namespace Verif.Pana
open Verif Verif.Pumps Verif.Packed

/-- `decompress_chunked_fn`, decompressors/mod.rs:284-294 -/
def chunkedFn (width height chunksize : Nat) (closure : List Nat → Nat → R (List Nat)) : R (List Nat) := do
  let pieces ← chunks (List.replicate (width * height) 0) chunksize
  let out ← pieces.zipIdx.mapM fun (piece, i) => closure piece i
  .ok out.flatten

/-- `out.iter_mut().for_each(|p| *p = pump.get_bits(bps) as u16)` for `n` samples, v5decompressor.rs:47, v7decompressor.rs:34 -/
def readN (bps : Nat) : Nat → PumpLSB → R (List Nat)
  | 0, _ => .ok []
  | n + 1, p => do
    let (v, p) ← getBits p bps
    let r ← readN bps n p
    .ok (v % 65536 :: r)

/-- The closure of `decode_panasonic_v5`, v5decompressor.rs:35-49 -/
def blockV5 (buf : List Nat) (bps ppp : Nat) (chunk : List Nat) (block : Nat) : R (List Nat) := do
  let src ← slice buf (block * 0x4000) (block * 0x4000 + 0x4000)
  let swapped := src.drop 0x1ff8 ++ src.take 0x1ff8
  let outs ← chunksExact chunk ppp
  let packets ← chunksExact swapped 16
  let done ← (outs.zip packets).mapM fun (_, bytes) => readN bps ppp (PumpLSB.new bytes)
  .ok (done.flatten ++ chunk.drop (done.length * ppp))

/-- `decode_panasonic_v5`, v5decompressor.rs:9-52 -/
def decodeV5 (buf : List Nat) (width height bps : Nat) : R (List Nat) :=
  if bps = 12 then chunkedFn width height (1024 * 10) (blockV5 buf bps 10)
  else if bps = 14 then chunkedFn width height (1024 * 9) (blockV5 buf bps 9)
  else panic'

/-- The closure of `decode_panasonic_v7`, v7decompressor.rs:26-36. A row has as many blocks as pieces of `ppb` samples. -/
def lineV7 (buf : List Nat) (width ppb : Nat) (line : List Nat) (row : Nat) : R (List Nat) := do
  let n := 16 * (width / ppb)
  let src ← slice buf (row * n) (row * n + n)
  let blocks ← chunksExact src 16
  let done ← blocks.mapM fun block => readN 14 ppb (PumpLSB.new block)
  .ok (done.flatten ++ line.drop (done.length * ppb))

/-- `decode_panasonic_v7`, v7decompressor.rs:9-38: 14 bits are read whatever `bps` is. -/
def decodeV7 (buf : List Nat) (width height bps : Nat) : R (List Nat) :=
  let go (ppb : Nat) : R (List Nat) := if width % ppb ≠ 0 then panic' else linesFn width height (lineV7 buf width ppb)
  if bps = 14 then go 9 else if bps = 12 then go 10 else panic'

/-! ## Version 6 -/

/-- The constants of `decode_panasonic_v6`, v6decompressor.rs:20-38, and the sizes of the fields in the order in which they are read
(61-97) -/
structure V6 where
  ppb : Nat
  base0 : Nat
  baseCmp : Nat
  spixCmp : Int
  widths : List Nat

/-- v6decompressor.rs:21-27 and 79-97 -/
def v6of12 : V6 := ⟨14, 0x80, 0x800, 0x3fff, [8, 8, 8, 2, 8, 8, 8, 2, 8, 8, 8, 2, 8, 8, 8, 2, 12, 12]⟩

/-- v6decompressor.rs:28-34 and 61-77 -/
def v6of14 : V6 := ⟨11, 0x200, 0x2000, 0xffff, [10, 10, 10, 2, 10, 10, 10, 2, 10, 10, 10, 2, 14, 14]⟩

/-- Consecutive fields -/
def readFields : List Nat → PumpLSB → R (List Nat)
  | [], _ => .ok []
  | n :: ns, p => do
    let (v, p) ← getBits p n
    let r ← readFields ns p
    .ok (v % 65536 :: r)

/-- `pixelbuffer`, v6decompressor.rs:55-99: filled from its end; the four bits of padding of 14 bit data come first. -/
def pixelBuffer (V : V6) (block : List Nat) : R (List Nat) := do
  let p ← (if V.ppb = 11 then do
    let (_, p) ← getBits (PumpLSB.new block) 4
    .ok p
  else .ok (PumpLSB.new block) : R PumpLSB)
  let fields ← readFields V.widths p
  .ok (fields.reverse ++ List.replicate (18 - fields.length) 0)

/-- `u16` result of an operation: panics when it does not fit. -/
def chkU16 (x : Nat) : R Nat := if x < 65536 then .ok x else panic'

/-- `curr_pixel`, `pixel_base`, `pmul`, and `(oddeven, nonzero)` of the even and of the odd samples, v6decompressor.rs:101-111 -/
structure St6 where
  cur : Nat
  base : Nat
  pmul : Nat
  even : Nat × Nat
  odd : Nat × Nat

/-- The new base, v6decompressor.rs:114-121 -/
def rebase (V : V6) (pb : List Nat) (pix : Nat) (s : St6) : R St6 :=
  if pix % 3 = 2 then do
    let b ← idx pb s.cur
    let b := if b = 3 then 4 else b
    .ok { s with cur := s.cur + 1, base := V.base0 <<< b % 65536, pmul := 1 <<< b % 65536 }
  else .ok s

/-- `epixel` and the new `(oddeven, nonzero)`, v6decompressor.rs:122-136 -/
def epixel (V : V6) (s : St6) (e : Nat) (c : Nat × Nat) : R (Nat × (Nat × Nat)) :=
  if c.1 ≠ 0 then do
    let e ← chkU16 (e * s.pmul)
    let e ← (if s.base < V.baseCmp ∧ c.2 > s.base then chkU16 (e + (c.2 - s.base)) else .ok e : R Nat)
    .ok (e, (c.1, e))
  else if e ≠ 0 then .ok (e, (e, e))
  else .ok (c.2, (e, c.2))

/-- What is stored, v6decompressor.rs:137-147; `spix & spix_compare` for a mask of ones. The last branch is not reachable
for `u16` values unless `spix_compare` is smaller; then `(epixel + 0x7ffffff1) >> 31` wraps around and is -1. -/
def stored (V : V6) (mask : Nat) (e : Nat) : Nat :=
  let spix : Int := (e : Int) - 15
  if spix ≤ V.spixCmp then (spix % (V.spixCmp + 1)).toNat
  else ((if (e : Int) + 0x7ffffff1 < 2 ^ 31 then 0 else 65535) &&& mask)

/-- One sample, v6decompressor.rs:113-148 -/
def pixel6 (V : V6) (mask : Nat) (pb : List Nat) (pix : Nat) (st : St6 × List Nat) : R (St6 × List Nat) := do
  let s ← rebase V pb pix st.1
  let e ← idx pb s.cur
  let (e, c) ← epixel V s e (if pix % 2 = 0 then s.even else s.odd)
  let s := { s with cur := s.cur + 1, even := if pix % 2 = 0 then c else s.even, odd := if pix % 2 = 0 then s.odd else c }
  .ok (s, st.2 ++ [stored V mask e])

/-- One block, v6decompressor.rs:53-148 -/
def block6 (V : V6) (mask : Nat) (block : List Nat) : R (List Nat) := do
  let pb ← pixelBuffer V block
  let (_, out) ← forN V.ppb (pixel6 V mask pb) (⟨0, 0, 0, (0, 0), (0, 0)⟩, [])
  .ok out

/-- One row, v6decompressor.rs:51-54 -/
def lineV6 (V : V6) (mask : Nat) (buf : List Nat) (width : Nat) (line : List Nat) (row : Nat) : R (List Nat) := do
  let n := 16 * (width / V.ppb)
  let src ← slice buf (row * n) (row * n + n)
  let blocks ← chunksExact src 16
  let done ← blocks.mapM (block6 V mask)
  .ok (done.flatten ++ line.drop (done.length * V.ppb))

/-- `decode_panasonic_v6`, v6decompressor.rs:9-191 -/
def decodeV6 (buf : List Nat) (width height bps : Nat) : R (List Nat) :=
  let go (V : V6) (mask : Nat) : R (List Nat) :=
    if width % V.ppb ≠ 0 then panic' else linesFn width height (lineV6 V mask buf width)
  if bps = 12 then go v6of12 0xfff else if bps = 14 then go v6of14 0x3fff else panic'

/-! ## Version 4 -/

/-- `BitPumpPanasonic`, v4decompressor.rs:51-68 -/
structure Pump where
  buffer : List Nat
  pos : Nat
  nbits : Nat
  split : Bool

/-- `get_bits` of this pump: `peek_bits` and `consume_bits`, v4decompressor.rs:70-88, pumps.rs:154-164 -/
def Pump.get (p : Pump) (num : Nat) : R (Nat × Pump) :=
  if num = 0 then .ok (0, p) else do
    let p := if num > p.nbits then { p with nbits := p.nbits + 0x4000 * 8, pos := p.pos + 0x4000 } else p
    let q ← usub p.nbits num
    let byte := (q >>> 3) ^^^ 0x3ff0
    let byte := if p.split then (byte + 0x4000 - 0x2008) % 0x4000 else byte
    let i ← usub (byte + p.pos) 0x4000
    let two ← slice p.buffer i (i + 2)
    let a ← idx two 0
    let b ← idx two 1
    .ok (((a + 256 * b) >>> (q &&& 7)) &&& (0xffffffff >>> (32 - num)), { p with nbits := q })

/-- `sh`, and `(pred, nonz)` for the even and the odd samples -/
structure St4 where
  sh : Nat
  even : Int × Nat
  odd : Int × Nat

/-- A new shift, v4decompressor.rs:26-28 -/
def reshift (i : Nat) (p : Pump) (sh : Nat) : R (Nat × Pump) :=
  if i % 3 = 2 then do
    let (v, p) ← p.get 2
    let n ← usub 3 v
    .ok (4 >>> n, p)
  else .ok (sh, p)

/-- `pred` after a byte `j` that is not zero, v4decompressor.rs:32-36. `x & !(-1 << sh)` is the remainder modulo `2^sh`. -/
def step4 (sh j : Nat) (pred : Int) : R Int := do
  let p ← chkI32 (pred - 0x80 * 2 ^ sh)
  chkI32 ((if p < 0 ∨ sh = 4 then p % 2 ^ sh else p) + j * 2 ^ sh)

/-- `(pred, nonz)` after a sample, v4decompressor.rs:29-43 -/
def sample4 (i sh : Nat) (p : Pump) (c : Int × Nat) : R ((Int × Nat) × Pump) :=
  if c.2 ≠ 0 then do
    let (j, p) ← p.get 8
    if j ≠ 0 then do
      let v ← step4 sh j c.1
      .ok ((v, c.2), p)
    else .ok (c, p)
  else do
    let (n, p) ← p.get 8
    if n ≠ 0 ∨ i > 11 then do
      let (low, p) ← p.get 4
      .ok ((((n <<< 4 ||| low : Nat) : Int), n), p)
    else .ok ((c.1, n), p)

/-- One sample of a packet, v4decompressor.rs:25-45 -/
def pixel4 (i : Nat) (st : St4 × Pump × List Nat) : R (St4 × Pump × List Nat) := do
  let (s, p, out) := st
  let (sh, p) ← reshift i p s.sh
  let (c, p) ← sample4 i sh p (if i % 2 = 0 then s.even else s.odd)
  .ok (⟨sh, if i % 2 = 0 then c else s.even, if i % 2 = 0 then s.odd else c⟩, p, out ++ [asU16 c.1])

/-- One packet, v4decompressor.rs:21-46 -/
def packet4 (st : Nat × Pump × List Nat) : R (Nat × Pump × List Nat) := do
  let (s, p, out) ← forN 14 pixel4 (⟨st.1, (0, 0), (0, 0)⟩, st.2.1, st.2.2)
  .ok (s.sh, p, out)

/-- The closure of `decode_panasonic_v4`, v4decompressor.rs:10-48; `out` holds the samples of the packets so far. -/
def stripV4 (buf : List Nat) (width : Nat) (split : Bool) (piece : List Nat) (row : Nat) : R (List Nat) := do
  let skip := (width * row * 9 + width / 14 * 2 * row) / 8
  let src ← from' buf (skip / 0x4000 * 0x4000)
  let p ← forN (skip % 0x4000) (fun _ p => do let (_, p) ← Pump.get p 8; .ok p) ⟨src, 0, 0, split⟩
  let (_, _, out) ← forN (piece.length / 14) (fun _ st => packet4 st) (0, p, [])
  .ok (out ++ piece.drop (piece.length / 14 * 14))

/-- `decode_panasonic_v4`, v4decompressor.rs:3-50 -/
def decodeV4 (buf : List Nat) (width height : Nat) (split : Bool) : R (List Nat) :=
  stripsFn width height 5 fun piece strip => stripV4 buf width split piece (strip * 5)

end Verif.Pana
