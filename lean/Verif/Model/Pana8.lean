import Verif.Model.Pumps
import Verif.Model.Slice
/-! # Panasonic raw format 8, decoders/rw2/v8decompressor.rs

The settings are read from the TIFF directory by the TIFF reader and `ByteStream`; they are a parameter here. The strips are decoded one after the
other; the code does it in parallel on a shared image. -/

namespace Verif.Pana8
open Verif Verif.Pumps

/-! ## BitPumpReverseBitsMSB -/

/-- `u8::reverse_bits` -/
def rev8 (b : Nat) : Nat := (List.range 8).foldl (fun a i => 2 * a + (b.testBit i).toNat) 0

/-- `struct BitPumpReverseBitsMSB`, pumps.rs:443-448, with the unread bytes in place of `buffer` and `pos`. -/
structure PumpRev where
  rest : List Nat
  bits : Nat
  nbits : Nat
  deriving DecidableEq, Repr

/-- `BitPumpReverseBitsMSB::new`, pumps.rs:451-458. -/
def PumpRev.new (src : List Nat) : PumpRev := ⟨src, 0, 0⟩

/-- The refill part of `BitPumpReverseBitsMSB::peek_bits`, pumps.rs:464-475, on a little-endian machine: `BEu32` panics with less than four bytes left. -/
def PumpRev.fill (p : PumpRev) (num : Nat) : R PumpRev :=
  if num > p.nbits then
    match p.rest with
    | a :: b :: c :: d :: r => .ok ⟨r, ((p.bits <<< 32) % 2 ^ 64) ||| beU32 (rev8 a) (rev8 b) (rev8 c) (rev8 d), p.nbits + 32⟩
    | _ => panic'
  else .ok p

/-- `BitPumpReverseBitsMSB::peek_bits`, pumps.rs:463-477. -/
def PumpRev.peek (p : PumpRev) (num : Nat) : R (Nat × PumpRev) := do
  let p ← p.fill num
  let v ← topBits p.bits p.nbits num
  .ok (v, p)

/-- `BitPumpReverseBitsMSB::consume_bits`, pumps.rs:480-483. -/
def PumpRev.consume (p : PumpRev) (num : Nat) : R PumpRev := do
  let (b, n) ← consumeMSB p.bits p.nbits num
  .ok { p with bits := b, nbits := n }

instance : BitPump PumpRev := ⟨PumpRev.peek, PumpRev.consume⟩

/-! ## Settings -/

/-- `struct CF2Params`, v8decompressor.rs:28-89, without the fields not used; `init` are `huf_init_val0` to `huf_init_val3`, `lineOffsets` pairs of
columns and rows. -/
structure Params where
  gammaPoint : List Nat
  gammaSlope : List Nat
  clip : Nat
  init : List Nat
  table : List (Nat × Nat)
  shiftDown : List Nat
  stripsH : Nat
  stripsV : Nat
  byteOffsets : List Nat
  lineOffsets : List (Nat × Nat)
  dataSizes : List Nat
  widths : List Nat
  heights : List Nat

/-! ## Huffman decoder -/

/-- One entry of `huff_symbols`, v8decompressor.rs:204-214 and 259 (`*bits as u8`): number of bits, symbol and mask, aligned to the left. -/
def hsym (e : Nat × Nat) : R (Nat × Nat × Nat) := do
  let n := e.1 % 256
  let s ← usub 16 n
  assert' (s < 16)
  assert' (e.2 = e.2 &&& (0xFFFF >>> s))
  .ok (n, (e.2 <<< s) % 65536, (0xFFFF <<< s) % 65536)

/-- `HuffmanDecoder::new`, v8decompressor.rs:201-216: 17 entries, those not given are zero. -/
def huffNew (table : List (Nat × Nat)) : R (List (Nat × Nat × Nat)) := do
  let l ← table.mapM hsym
  assert' (l.length ≤ 17)
  .ok (l ++ List.replicate (17 - l.length) (0, 0, 0))

/-- `slow_lookup`, v8decompressor.rs:224-231. -/
def lookup (syms : List (Nat × Nat × Nat)) (x : Nat) : Option Nat :=
  (List.range 17).find? fun i => x &&& (syms.getD i (0, 0, 0)).2.2 == (syms.getD i (0, 0, 0)).2.1

/-- `get_next`, v8decompressor.rs:235-244. The cache (217-220) is `slow_lookup` for every 16 bit number, with the number of bits. -/
def getNext (syms : List (Nat × Nat × Nat)) (p : PumpRev) : R (Nat × PumpRev) := do
  let (x, p) ← BitPump.peek p 16
  match lookup syms x with
  | some i => do
    let p ← BitPump.consume p (syms.getD i (0, 0, 0)).1
    .ok (i, p)
  | none => panic'

/-! ## Gamma table -/

/-- The number of the segment in `calc_gamma`, v8decompressor.rs:315-326. -/
def segment (slopes : List Nat) (x : Nat) : R Nat := do
  let s1 ← idx slopes 1
  if x ≥ 0xFFFF &&& s1 then do
    let s2 ← idx slopes 2
    if x ≥ 0xFFFF &&& s2 then do
      let s3 ← idx slopes 3
      if x ≥ 0xFFFF &&& s3 then do
        let s4 ← idx slopes 4
        if x ≥ 0xFFFF &&& s4 then do
          let s5 ← idx slopes 5
          .ok (((x ||| 0x500000000) - (0xFFFF &&& s5)) >>> 32)
        else .ok 3
      else .ok 2
    else .ok 1
  else .ok 0

/-- `calc_gamma`, v8decompressor.rs:296-350. -/
def calcGamma (P : Params) (i : Nat) : R Nat := do
  let tmp := if i &&& 0x10000 = 0 then i &&& 0x1FFFF else i ||| 0xFFFF0000
  let x := min tmp 0xFFFF
  let x := if x &&& 0x80000000 ≠ 0 then 0 else x
  let k ← segment P.gammaSlope x
  let point ← idx P.gammaPoint k
  let slope ← idx P.gammaSlope k
  let tmp ← usub x (slope &&& 0xFFFF)
  if point &&& 0x1F = 31 then do
    let r ← (if k = 5 then .ok 0xFFFF else do
      let s ← idx P.gammaSlope (k + 1)
      .ok ((s >>> 16) &&& 0xFFFF) : R Nat)
    .ok (min r P.clip)
  else if point &&& 0x10 = 0 ∧ point &&& 0x1F = 15 then .ok (min ((slope >>> 16) &&& 0xFFFF) P.clip)
  else
    let tmp := if point &&& 0x10 = 0 then
        (if point &&& 0x1F ≠ 0 then (tmp + (1 <<< ((point &&& 0x1F) - 1))) >>> (point &&& 0x1F) else tmp)
      else (tmp <<< (point &&& 0xF)) % 2 ^ 32
    .ok (min ((tmp + ((slope >>> 16) &&& 0xFFFF)) % 65536) P.clip)

/-- `make_gammatable`, v8decompressor.rs:352-368. -/
def gammaTable (P : Params) : R (Option (List Nat)) :=
  if P.gammaPoint = List.replicate 6 65536 ∧ P.gammaSlope = List.replicate 6 0 then .ok none
  else do
    let t ← (List.range 65536).mapM (calcGamma P)
    .ok (some t)

/-! ## Strips -/

/-- The difference of a sample, v8decompressor.rs:430-458. The number read has at most 16 bits, so that it does not change as an `i32`. -/
def readDiff (P : Params) (syms : List (Nat × Nat × Nat)) (p : PumpRev) : R (Int × PumpRev) := do
  let (ssss, p) ← getNext syms p
  let sd ← idx P.shiftDown ssss
  assert' (sd &&& 0x1F = 0)
  if ssss = 0 then .ok (0, p)
  else do
    let (raw, p) ← getBits p ssss
    assert' (sd &&& 0xFF < 32)
    let val : Int := ((raw <<< (sd &&& 0xFF)) % 2 ^ 32 : Nat)
    .ok (if raw >>> (ssss - 1) = 1 then val else val - 2 ^ ssss + 1, p)

/-- `clamp`, bits.rs:28-37. -/
def clamp (v lo hi : Int) : Int :=
  let r := if v < lo then lo else v
  if r > hi then hi else r

/-- Bases and line buffer. -/
structure Line where
  cur : List Nat
  base : List Nat
  buf : List Nat

/-- Which of the four samples of a group comes next, v8decompressor.rs:463-476. -/
def slot (col : Nat) : Nat := if col % 4 = 2 then 1 else if col % 4 = 1 then 2 else if col % 4 ≠ 0 then 3 else 0

/-- One sample, v8decompressor.rs:428-485. -/
def sample (P : Params) (syms : List (Nat × Nat × Nat)) (col : Nat) (s : PumpRev × Line) : R (PumpRev × Line) := do
  let (d, p) ← readDiff P syms s.1
  let c ← idx s.2.cur (slot col)
  let buf ← upd s.2.buf (col / 4 * 4 + slot col) (clamp (c + d) 0 P.clip).toNat
  let cur ← (if col % 4 = 3 then slice buf (col / 4 * 4) (col / 4 * 4 + 4) else .ok s.2.cur : R (List Nat))
  let base ← (if col = 3 then slice buf 0 4 else .ok s.2.base : R (List Nat))
  .ok (p, { cur := cur, base := base, buf := buf })

/-- Through the gamma table, if there is one. -/
def look (t : Option (List Nat)) (v : Nat) : R Nat :=
  match t with
  | some t => idx t v
  | none => .ok v

/-- Four samples of the line buffer into the image of width `w`, v8decompressor.rs:491-509. `at_mut` checks its index in builds with debug assertions
only. -/
def copyGroup (t : Option (List Nat)) (buf : List Nat) (w row left : Nat) (k : Nat) (out : List Nat) : R (List Nat) := do
  let a ← idx buf (4 * k)
  let a ← look t a
  let out ← upd out (row * w + (left + 2 * k)) a
  let b ← idx buf (4 * k + 1)
  let b ← look t b
  let out ← upd out (row * w + (left + 2 * k + 1)) b
  let c ← idx buf (4 * k + 2)
  let c ← look t c
  let out ← upd out ((row + 1) * w + (left + 2 * k)) c
  let d ← idx buf (4 * k + 3)
  let d ← look t d
  upd out ((row + 1) * w + (left + 2 * k + 1)) d

/-- A pair of rows, v8decompressor.rs:425-510. -/
def rowPair (P : Params) (syms : List (Nat × Nat × Nat)) (t : Option (List Nat)) (strip width w i : Nat)
    (s : PumpRev × Line × List Nat) : R (PumpRev × Line × List Nat) := do
  let (p, line) ← forN ((width >>> 1) * 4) (sample P syms) (s.1, { s.2.1 with cur := s.2.1.base })
  assert' (line.buf.length = 2 * width)
  let off ← (if 0 < width then idx P.lineOffsets strip else .ok (0, 0) : R (Nat × Nat))
  let out ← forN (width / 2) (copyGroup t line.buf w (off.2 + i * 2) off.1) s.2.2
  .ok (p, line, out)

/-- `decode_strip`, v8decompressor.rs:405-512, with `State::new`, 256-277. -/
def decodeStrip (P : Params) (data : List Nat) (strip w : Nat) (out : List Nat) : R (List Nat) := do
  let width ← idx P.widths strip
  let height ← idx P.heights strip
  let t ← gammaTable P
  let syms ← huffNew P.table
  let (_, _, out) ← forN (height >>> 1) (rowPair P syms t strip width w)
    (PumpRev.new data, { cur := P.init, base := P.init, buf := List.replicate ((width >>> 1) * 4) 0 }, out)
  .ok out

/-- `decode_panasonic_v8`, v8decompressor.rs:371-402. -/
def decode (P : Params) (file : List Nat) (w h : Nat) : R (List Nat) := do
  assert' (P.stripsV ≠ 0)
  assert' (P.widths.sum / P.stripsV = w)
  assert' (P.stripsH * P.stripsV < 65536)
  let streams ← (List.range (P.stripsH * P.stripsV)).mapM fun k => (do
    let off ← idx P.byteOffsets k
    let size ← idx P.dataSizes k
    if off + (size + 7) / 8 ≤ file.length then .ok ((file.drop off).take ((size + 7) / 8)) else fail' : R (List Nat))
  forN (P.stripsH * P.stripsV) (fun k out => do
    let data ← idx streams k
    decodeStrip P data k w out) (List.replicate (w * h) 0)

end Verif.Pana8
