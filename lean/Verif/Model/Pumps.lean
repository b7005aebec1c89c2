import Verif.Base
/-!
# Bit pumps (`rawler/src/pumps.rs`)

A pump holds `buffer`/`pos`; the model keeps only the unread suffix `rest = buffer[pos..]`.
-/

namespace Verif.Pumps
open Verif

/-- `trait BitPump`, pumps.rs:150-152 (`peek_bits`, `consume_bits`). -/
class BitPump (P : Type) where
  peek : P → Nat → R (Nat × P)
  consume : P → Nat → R P

/-- `BitPump::get_bits`, pumps.rs:154-164. -/
def getBits {P : Type} [BitPump P] (p : P) (num : Nat) : R (Nat × P) :=
  if num = 0 then .ok (0, p) else do
    let (v, p) ← BitPump.peek p num
    let p ← BitPump.consume p num
    .ok (v, p)

/-- `self.nbits -= num; self.bits &= (1 << self.nbits) - 1`, shared by all MSB pumps
(pumps.rs:234-238, 253-257, 313-318; huffman.rs:78-81). `1 << nbits` on `u64` panics for `nbits ≥ 64`. -/
def consumeMSB (bits nbits num : Nat) : R (Nat × Nat) :=
  if num ≤ nbits then
    if nbits - num < 64 then .ok (bits &&& ((1 <<< (nbits - num)) - 1), nbits - num) else panic'
  else panic'

/-! ## BitPumpJPEG -/

/-- `struct BitPumpJPEG`, pumps.rs:130-136. -/
structure PumpJPEG where
  rest : List Nat
  bits : Nat
  nbits : Nat
  finished : Bool
  deriving DecidableEq, Repr

/-- `BitPumpJPEG::new`, pumps.rs:139-147. -/
def PumpJPEG.new (src : List Nat) : PumpJPEG := ⟨src, 0, 0, false⟩

/-- `bits = (bits << 8) | byte; nbits += 8`, pumps.rs:297-299. -/
def PumpJPEG.push8 (p : PumpJPEG) (byte : Nat) : PumpJPEG :=
  { p with bits := ((p.bits <<< 8) % 2 ^ 64) ||| byte, nbits := p.nbits + 8 }

/-- The byte-wise refill loop `while read_bytes < 4 && !self.finished`, pumps.rs:278-301.
First argument: remaining iterations (4 minus `read_bytes`). -/
def PumpJPEG.slow : Nat → PumpJPEG → R PumpJPEG
  | 0, p => .ok p
  | k + 1, p =>
    if p.finished then .ok p else
    match p.rest with
    | [] => slow k { p.push8 0 with finished := true }
    | b :: r =>
      if b ≠ 0xff then slow k { p.push8 b with rest := r }
      else match r with
        | [] => panic'                                    -- buffer[pos + 1] out of range
        | c :: r' =>
          if c = 0 then slow k { p.push8 b with rest := r' }
          else slow k { p.push8 0 with rest := r, finished := true }

/-- The four-byte fast path condition and value, pumps.rs:265-272: more than four bytes left and none of the
next four is 0xff. -/
def PumpJPEG.fastWord (rest : List Nat) : Option (Nat × List Nat) :=
  match rest with
  | a :: b :: c :: d :: e :: r =>
    if a ≠ 0xff ∧ b ≠ 0xff ∧ c ≠ 0xff ∧ d ≠ 0xff then
      some (((a * 256 + b) * 256 + c) * 256 + d, e :: r)
    else none
  | _ => none

/-- The refill part of `BitPumpJPEG::peek_bits`, pumps.rs:264-303. -/
def PumpJPEG.refill (p : PumpJPEG) (num : Nat) : R PumpJPEG :=
  if num > p.nbits ∧ p.finished = false then
    match PumpJPEG.fastWord p.rest with
    | some (w, r) => .ok { p with rest := r, bits := ((p.bits <<< 32) % 2 ^ 64) ||| w, nbits := p.nbits + 32 }
    | none => PumpJPEG.slow 4 p
  else .ok p

/-- The zero stuffing part of `BitPumpJPEG::peek_bits`, pumps.rs:304-308. -/
def PumpJPEG.stuffZero (p : PumpJPEG) (num : Nat) : PumpJPEG :=
  if num > p.nbits ∧ p.finished = true then
    { p with bits := (p.bits <<< 32) % 2 ^ 64, nbits := p.nbits + 32 }
  else p

/-- `BitPumpJPEG::peek_bits`, pumps.rs:263-311. -/
def PumpJPEG.peek (p : PumpJPEG) (num : Nat) : R (Nat × PumpJPEG) := do
  let p ← p.refill num
  let p := p.stuffZero num
  if num ≤ p.nbits ∧ p.nbits - num < 64 then .ok ((p.bits >>> (p.nbits - num)) % 2 ^ 32, p) else panic'

/-- `BitPumpJPEG::consume_bits`, pumps.rs:313-318. -/
def PumpJPEG.consume (p : PumpJPEG) (num : Nat) : R PumpJPEG := do
  let (b, n) ← consumeMSB p.bits p.nbits num
  .ok { p with bits := b, nbits := n }

instance : BitPump PumpJPEG := ⟨PumpJPEG.peek, PumpJPEG.consume⟩

/-! ## Pumps that read 32 bit pieces

`buffer` is `src.chunks(4)`; whole pieces are taken, so the model keeps the unread bytes and takes four at a time. -/

/-- `u32::from_be_bytes` -/
def beU32 (a b c d : Nat) : Nat := ((a * 256 + b) * 256 + c) * 256 + d

/-- The slow refill fold `((bits << 8) | x, cnt + 8)`, pumps.rs:73, 116-119 and 33-36. -/
def foldBytes (chunk : List Nat) : Nat × Nat :=
  chunk.foldl (fun bc x => (((bc.1 <<< 8) % 2 ^ 32) ||| x, bc.2 + 8)) (0, 0)

/-- `BitPumpMSB::refill`, pumps.rs:65-78: value, number of bits, unread bytes. -/
def refillBE (rest : List Nat) : R (Nat × Nat × List Nat) :=
  match rest with
  | [] => panic'
  | [_, _, _] | [_, _] | [_] => .ok ((foldBytes rest).1, (foldBytes rest).2, [])
  | a :: b :: c :: d :: r => .ok (beU32 a b c d, 32, r)

/-- `BitPumpLSB::refill`, pumps.rs:25-41, and `BitPumpMSB32::refill`, pumps.rs:106-122. -/
def refillLE (rest : List Nat) : R (Nat × Nat × List Nat) :=
  match rest with
  | [] => panic'
  | [_, _, _] | [_, _] | [_] => .ok ((foldBytes rest.reverse).1, (foldBytes rest.reverse).2, [])
  | a :: b :: c :: d :: r => .ok (beU32 d c b a, 32, r)

/-- `struct BitPumpMSB`, pumps.rs:44-49. -/
structure PumpMSB where
  rest : List Nat
  bits : Nat
  nbits : Nat
  deriving DecidableEq, Repr

/-- `BitPumpMSB::new`, pumps.rs:52-58. -/
def PumpMSB.new (src : List Nat) : PumpMSB := ⟨src, 0, 0⟩

/-- The refill part of `BitPumpMSB::peek_bits`, pumps.rs:225-229. -/
def PumpMSB.fill (p : PumpMSB) (num : Nat) : R PumpMSB :=
  if num > p.nbits then do
    let (v, cnt, r) ← refillBE p.rest
    .ok ⟨r, ((p.bits <<< cnt) % 2 ^ 64) ||| v, p.nbits + cnt⟩
  else .ok p

/-- `(self.bits >> (self.nbits - num)) as u32`, pumps.rs:230, 248. -/
def topBits (bits nbits num : Nat) : R Nat :=
  if num ≤ nbits ∧ nbits - num < 64 then .ok ((bits >>> (nbits - num)) % 2 ^ 32) else panic'

/-- `BitPumpMSB::peek_bits`, pumps.rs:224-231. -/
def PumpMSB.peek (p : PumpMSB) (num : Nat) : R (Nat × PumpMSB) := do
  let p ← p.fill num
  let v ← topBits p.bits p.nbits num
  .ok (v, p)

/-- `BitPumpMSB::consume_bits`, pumps.rs:234-237. -/
def PumpMSB.consume (p : PumpMSB) (num : Nat) : R PumpMSB := do
  let (b, n) ← consumeMSB p.bits p.nbits num
  .ok { p with bits := b, nbits := n }

instance : BitPump PumpMSB := ⟨PumpMSB.peek, PumpMSB.consume⟩

/-- `struct BitPumpMSB32`, pumps.rs:81-87. -/
structure PumpMSB32 where
  rest : List Nat
  pos : Nat
  bits : Nat
  nbits : Nat
  deriving DecidableEq, Repr

/-- `BitPumpMSB32::new`, pumps.rs:90-97. -/
def PumpMSB32.new (src : List Nat) : PumpMSB32 := ⟨src, 0, 0, 0⟩

/-- The refill part of `BitPumpMSB32::peek_bits`, pumps.rs:243-248: the buffered bits are always moved up by 32. -/
def PumpMSB32.fill (p : PumpMSB32) (num : Nat) : R PumpMSB32 :=
  if num > p.nbits then do
    let (v, cnt, r) ← refillLE p.rest
    .ok ⟨r, p.pos + cnt / 8, ((p.bits <<< 32) % 2 ^ 64) ||| v, p.nbits + cnt⟩
  else .ok p

/-- `BitPumpMSB32::peek_bits`, pumps.rs:242-250. -/
def PumpMSB32.peek (p : PumpMSB32) (num : Nat) : R (Nat × PumpMSB32) := do
  let p ← p.fill num
  let v ← topBits p.bits p.nbits num
  .ok (v, p)

/-- `BitPumpMSB32::consume_bits`, pumps.rs:253-256. -/
def PumpMSB32.consume (p : PumpMSB32) (num : Nat) : R PumpMSB32 := do
  let (b, n) ← consumeMSB p.bits p.nbits num
  .ok { p with bits := b, nbits := n }

/-- `BitPumpMSB32::get_pos`, pumps.rs:125-127. -/
def PumpMSB32.getPos (p : PumpMSB32) : R Nat := usub p.pos (p.nbits >>> 3)

instance : BitPump PumpMSB32 := ⟨PumpMSB32.peek, PumpMSB32.consume⟩

/-- `struct BitPumpLSB`, pumps.rs:6-10. -/
structure PumpLSB where
  rest : List Nat
  bits : Nat
  nbits : Nat
  deriving DecidableEq, Repr

/-- `BitPumpLSB::new`, pumps.rs:13-19. -/
def PumpLSB.new (src : List Nat) : PumpLSB := ⟨src, 0, 0⟩

/-- The refill part of `BitPumpLSB::peek_bits`, pumps.rs:207-211. -/
def PumpLSB.fill (p : PumpLSB) (num : Nat) : R PumpLSB :=
  if num > p.nbits then do
    let (v, cnt, r) ← refillLE p.rest
    let s ← usub 32 p.nbits
    .ok ⟨r, (v <<< 32 ||| (p.bits <<< s) % 2 ^ 64) >>> s, p.nbits + cnt⟩
  else .ok p

/-- `BitPumpLSB::peek_bits`, pumps.rs:206-213. -/
def PumpLSB.peek (p : PumpLSB) (num : Nat) : R (Nat × PumpLSB) := do
  let p ← p.fill num
  let s ← usub 32 num
  .ok (p.bits &&& (0xffffffff >>> s), p)

/-- `BitPumpLSB::consume_bits`, pumps.rs:216-219. -/
def PumpLSB.consume (p : PumpLSB) (num : Nat) : R PumpLSB := do
  let n ← usub p.nbits num
  if num < 64 then .ok { p with bits := p.bits >>> num, nbits := n } else panic'

instance : BitPump PumpLSB := ⟨PumpLSB.peek, PumpLSB.consume⟩

/-- `BitPump::consume_zerobits`, pumps.rs:186-202; `fuel` bounds the number of rounds (running out = does not return).
`batch.leading_zeros()` of `(v << 1) | 1` with `v < 2^31` is 31 for `v = 0` and `30 - log2 v` otherwise. -/
def consumeZerobits {P : Type} [BitPump P] : Nat → P → Nat → R (Nat × P)
  | 0, _, _ => panic'
  | fuel + 1, p, count => do
    let (v, p) ← BitPump.peek p 31
    let n := if v = 0 then 31 else 30 - Nat.log2 v
    let p ← BitPump.consume p n
    if n ≠ 31 then .ok (count + n, p) else consumeZerobits fuel p (count + n)

/-- `BitPump::get_ibits_sextended`, pumps.rs:176-180, as the signed value: the field of `num` bits read as a two's complement
number (`wrapping_shl`/`wrapping_shr` by `32 - num` on `i32`; a `num` above 32 underflows, and for `num = 0` the
shift by 32 wraps to 0 and the value is 0). -/
def getIbitsSextended {P : Type} [BitPump P] (p : P) (num : Nat) : R (Int × P) := do
  let (v, p) ← getBits p num
  let s ← usub 32 num
  let up : Nat := (v <<< (s % 32)) % 2 ^ 32
  let i : Int := if up < 2 ^ 31 then Int.ofNat up else Int.ofNat up - 2 ^ 32
  .ok (i / 2 ^ (s % 32), p)

end Verif.Pumps
