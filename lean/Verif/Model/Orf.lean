import Verif.Model.I32
import Verif.Model.Pumps
/-! # Olympus ORF decompression (rawler/src/decoders/orf.rs) -/

namespace Verif.Orf
open Verif Verif.Pumps

/-- `acarry[s]`, orf.rs:289. The first and the third number are never negative. -/
structure Carry where
  c0 : Nat
  c1 : Int
  c2 : Nat

/-- An entry of `bittable`, orf.rs:272-281 -/
def leading (i : Nat) : Nat := ((List.range 12).find? fun high => (i >>> (11 - high)) &&& 1 ≠ 0).getD 12

/-- The `while` loop for the number of bits, orf.rs:297-299. A shift by 32 panics, so 32 rounds are enough. -/
def growBits (c0 i : Nat) : Nat → Nat → R Nat
  | 0, _ => panic'
  | fuel + 1, n =>
    if 32 ≤ n + i then panic'
    else if (c0 >>> (n + i)) &&& 0xffff > 0 then growBits c0 i fuel (n + 1)
    else .ok n

/-- orf.rs:295-300 -/
def nbitsFor (a : Carry) : R Nat := do
  let i := if a.c2 < 3 then 2 else 0
  let n ← growBits a.c0 i 32 (2 + i)
  .ok (min n 16)

/-- Skip what was used, or read more, orf.rs:308-313 -/
def readHigh (p : PumpMSB) (nbits high : Nat) : R (Nat × PumpMSB) :=
  if high = 12 then do
    let p ← BitPump.consume p 15
    let (v, p) ← getBits p (16 - nbits)
    .ok (v >>> 1, p)
  else do
    let p ← BitPump.consume p (high + 4)
    .ok (high, p)

/-- `diff` and `low` of a pixel, orf.rs:295-318. `x ^ -1` is `-1 - x`. -/
def readDiff (p : PumpMSB) (a : Carry) : R ((Int × Nat) × PumpMSB × Carry) := do
  let nbits ← nbitsFor a
  let (b, p) ← BitPump.peek p 15
  let low := (b >>> 12) &&& 3
  let (high, p) ← readHigh p nbits (leading (b &&& 4095))
  let (v, p) ← getBits p nbits
  let c0 := (high <<< nbits) ||| v
  let diff ← chkI32 ((if b >>> 14 = 0 then (c0 : Int) else -1 - c0) + a.c1)
  let t ← chkI32 (diff * 3)
  let t ← chkI32 (t + a.c1)
  .ok ((diff, low), p, ⟨c0, t / 32, if c0 > 16 then 0 else a.c2 + 1⟩)

/-- What is kept for the even or the odd columns: `acarry[s]`, `left[s]`, `nw[s]` -/
structure Side where
  c : Carry
  left : Int
  nw : Int

/-- The prediction and the new `nw[s]`, orf.rs:320-350 and 353 -/
def predict (out : List Nat) (width row col s : Nat) (sd : Side) : R (Int × Int) :=
  if row < 2 ∨ col < 2 then
    if row < 2 ∧ col < 2 then .ok (0, sd.nw)
    else if row < 2 then .ok (sd.left, sd.nw)
    else do
      let n ← idx out ((row - 2) * width + (col + s))
      .ok ((n : Int), (n : Int))
  else do
    let up ← idx out ((row - 2) * width + (col + s))
    let a ← chkI32 (sd.left - sd.nw)
    let b ← chkI32 (up - sd.nw)
    let m ← chkI32 (a * b)
    if m < 0 then
      if a.natAbs > 32 ∨ b.natAbs > 32 then do
        let v ← chkI32 (sd.left + b)
        .ok (v, (up : Int))
      else do
        let v ← chkI32 (sd.left + up)
        .ok (v / 2, (up : Int))
    else if a.natAbs > b.natAbs then .ok (sd.left, (up : Int))
    else .ok ((up : Int), (up : Int))

/-- One pixel, orf.rs:295-355. `(diff << 2) | low` is a sum because `low` has two bits; the shift drops high bits. -/
def pixel (width row col s : Nat) (out : List Nat) (p : PumpMSB) (sd : Side) : R (List Nat × PumpMSB × Side) := do
  let ((diff, low), p, c) ← readDiff p sd.c
  let (pred, nw) ← predict out width row col s sd
  let left ← chkI32 (pred + (((diff * 4 + 2 ^ 31) % 2 ^ 32 - 2 ^ 31) + low))
  let out ← upd out (row * width + (col + s)) (asU16 left)
  .ok (out, p, ⟨c, left, nw⟩)

/-- An even and an odd pixel, orf.rs:291-293 -/
def pair (width row c : Nat) (st : List Nat × PumpMSB × Side × Side) : R (List Nat × PumpMSB × Side × Side) := do
  let (out, p, a, b) := st
  let (out, p, a) ← pixel width row (c * 2) 0 out p a
  let (out, p, b) ← pixel width row (c * 2) 1 out p b
  .ok (out, p, a, b)

/-- One row, orf.rs:288-291: `acarry` starts anew, `left` and `nw` do not. -/
def row (width row : Nat) (st : List Nat × PumpMSB × Side × Side) : R (List Nat × PumpMSB × Side × Side) :=
  forN (width / 2) (pair width row) (st.1, st.2.1, { st.2.2.1 with c := ⟨0, 0, 0⟩ }, { st.2.2.2 with c := ⟨0, 0, 0⟩ })

/-- `OrfDecoder::decode_compressed`, orf.rs:267-360; `buf[skip..]` panics for a shorter buffer. -/
def decodeOrf (buf : List Nat) (width height bps : Nat) : R (List Nat) := do
  let skip := if bps = 14 then 8 else 7
  if buf.length < skip then panic' else do
  let (out, _) ← forN height (row width) (List.replicate (width * height) 0, PumpMSB.new (buf.drop skip), ⟨⟨0, 0, 0⟩, 0, 0⟩, ⟨⟨0, 0, 0⟩, 0, 0⟩)
  .ok out

end Verif.Orf
