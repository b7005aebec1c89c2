import Verif.Model.I32
import Verif.Model.Pumps
import Verif.Model.Linearize
/-! # Sony ARW decompression (rawler/src/decoders/arw.rs) -/

namespace Verif.Arw
open Verif Verif.Pumps

/-! ## ARW1 -/

/-- The second stage of the length code, arw.rs:423-429: `len == 3` takes one more bit, `len == 4` a run of zeros among the next
13 bits. -/
def arw1Extend (p : PumpMSB) (len : Nat) : R (Nat × PumpMSB) :=
  if len = 3 then do
    let (b, p) ← getBits p 1
    .ok (if b ≠ 0 then 0 else 3, p)
  else if len = 4 then do
    let (v, p) ← BitPump.peek p 13
    let zeros := 13 - bitLen v
    let (_, p) ← getBits p (min 13 (zeros + 1))
    .ok (4 + zeros, p)
  else .ok (len, p)

/-- The difference is added to the running sum, arw.rs:430-434; `diff & (1 << (len - 1)) == 0` means the field is below
`2^(len-1)`. Additions and subtractions are on `i32`. -/
def arw1Sum (sum : Int) (len diff : Nat) : R Int := do
  let sum ← chkI32 (sum + diff)
  if 0 < len ∧ diff.testBit (len - 1) = false then chkI32 (sum - (2 ^ len - 1)) else .ok sum

/-- One pixel, arw.rs:421-435. State: pump, running sum, image. -/
def arw1Pixel (width : Nat) (col row : Nat) (st : PumpMSB × Int × List Nat) : R (PumpMSB × Int × List Nat) := do
  let (b, p) ← getBits st.1 2
  let (len, p) ← arw1Extend p (4 - b)
  let (diff, p) ← getBits p len
  let sum ← arw1Sum st.2.1 len diff
  let out ← upd st.2.2 (row * width + col) (asU16 sum)
  .ok (p, sum, out)

/-- The loop `while row <= height`, arw.rs:416-437. The first argument bounds the number of rounds; `height + 1` of them are
enough (running out = does not return). -/
def arw1Col (width height col : Nat) : Nat → Nat → PumpMSB × Int × List Nat → R (PumpMSB × Int × List Nat)
  | 0, _, _ => panic'
  | fuel + 1, row, st =>
    if row ≤ height then do
      let st ← arw1Pixel width col (if row = height then 1 else row) st
      arw1Col width height col fuel ((if row = height then 1 else row) + 2) st
    else .ok st

/-- `decode_arw1`, arw.rs:408-440 (not the `dummy` case) -/
def decodeArw1 (buf : List Nat) (width height : Nat) : R (List Nat) := do
  let st ← forN width (fun x st => arw1Col width height (width - 1 - x) (height + 2) 0 st)
    (PumpMSB.new buf, 0, List.replicate (width * height) 0)
  .ok st.2.2

/-! ## ARW2 -/

/-- The value of pixel `i` of a group, arw.rs:467-473. `u32` addition cannot overflow here. -/
def arw2Val (max min shift imax imin i : Nat) (p : PumpLSB) : R (Nat × PumpLSB) :=
  if i = imax then .ok (max, p)
  else if i = imin then .ok (min, p)
  else do
    let (v, p) ← getBits p 7
    .ok (Nat.min 0x7ff ((v <<< shift) + min), p)

/-- One pixel of a group, arw.rs:467-475. State: pump, random state, the 32 pixels. -/
def arw2Pixel (curve : List (Nat × Nat × Nat)) (j max min shift imax imin : Nat) (i : Nat) (st : PumpLSB × Nat × List Nat) :
    R (PumpLSB × Nat × List Nat) := do
  let (v, p) ← arw2Val max min shift imax imin i st.1
  let (q, random) ← Linearize.dither curve ((v <<< 1) % 2 ^ 16) st.2.1
  let out ← upd st.2.2 (j + i * 2) q
  .ok (p, random, out)

/-- One group of 16 pixels, arw.rs:457-476. `max - min` is on `u32`. -/
def arw2Group (curve : List (Nat × Nat × Nat)) (j : Nat) (st : PumpLSB × Nat × List Nat) : R (PumpLSB × Nat × List Nat) := do
  let (max, p) ← getBits st.1 11
  let (min, p) ← getBits p 11
  let delta ← usub max min
  let (imax, p) ← getBits p 4
  let (imin, p) ← getBits p 4
  forN 16 (arw2Pixel curve j max min (bitLen delta - 7) imax imin) (p, st.2)

/-- 32 pixels, arw.rs:455-477 -/
def arw2Chunk (curve : List (Nat × Nat × Nat)) (p : PumpLSB) (random : Nat) (out : List Nat) : R (PumpLSB × Nat × List Nat) :=
  forN 2 (arw2Group curve) (p, random, out)

/-- The loop over `out.chunks_exact_mut(32)`, arw.rs:454-478: `n` chunks, the results in order. -/
def arw2Chunks (curve : List (Nat × Nat × Nat)) : Nat → PumpLSB → Nat → List Nat → R (List Nat)
  | 0, _, _, out => .ok out
  | n + 1, p, random, out => do
    let (p, random, a) ← arw2Chunk curve p random (out.take 32)
    let b ← arw2Chunks curve n p random (out.drop 32)
    .ok (a ++ b)

/-- One row, arw.rs:450-480: `&buf[(row * width)..]` -/
def arw2Row (buf : List Nat) (curve : List (Nat × Nat × Nat)) (width : Nat) (line : List Nat) (row : Nat) : R (List Nat) := do
  let src ← Packed.from' buf (row * width)
  let (random, p) ← BitPump.peek (PumpLSB.new src) 16
  arw2Chunks curve (line.length / 32) p random line

/-- `decode_arw2`, arw.rs:446-483 (not the `dummy` case) -/
def decodeArw2 (buf : List Nat) (curve : List (Nat × Nat × Nat)) (width height : Nat) : R (List Nat) :=
  Packed.linesFn width height (arw2Row buf curve width)

/-! ## The tone curve -/

/-- One entry, arw.rs:690: `out[j] = out[j - 1] + (1 << i)` on `u16` -/
def curveStep (i : Nat) (j : Nat) (out : List Nat) : R (List Nat) := do
  let a ← idx out (j - 1)
  assert' (a + 2 ^ i < 2 ^ 16)
  upd out j (a + 2 ^ i)

/-- The inner loop over `(curve[i] + 1)..(curve[i + 1] + 1)`, arw.rs:689-691 -/
def curveSegment (knots : List Nat) (i : Nat) (out : List Nat) : R (List Nat) := do
  let a ← idx knots i
  let b ← idx knots (i + 1)
  forN (b - a) (fun k out => curveStep i (a + 1 + k) out) out

/-- The table of `calculate_curve`, arw.rs:686-692 -/
def curveTable (knots : List Nat) : R (List Nat) := do
  let last ← idx knots 5
  forN 5 (curveSegment knots) (List.replicate (last + 1) 0)

/-- `calculate_curve`, arw.rs:686-695 -/
def calculateCurve (knots : List Nat) : R (List (Nat × Nat × Nat)) := do
  let out ← curveTable knots
  Linearize.new out

/-- `get_curve`, arw.rs:675-684, on the first four values of the `SonyCurve` tag -/
def getCurve (tag : List Nat) : R (List (Nat × Nat × Nat)) :=
  calculateCurve ([0] ++ tag.map (fun v => (v >>> 2) &&& 0xfff) ++ [4095])

end Verif.Arw
