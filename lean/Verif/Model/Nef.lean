import Verif.Model.Pef
import Verif.Model.Linearize
/-! # Nikon NEF decompression (rawler/src/decoders/nef.rs) -/

namespace Verif.Nef
open Verif Verif.Pumps Verif.Ljpeg Verif.Pef

/-- `NIKON_TREE`, nef.rs:64-101 -/
def NIKON_TREE : List (List Nat × List Nat × List Nat) := [
  ([0, 0, 1, 5, 1, 1, 1, 1, 1, 1, 2, 0, 0, 0, 0, 0],
   [5, 4, 3, 6, 2, 7, 1, 0, 8, 9, 11, 10, 12, 0, 0, 0],
   [0, 0, 0, 0, 0, 0, 0, 0, 0, 0, 0, 0, 0, 0, 0, 0]),
  ([0, 0, 1, 5, 1, 1, 1, 1, 1, 1, 2, 0, 0, 0, 0, 0],
   [6, 5, 5, 5, 5, 5, 4, 3, 2, 1, 0, 11, 12, 12, 0, 0],
   [3, 5, 3, 2, 1, 0, 0, 0, 0, 0, 0, 0, 0, 0, 0, 0]),
  ([0, 0, 1, 4, 2, 3, 1, 2, 0, 0, 0, 0, 0, 0, 0, 0],
   [5, 4, 6, 3, 7, 2, 8, 1, 9, 0, 10, 11, 12, 0, 0, 0],
   [0, 0, 0, 0, 0, 0, 0, 0, 0, 0, 0, 0, 0, 0, 0, 0]),
  ([0, 0, 1, 4, 3, 1, 1, 1, 1, 1, 2, 0, 0, 0, 0, 0],
   [5, 6, 4, 7, 8, 3, 9, 2, 1, 0, 10, 11, 12, 13, 14, 0],
   [0, 0, 0, 0, 0, 0, 0, 0, 0, 0, 0, 0, 0, 0, 0, 0]),
  ([0, 0, 1, 5, 1, 1, 1, 1, 1, 1, 1, 2, 0, 0, 0, 0],
   [8, 7, 7, 7, 7, 7, 6, 5, 4, 3, 2, 1, 0, 13, 14, 0],
   [0, 5, 4, 3, 2, 0, 0, 0, 0, 0, 0, 0, 0, 0, 0, 0]),
  ([0, 0, 1, 4, 2, 2, 3, 1, 2, 0, 0, 0, 0, 0, 0, 0],
   [7, 6, 8, 5, 9, 4, 10, 3, 11, 12, 2, 0, 1, 13, 14, 0],
   [0, 0, 0, 0, 0, 0, 0, 0, 0, 0, 0, 0, 0, 0, 0, 0])]

/-- The arrays filled by `create_hufftable`, nef.rs:531-535: the first 15 entries of each row -/
def treeArrays (e : List Nat × List Nat × List Nat) : List Nat × List Nat × List Nat :=
  (e.1.take 15 ++ List.replicate 2 0, e.2.1.take 15 ++ List.replicate 241 0, e.2.2.take 15 ++ List.replicate 241 0)

/-- `create_hufftable`, nef.rs:528-539 -/
def createHufftable (num : Nat) : R HuffTable := do
  let e ← idx NIKON_TREE num
  let a := treeArrays e
  HuffTable.new a.1 a.2.1 a.2.2 false

/-- `clampbits`, bits.rs:17-26, for fewer than 31 bits -/
def clampbits (v : Int) (bits : Nat) : Nat := if v < 0 then 0 else if v > 2 ^ bits - 1 then (2 ^ bits - 1) % 2 ^ 16 else v.toNat % 2 ^ 16

/-- What `do_decode` takes from the metadata. -/
structure Header where
  select : Nat
  up1 : List Int
  up2 : List Int
  bits : Nat
  points : List Nat
  split : Nat
  deriving DecidableEq, Repr

/-- `points[i * step] = stream.get_u16()`, nef.rs:647-649 (and 663-665 with step 1) -/
def knotStep (le : Bool) (step : Nat) (i : Nat) (st : List Nat × List Nat) : R (List Nat × List Nat) := do
  let (v, s) ← bsU16 le st.2
  let pts ← upd st.1 (i * step) v
  .ok (pts, s)

/-- The interpolation, nef.rs:650-660 -/
def lerpStep (step : Nat) (i : Nat) (pts : List Nat) : R (List Nat) := do
  let b := i % step
  let a := step - b
  let pa ← idx pts (i - b)
  let pb ← idx pts (i - b + step)
  upd pts i (((a * pa + b * pb) / step) % 2 ^ 16)

/-- The curve, nef.rs:627-631 and 644-667: all 65536 points, the number of used points and the split row. -/
def curve (v0 v1 : Nat) (le : Bool) (mt : List Nat) (max : Nat) (csize : Nat) (s : List Nat) : R (List Nat × Nat × Nat) :=
  let points := List.range 65536
  let step := if csize > 1 then max / (csize - 1) else 0
  if v0 = 68 ∧ (v1 = 32 ∨ v1 = 64) ∧ step > 0 then do
    let (pts, _) ← forN csize (knotStep le step) (points, s)
    let pts ← forN max (lerpStep step) pts
    let (split, _) ← bsU16 le (mt.drop 562)
    .ok (pts, max, split)
  else if v0 ≠ 70 ∧ csize ≤ 0x4001 then do
    let (pts, _) ← forN csize (knotStep le 1) (points, s)
    .ok (pts, csize, 0)
  else .ok (points, max, 0)

/-- `real_bps`, nef.rs:636-640. `bps as u32 - 2` is on `u32`. -/
def realBps (v0 v1 bps : Nat) : R Nat := if v0 = 68 ∧ v1 = 64 then usub bps 2 else .ok bps

/-- The metadata, nef.rs:601-668. `&points[0..max]` panics beyond 65536. -/
def header (mt : List Nat) (le : Bool) (bps : Nat) : R Header := do
  let (v0, s) ← getU8 mt
  let (v1, s) ← getU8 s
  if (v0 = 73 ∨ v1 = 88) ∧ s.length < 2110 then fail' else do
  let s := if v0 = 73 ∨ v1 = 88 then s.drop 2110 else s
  let select := (if v0 = 70 then 2 else 0) + (if bps = 14 then 3 else 0)
  let (a, s) ← bsU16 le s
  let (b, s) ← bsU16 le s
  let (c, s) ← bsU16 le s
  let (d, s) ← bsU16 le s
  let bits ← realBps v0 v1 bps
  let (csize, s) ← bsU16 le s
  let (pts, max, split) ← curve v0 v1 le mt (2 ^ bits) csize s
  assert' (max ≤ pts.length)
  .ok ⟨select, [a, b], [c, d], bits, pts.take max, split⟩

/-- State: pump, table, `random`, `pred_up1`, `pred_up2`, image -/
structure NSt where
  p : PumpMSB
  t : HuffTable
  random : Nat
  up1 : List Int
  up2 : List Int
  out : List Nat

/-- The next difference, unless in the first pair of a row, nef.rs:682-685 -/
def nextDiff (t : HuffTable) (col : Nat) (p : PumpMSB) (pred : Int) : R (Int × PumpMSB) :=
  if col > 0 then addDiff t p pred else .ok (pred, p)

/-- The change of tables, nef.rs:674-676 -/
def rowTable (hd : Header) (row : Nat) (t : HuffTable) : R HuffTable :=
  if hd.split > 0 ∧ row = hd.split then createHufftable (hd.select + 1) else .ok t

/-- Two pixels, nef.rs:681-688. State: pump, random, `pred_left1`, `pred_left2`, image. -/
def nefPair (t : HuffTable) (tbl : List (Nat × Nat × Nat)) (bits width row : Nat) (k : Nat)
    (st : PumpMSB × Nat × Int × Int × List Nat) : R (PumpMSB × Nat × Int × Int × List Nat) := do
  let (l1, p) ← nextDiff t (2 * k) st.1 st.2.2.1
  let (l2, p) ← nextDiff t (2 * k) p st.2.2.2.1
  let (q, random) ← Linearize.dither tbl (clampbits l1 bits) st.2.1
  let out ← upd st.2.2.2.2 (row * width + 2 * k) q
  let (q, random) ← Linearize.dither tbl (clampbits l2 bits) random
  let out ← upd out (row * width + 2 * k + 1) q
  .ok (p, random, l1, l2, out)

/-- One row, nef.rs:673-689 -/
def nefRow (hd : Header) (tbl : List (Nat × Nat × Nat)) (width : Nat) (row : Nat) (st : NSt) : R NSt := do
  let t ← rowTable hd row st.t
  let u1 ← idx st.up1 (row % 2)
  let (l1, p) ← addDiff t st.p u1
  let u2 ← idx st.up2 (row % 2)
  let (l2, p) ← addDiff t p u2
  let (p, random, _, _, out) ← forN ((width + 1) / 2) (nefPair t tbl hd.bits width row) (p, st.random, l1, l2, st.out)
  .ok ⟨p, t, random, st.up1.set (row % 2) l1, st.up2.set (row % 2) l2, out⟩

/-- `do_decode`, nef.rs:590-692 (not the `dummy` case) -/
def doDecode (src mt : List Nat) (le : Bool) (width height bps : Nat) : R (List Nat) := do
  let hd ← header mt le bps
  let t ← createHufftable hd.select
  let tbl ← Linearize.new hd.points
  let (random, p) ← BitPump.peek (PumpMSB.new src) 24
  let st ← forN height (nefRow hd tbl width) ⟨p, t, random, hd.up1, hd.up2, List.replicate (width * height) 0⟩
  .ok st.out

end Verif.Nef
