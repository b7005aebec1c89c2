import Verif.Model.I32
import Verif.Model.Packed
/-! # Samsung SRW decompression (rawler/src/decoders/srw.rs)

The `dummy` flag is `false`. -/

namespace Verif.Srw
open Verif Verif.Pumps

/-! ## First generation -/

/-- The new lengths of a group, srw.rs:153-161. State: lengths and pump. -/
def lenStep (ops : List Nat) (i : Nat) (st : PumpMSB32 × List Nat) : R (PumpMSB32 × List Nat) := do
  let op ← idx ops i
  if op = 3 then do
    let (v, p) ← getBits st.1 4
    let len ← upd st.2 i v
    .ok (p, len)
  else if op = 2 then do
    let v ← idx st.2 i
    let v ← usub v 1
    let len ← upd st.2 i v
    .ok (st.1, len)
  else if op = 1 then do
    let v ← idx st.2 i
    let len ← upd st.2 i (v + 1)
    .ok (st.1, len)
  else .ok st

/-- Four fields of two bits, srw.rs:153, 415 -/
def ops4 (p : PumpMSB32) : R (List Nat × PumpMSB32) := do
  let (a, p) ← getBits p 2
  let (b, p) ← getBits p 2
  let (c, p) ← getBits p 2
  let (d, p) ← getBits p 2
  .ok ([a, b, c, d], p)

/-- One pixel, srw.rs:164-178 for even, 180-194 for odd `c`: `l` is the index of the length, `up` the row for upward prediction,
`back` how far back left prediction looks. -/
def pixel1 (width col : Nat) (dir : Bool) (len : List Nat) (img up : Nat) (l back c : Nat) (st : PumpMSB32 × List Nat) :
    R (PumpMSB32 × List Nat) := do
  let n ← idx len l
  let (adj, p) ← getIbitsSextended st.1 n
  let predictor ← (if dir then idx st.2 (up + col + c) else if col = 0 then .ok 128 else do
    let i ← usub (img + col) back
    idx st.2 i : R Nat)
  if col + c < width then do
    let v ← chkI32 ((predictor : Int) + adj)
    let out ← upd st.2 (img + col + c) (asU16 v)
    .ok (p, out)
  else .ok (p, st.2)

/-- One group of 16 pixels, srw.rs:150-195. State: pump, lengths and image. -/
def group1 (width row : Nat) (k : Nat) (st : PumpMSB32 × List Nat × List Nat) : R (PumpMSB32 × List Nat × List Nat) := do
  let col := 16 * k
  let img := width * row
  let imgUp := width * (max 1 row - 1)
  let imgUp2 := width * (max 2 row - 2)
  let (d, p) ← getBits st.1 1
  let (ops, p) ← ops4 p
  let (p, len) ← forN 4 (lenStep ops) (p, st.2.1)
  let (p, out) ← forN 8 (fun j => pixel1 width col (d = 1) len img imgUp ((2 * j) >>> 3) 2 (2 * j)) (p, st.2.2)
  let (p, out) ← forN 8 (fun j => pixel1 width col (d = 1) len img imgUp2 (2 ||| ((2 * j + 1) >>> 3)) 1 (2 * j + 1)) (p, out)
  .ok (p, len, out)

/-- One row, srw.rs:140-196: `(0..width).step_by(16)` has `(width + 15) / 16` items. -/
def row1 (buf loffsets : List Nat) (width : Nat) (row : Nat) (out : List Nat) : R (List Nat) := do
  let w ← slice loffsets (row * 4) (row * 4 + 4)
  let loffset := w.foldr (fun b a => b + 256 * a) 0
  let src ← Packed.from' buf loffset
  let (_, _, out) ← forN ((width + 15) / 16) (group1 width row) (PumpMSB32.new src, List.replicate 4 (if row < 2 then 7 else 4), out)
  .ok out

/-- `swap` of slices -/
def swap (l : List Nat) (i j : Nat) : R (List Nat) := do
  let a ← idx l i
  let b ← idx l j
  let l ← upd l i b
  upd l j a

/-- `decode_srw1`, srw.rs:137-208 -/
def decode1 (buf loffsets : List Nat) (width height : Nat) : R (List Nat) := do
  let out ← forN height (row1 buf loffsets width) (List.replicate (width * height) 0)
  forN ((height + 1) / 2) (fun i out => forN ((width + 1) / 2) (fun j out =>
    swap out (2 * i * width + 2 * j + 1) ((2 * i + 1) * width + 2 * j)) out) out

/-! ## Second generation -/

/-- `tab`, srw.rs:219-234 -/
def TAB : List (Nat × Nat) := [(3, 4), (3, 7), (2, 6), (2, 5), (4, 3), (6, 0), (7, 9), (8, 10), (9, 11), (10, 12), (10, 13), (5, 1), (4, 8), (4, 2)]

/-- The entries of one code in the table, srw.rs:246-251 -/
def tableStep (i : Nat) (st : Nat × List (Nat × Nat)) : R (Nat × List (Nat × Nat)) := do
  let e ← idx TAB i
  forN (1024 >>> e.1) (fun _ st => do
    let tbl ← upd st.2 st.1 e
    .ok (st.1 + 1, tbl)) st

/-- The table of 1024 entries, srw.rs:243-253 -/
def table : R (List (Nat × Nat)) := do
  let st ← forN 14 tableStep (0, List.replicate 1024 (0, 0))
  .ok st.2

/-- `srw2_diff`, srw.rs:274-287 -/
def diff2 (tbl : List (Nat × Nat)) (p : PumpMSB) : R (Int × PumpMSB) := do
  let (c, p) ← BitPump.peek p 10
  let e ← idx tbl c
  let p ← BitPump.consume p e.1
  let (d, p) ← getBits p e.2
  if e.2 ≠ 0 ∧ d &&& (1 <<< (e.2 - 1)) = 0 then .ok ((d : Int) - (1 <<< e.2 - 1 : Nat), p) else .ok ((d : Int), p)

/-- `vpred` (row by row), `hpred`, image -/
structure St2 where
  vpred : List Int
  hpred : List Int
  out : List Nat

/-- One pixel, srw.rs:259-268 -/
def pixel2 (tbl : List (Nat × Nat)) (width row col : Nat) (st : PumpMSB × St2) : R (PumpMSB × St2) := do
  let (d, p) ← diff2 tbl st.1
  let s := st.2
  let (vp, hp) ← (if col < 2 then do
    let v ← idx s.vpred (2 * (row % 2) + col)
    let v ← chkI32 (v + d)
    let vp ← upd s.vpred (2 * (row % 2) + col) v
    let hp ← upd s.hpred col v
    .ok (vp, hp)
  else do
    let v ← idx s.hpred (col % 2)
    let v ← chkI32 (v + d)
    let hp ← upd s.hpred (col % 2) v
    .ok (s.vpred, hp) : R (List Int × List Int))
  let v ← idx hp (col % 2)
  let out ← upd s.out (row * width + col) (asU16 v)
  .ok (p, ⟨vp, hp, out⟩)

/-- `decode_srw2`, srw.rs:210-272 -/
def decode2 (buf : List Nat) (width height : Nat) : R (List Nat) := do
  let tbl ← table
  let (_, s) ← forN height (fun row st => forN width (pixel2 tbl width row) st)
    (PumpMSB.new buf, ⟨[0, 0, 0, 0], [0, 0], List.replicate (width * height) 0⟩)
  .ok s.out

/-! ## Third generation -/

/-- `clampbits`, bits.rs:17-26, for `bits ≤ 16` -/
def clampbits (val : Int) (bits : Nat) : Nat :=
  let max : Int := 2 ^ bits - 1
  if val < 0 then 0 else if val > max then max.toNat else val.toNat

/-- What the header says: `bit_depth`, `optflags`, `init_val`; srw.rs:302-323. State of the pump after it. -/
def header3 (p : PumpMSB32) : R (Nat × Nat × Nat × PumpMSB32) := do
  let (_, p) ← getBits p 16
  let (_, p) ← getBits p 4
  let (d, p) ← getBits p 4
  let (_, p) ← getBits p 4
  let (_, p) ← getBits p 4
  let (_, p) ← getBits p 16
  let (_, p) ← getBits p 16
  let (_, p) ← getBits p 16
  let (_, p) ← getBits p 4
  let (o, p) ← getBits p 4
  let (_, p) ← getBits p 8
  let (_, p) ← getBits p 8
  let (_, p) ← getBits p 8
  let (_, p) ← getBits p 2
  let (i, p) ← getBits p 14
  .ok (d + 1, o, i, p)

/-- The new scale, srw.rs:357-363 -/
def scale3 (opt k : Nat) (scale : Int) (p : PumpMSB32) : R (Int × PumpMSB32) :=
  if opt &&& 4 = 0 ∧ (16 * k) &&& 63 = 0 then do
    let (i, p) ← getBits p 2
    if i < 3 then do
      let v ← idx [0, -2, 2] i
      let s ← chkI32 (scale + v)
      .ok (s, p)
    else do
      let (v, p) ← getBits p 12
      .ok ((v : Int), p)
  else .ok (scale, p)

/-- The new motion, srw.rs:366-370 -/
def motion3 (opt motion : Nat) (p : PumpMSB32) : R (Nat × PumpMSB32) :=
  if opt &&& 2 ≠ 0 then do
    let (b, p) ← getBits p 1
    .ok (if b ≠ 0 then 3 else 7, p)
  else do
    let (b, p) ← getBits p 1
    if b = 0 then getBits p 3 else .ok (motion, p)

/-- `u16` result of an operation: panics when it does not fit. -/
def chkU16 (x : Nat) : R Nat := if x < 65536 then .ok x else panic'

/-- A pixel from the same row, srw.rs:377-381 -/
def same3 (init img col : Nat) (i : Nat) (out : List Nat) : R (List Nat) := do
  let v ← (if col = 0 then .ok init else do
    let j ← usub (img + col + i) 2
    idx out j : R Nat)
  upd out (img + col + i) v

/-- An index computed as `isize` and cast to `usize`: out of range when negative. -/
def isIndex (i : Int) : R Nat := if 0 ≤ i then .ok i.toNat else panic'

/-- A pixel from the rows above, srw.rs:387-410 -/
def above3 (img imgUp imgUp2 row col motion : Nat) (i : Nat) (out : List Nat) : R (List Nat) := do
  let slide ← idx [-4, -2, -2, 0, 0, 2, 4] motion
  let average ← idx [0, 0, 1, 0, 1, 0, 0] motion
  let ref ← (if (row + i) % 2 ≠ 0 then isIndex (((imgUp2 + col + i : Nat) : Int) + slide)
    else if i % 2 ≠ 0 then isIndex (((imgUp + col + i - 1 : Nat) : Int) + slide)
    else isIndex (((imgUp + col + i + 1 : Nat) : Int) + slide) : R Nat)
  let a ← idx out ref
  if average ≠ 0 then do
    let b ← idx out (ref + 2)
    let s ← chkU16 (a + b)
    let s ← chkU16 (s + 1)
    upd out (img + col + i) (s >>> 1)
  else upd out (img + col + i) a

/-- The lengths of a block, srw.rs:416-439. State: pump, `diff_bits`, `diff_bits_mode` (two entries for each colour). -/
def bits3 (depth row : Nat) (flags : List Nat) (i : Nat) (st : PumpMSB32 × List Nat × List (Nat × Nat)) :
    R (PumpMSB32 × List Nat × List (Nat × Nat)) := do
  let colour := if row % 2 ≠ 0 then i >>> 1 else ((i >>> 1) + 2) % 3
  let f ← idx flags i
  let m ← idx st.2.2 colour
  let (b, p) ← (if f = 0 then .ok (m.1, st.1) else if f = 1 then .ok (m.1 + 1, st.1)
    else if f = 2 then do
      let b ← usub m.1 1
      .ok (b, st.1)
    else getBits st.1 4 : R (Nat × PumpMSB32))
  let db ← upd st.2.1 i b
  let dm ← upd st.2.2 colour (m.2, b)
  if b > depth + 1 then panic' else .ok (p, db, dm)

/-- The lengths, srw.rs:413-440: nothing is read and all are 0 if a bit says so, unless `OPT_SKIP` is set. -/
def allBits3 (depth opt row : Nat) (p : PumpMSB32) (dm : List (Nat × Nat)) : R (PumpMSB32 × List Nat × List (Nat × Nat)) := do
  let (go, p) ← (if opt &&& 1 ≠ 0 then .ok (true, p) else do
    let (b, p) ← getBits p 1
    .ok (b = 0, p) : R (Bool × PumpMSB32))
  if go then do
    let (flags, p) ← ops4 p
    forN 4 (bits3 depth row flags) (p, [0, 0, 0, 0], dm)
  else .ok (p, [0, 0, 0, 0], dm)

/-- One difference, srw.rs:443-456 -/
def diff3 (depth row img col : Nat) (scale : Int) (db : List Nat) (i : Nat) (st : PumpMSB32 × List Nat) : R (PumpMSB32 × List Nat) := do
  let len ← idx db (i >>> 2)
  let (d, p) ← getIbitsSextended st.1 len
  let f ← chkI32 (scale * 2)
  let f ← chkI32 (f + 1)
  let d ← chkI32 (d * f)
  let d ← chkI32 (d + scale)
  let pos := (if row % 2 ≠ 0 then ((i &&& 7) <<< 1) + 1 - (i >>> 3) else ((i &&& 7) <<< 1) + (i >>> 3)) + img + col
  let o ← idx st.2 pos
  let v ← chkI32 ((o : Int) + d)
  let out ← upd st.2 pos (clampbits v depth)
  .ok (p, out)

/-- `motion`, `scale`, `diff_bits_mode` and image -/
structure St3 where
  motion : Nat
  scale : Int
  modes : List (Nat × Nat)
  out : List Nat

/-- One block, srw.rs:355-457 -/
def block3 (depth opt init width row : Nat) (k : Nat) (st : PumpMSB32 × St3) : R (PumpMSB32 × St3) := do
  let col := 16 * k
  let img := width * row
  let (scale, p) ← scale3 opt k st.2.scale st.1
  let (motion, p) ← motion3 opt st.2.motion p
  if row < 2 ∧ motion ≠ 7 then panic' else do
    let out ← (if motion = 7 then forN 16 (same3 init img col) st.2.out
      else forN 16 (above3 img (width * (max 1 row - 1)) (width * (max 2 row - 2)) row col motion) st.2.out : R (List Nat))
    let (p, db, dm) ← allBits3 depth opt row p st.2.modes
    let (p, out) ← forN 16 (diff3 depth row img col scale db) (p, out)
    .ok (p, ⟨motion, scale, dm, out⟩)

/-- The next multiple of 16, srw.rs:335-337 -/
def align16 (n : Nat) : Nat := if n &&& 15 ≠ 0 then n + (16 - (n &&& 15)) else n

/-- One row, srw.rs:332-458. State: pump, `line_offset` and image. -/
def row3 (buf : List Nat) (depth opt init width : Nat) (row : Nat) (st : PumpMSB32 × Nat × List Nat) : R (PumpMSB32 × Nat × List Nat) := do
  let pos ← st.1.getPos
  let off := align16 (st.2.1 + pos)
  let src ← Packed.from' buf off
  let start := if row < 2 then 7 else 4
  let (p, s) ← forN ((width + 15) / 16) (block3 depth opt init width row)
    (PumpMSB32.new src, ⟨7, 0, List.replicate 3 (start, start), st.2.2⟩)
  .ok (p, off, s.out)

/-- `decode_srw3`, srw.rs:289-461 -/
def decode3 (buf : List Nat) (width height : Nat) : R (List Nat) := do
  let (depth, opt, init, p) ← header3 (PumpMSB32.new buf)
  let (_, _, out) ← forN height (row3 buf depth opt init width) (p, 0, List.replicate (width * height) 0)
  .ok out

end Verif.Srw
