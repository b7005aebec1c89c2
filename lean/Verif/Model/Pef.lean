import Verif.Model.I32
import Verif.Model.LjpegDec
/-! # Pentax PEF decompression (rawler/src/decoders/pef.rs) -/

namespace Verif.Pef
open Verif Verif.Pumps Verif.Ljpeg

/-- `ByteStream::get_u16`, pumps.rs:366-375, with `Endian::Little` if `le` -/
def bsU16 (le : Bool) : List Nat → R (Nat × List Nat)
  | a :: b :: r => .ok (if le then a + b * 256 else a * 256 + b, r)
  | _ => panic'

/-- A loop that reads `n` items. -/
def readN {α : Type} (f : List Nat → R (α × List Nat)) : Nat → List Nat → R (List α × List Nat)
  | 0, s => .ok ([], s)
  | n + 1, s => do
    let (a, s) ← f s
    let (l, s) ← readN f n s
    .ok (a :: l, s)

/-- The search for the smallest entry, pef.rs:294-301: the last one of the smallest. Position and value. -/
def smallest (v2 : List Nat) (depth : Nat) : Nat × Nat :=
  (List.range depth).foldl (fun s j => if v2.getD j 0 ≤ s.2 then (j, v2.getD j 0) else s) (0xff, 0xfffffff)

/-- One round of the sort, pef.rs:293-304. State: the codes and the values so far. -/
def sortStep (depth : Nat) (i : Nat) (st : List Nat × List Nat) : R (List Nat × List Nat) := do
  let sm := (smallest st.1 depth).1
  let hv ← upd st.2 i sm
  let v2 ← upd st.1 sm 0xffffffff
  .ok (v2, hv)

/-- Codes and counts, pef.rs:285-290: `v0[c] >> (12 - v1[c])` and `bits[v1[c]] += 1`, on `u32`. -/
def codeStep (v0 v1 : List Nat) (c : Nat) (st : List Nat × List Nat) : R (List Nat × List Nat) := do
  let a ← idx v0 c
  let b ← idx v1 c
  let s ← usub 12 b
  let v2 ← upd st.1 c (a >>> s)
  let n ← idx st.2 b
  let bits ← upd st.2 b (n + 1)
  .ok (v2, bits)

/-- The table in the file, pef.rs:268-304: `bits` and `huffval`. -/
def fileTable (le : Bool) (huff : List Nat) : R (List Nat × List Nat) := do
  let (n, s) ← bsU16 le huff
  let depth := (n + 12) &&& 0xf
  let (v0, s) ← readN (bsU16 le) depth (s.drop 12)
  let (v1, _) ← readN getU8 depth s
  let (v2, bits) ← forN depth (codeStep v0 v1) (List.replicate 16 0, List.replicate 17 0)
  let (_, hv) ← forN depth (sortStep depth) (v2, List.replicate 256 0)
  .ok (bits, hv)

/-- `pentax_tree`, pef.rs:308 -/
def TREE_BITS : List Nat := [0, 2, 3, 1, 1, 1, 1, 1, 1, 2, 0, 0, 0, 0, 0, 0]
def TREE_VALS : List Nat := [3, 4, 2, 5, 1, 6, 0, 7, 8, 9, 10, 11, 12]

/-- The built-in table, pef.rs:306-317 -/
def builtinTable : List Nat × List Nat := (0 :: TREE_BITS, TREE_VALS ++ List.replicate (256 - TREE_VALS.length) 0)

/-- State: pump, `pred_up1`, `pred_up2`, image -/
structure St where
  p : PumpMSB
  up1 : List Int
  up2 : List Int
  out : List Nat

/-- `*pred += huff_decode(pump)?` on `i32` -/
def addDiff (t : HuffTable) (p : PumpMSB) (pred : Int) : R (Int × PumpMSB) := do
  let (d, p) ← huffDecode t p
  let v ← chkI32 (pred + d)
  .ok (v, p)

/-- Two more pixels, pef.rs:334-339. State: pump, `pred_left1`, `pred_left2`, image. -/
def pairStep (t : HuffTable) (width row : Nat) (k : Nat) (st : PumpMSB × Int × Int × List Nat) : R (PumpMSB × Int × Int × List Nat) := do
  let (l1, p) ← addDiff t st.1 st.2.1
  let (l2, p) ← addDiff t p st.2.2.1
  let out ← upd st.2.2.2 (row * width + (2 + 2 * k)) (asU16 l1)
  let out ← upd out (row * width + (2 + 2 * k) + 1) (asU16 l2)
  .ok (p, l1, l2, out)

/-- One row, pef.rs:327-340. `(2..width).step_by(2)` has `(width - 1) / 2` items. -/
def rowStep (t : HuffTable) (width : Nat) (row : Nat) (st : St) : R St := do
  let u1 ← idx st.up1 (row % 2)
  let (l1, p) ← addDiff t st.p u1
  let u2 ← idx st.up2 (row % 2)
  let (l2, p) ← addDiff t p u2
  let out ← upd st.out (row * width) (asU16 l1)
  let out ← upd out (row * width + 1) (asU16 l2)
  let (p, _, _, out) ← forN ((width - 1) / 2) (pairStep t width row) (p, l1, l2, out)
  .ok ⟨p, st.up1.set (row % 2) l1, st.up2.set (row % 2) l2, out⟩

/-- `do_decode`, pef.rs:263-342 (not the `dummy` case) -/
def doDecode (src : List Nat) (huff : Option (List Nat × Bool)) (width height : Nat) : R (List Nat) := do
  let (bits, hv) ← match huff with
    | some (h, le) => fileTable le h
    | none => .ok builtinTable
  let t ← HuffTable.new bits hv (List.replicate 256 0) false
  let st ← forN height (rowStep t width) ⟨PumpMSB.new src, [0, 0], [0, 0], List.replicate (width * height) 0⟩
  .ok st.out

end Verif.Pef
