import Verif.Model.I32
import Verif.Model.Slice
import Verif.Model.LjpegHuff
/-! # Canon CRW decompression (rawler/src/decoders/crw.rs) -/

namespace Verif.Crw
open Verif Verif.Ljpeg Verif.Pumps

/-- `CRW_FIRST_TREE`, crw.rs:9-19 -/
def firstTree : List (List Nat) :=
  [[0, 1, 4, 2, 3, 1, 2, 0, 0, 0, 0, 0, 0, 0, 0, 0, 4, 3, 5, 6, 2, 7, 1, 8, 9, 0, 10, 11, 255],
   [0, 2, 2, 3, 1, 1, 1, 1, 2, 0, 0, 0, 0, 0, 0, 0, 3, 2, 4, 1, 5, 0, 6, 7, 9, 8, 10, 11, 255],
   [0, 0, 6, 3, 1, 1, 2, 0, 0, 0, 0, 0, 0, 0, 0, 0, 6, 5, 7, 4, 8, 3, 9, 2, 0, 10, 1, 11, 255]]

/-- `CRW_SECOND_TREE`, crw.rs:21-49 -/
def secondTree : List (List Nat) :=
  [[0, 2, 2, 2, 1, 4, 2, 1, 2, 5, 1, 1, 0, 0, 0, 139, 3, 4, 2, 5, 1, 6, 7, 8, 18, 19, 17, 20, 9, 21, 34, 0, 33, 22, 10,
    240, 35, 23, 36, 49, 50, 24, 25, 51, 37, 65, 52, 66, 53, 81, 54, 55, 56, 41, 121, 38, 26, 57, 86, 87, 40, 39, 82, 85,
    88, 67, 118, 89, 119, 84, 97, 249, 113, 120, 117, 150, 151, 73, 183, 83, 215, 116, 182, 152, 71, 72, 149, 105, 153,
    145, 250, 184, 104, 181, 185, 214, 247, 216, 103, 70, 69, 148, 137, 248, 129, 213, 246, 180, 136, 177, 42, 68, 114,
    217, 135, 102, 212, 245, 58, 167, 115, 169, 168, 134, 98, 199, 101, 200, 201, 161, 244, 209, 233, 90, 146, 133, 166,
    231, 147, 232, 193, 198, 122, 100, 225, 74, 106, 230, 179, 241, 211, 165, 138, 178, 154, 186, 132, 164, 99, 229, 197,
    243, 210, 196, 130, 170, 218, 228, 242, 202, 131, 163, 162, 195, 234, 194, 226, 227, 255, 255],
   [0, 2, 2, 1, 4, 1, 4, 1, 3, 3, 1, 0, 0, 0, 0, 140, 2, 3, 1, 4, 5, 18, 17, 6, 19, 7, 8, 20, 34, 9, 33, 0, 35, 21, 49,
    50, 10, 22, 240, 36, 51, 65, 66, 25, 23, 37, 24, 81, 52, 67, 82, 41, 53, 97, 57, 113, 98, 54, 83, 38, 56, 26, 55,
    129, 39, 145, 121, 85, 69, 40, 114, 89, 161, 177, 68, 105, 84, 88, 209, 250, 87, 225, 241, 185, 73, 71, 99, 106, 249,
    86, 70, 168, 42, 74, 120, 153, 58, 117, 116, 134, 101, 193, 118, 182, 150, 214, 137, 133, 201, 245, 149, 180, 199,
    247, 138, 151, 184, 115, 183, 216, 217, 135, 167, 122, 72, 130, 132, 234, 244, 166, 197, 90, 148, 164, 198, 146, 195,
    104, 181, 200, 228, 229, 230, 233, 162, 163, 227, 194, 102, 103, 147, 170, 212, 213, 231, 248, 136, 154, 215, 119,
    196, 100, 226, 152, 165, 202, 218, 232, 243, 246, 169, 178, 179, 242, 210, 131, 186, 211, 255, 255],
   [0, 0, 6, 2, 1, 3, 3, 2, 5, 1, 2, 2, 8, 10, 0, 117, 4, 5, 3, 6, 2, 7, 1, 8, 9, 18, 19, 20, 17, 21, 10, 22, 23, 240, 0,
    34, 33, 24, 35, 25, 36, 50, 49, 37, 51, 56, 55, 52, 53, 54, 57, 121, 87, 88, 89, 40, 86, 120, 39, 65, 41, 119, 38,
    66, 118, 153, 26, 85, 152, 151, 249, 72, 84, 150, 137, 71, 183, 73, 250, 117, 104, 182, 103, 105, 185, 184, 216, 82,
    215, 136, 181, 116, 81, 70, 217, 248, 58, 214, 135, 69, 122, 149, 213, 246, 134, 180, 169, 148, 83, 42, 168, 67, 245,
    247, 212, 102, 167, 90, 68, 138, 201, 232, 200, 231, 154, 106, 115, 74, 97, 199, 244, 198, 101, 233, 114, 230, 113,
    145, 147, 166, 218, 146, 133, 98, 243, 197, 178, 164, 132, 186, 100, 165, 179, 210, 129, 229, 211, 170, 196, 202,
    242, 177, 228, 209, 131, 99, 234, 195, 226, 130, 241, 163, 194, 161, 193, 227, 162, 225, 255, 255]]

/-- `create_hufftable`, crw.rs:163-176, with `initialize`, huffman.rs:117-146: 16 counts, then the values of 256 that are set. The decode
cache is disabled; `shiftval` is zero. -/
def createTable (table : List Nat) : R HuffTable := do
  let bits := 0 :: table.take 16
  let nbits := maxLen bits 16
  let t ← fillTable bits (table.drop 16 ++ List.replicate (256 - (table.length - 16)) 0) (List.replicate 256 0) nbits
  .ok ⟨false, nbits, t, []⟩

/-- `huff_get_bits`, huffman.rs:202-207 -/
def huffGet {P : Type} [BitPump P] (t : HuffTable) (p : P) : R (Nat × P) := do
  let (code, p) ← BitPump.peek p t.nbits
  let e ← idx t.table code
  let p ← BitPump.consume p e.1
  .ok (e.2.1, p)

/-- The `while` loop that reads 64 differences, crw.rs:202-226. `i` grows in every round, so 64 rounds of fuel are enough. -/
def blockLoop (t0 t1 : HuffTable) : Nat → Nat → List Int → PumpJPEG → R (List Int × PumpJPEG)
  | 0, i, buf, p => if i < 64 then panic' else .ok (buf, p)
  | fuel + 1, i, buf, p =>
    if i < 64 then do
      let (leaf, p) ← huffGet (if i > 0 then t1 else t0) p
      if leaf = 0 ∧ i ≠ 0 then .ok (buf, p)
      else if leaf = 0xff then blockLoop t0 t1 fuel (i + 1) buf p
      else
        let i := i + (leaf >>> 4)
        let len := leaf &&& 0x0f
        if len = 0 then blockLoop t0 t1 fuel (i + 1) buf p
        else do
          let (v, p) ← getBits p len
          let diff : Int := if v &&& (1 <<< (len - 1)) = 0 then (v : Int) - ((1 <<< len : Nat) - 1) else v
          if i < 64 then blockLoop t0 t1 fuel (i + 1) (buf.set i diff) p else blockLoop t0 t1 fuel (i + 1) buf p
    else .ok (buf, p)

/-- What is kept between blocks, crw.rs:195-197, and the pixels. -/
structure St where
  p : PumpJPEG
  carry : Int
  base0 : Int
  base1 : Int
  pnum : Nat
  out : List Nat

/-- One pixel, crw.rs:231-240: pixel `i` of block `b`. -/
def savePixel (width : Nat) (diffs : List Int) (b i : Nat) (st : St) : R St := do
  if width = 0 then panic' else do
  let reset := st.pnum % width = 0
  let b0 := if reset then 512 else st.base0
  let b1 := if reset then 512 else st.base1
  let d ← idx diffs i
  let v ← chkI32 ((if i % 2 = 0 then b0 else b1) + d)
  let out ← upd st.out (64 * b + i) (asU16 v)
  .ok { st with base0 := if i % 2 = 0 then v else b0, base1 := if i % 2 = 0 then b1 else v, pnum := st.pnum + 1, out := out }

/-- One block, crw.rs:198-241. -/
def block (t0 t1 : HuffTable) (width b : Nat) (st : St) : R St := do
  let (diffs, p) ← blockLoop t0 t1 64 0 (List.replicate 64 0) st.p
  let d0 ← idx diffs 0
  let d ← chkI32 (d0 + st.carry)
  let diffs := diffs.set 0 d
  forN 64 (fun i st => savePixel width diffs b i st) { st with p := p, carry := d }

/-- A pixel with its two low bits, crw.rs:248-266. `u16 << 2` drops the upper bits. -/
def withLow (width o c j : Nat) : Nat :=
  let v := ((o <<< 2) % 65536) ||| ((c >>> (2 * j)) &&& 0x03)
  if width = 2672 ∧ v < 512 then v + 2 else v

/-- The low bits of four pixels, crw.rs:246-267. -/
def lowFour (file : List Nat) (width i : Nat) (out : List Nat) : R (List Nat) := do
  let c ← idx file (26 + i)
  forN 4 (fun j out => do
    let o ← idx out (4 * i + j)
    upd out (4 * i + j) (withLow width o c j)) out

/-- `do_decode`, crw.rs:187-270. -/
def doDecode (file : List Nat) (lowbits : Bool) (dectable width height : Nat) : R (List Nat) := do
  let first ← idx firstTree dectable
  let second ← idx secondTree dectable
  let t0 ← createTable first
  let t1 ← createTable second
  let offset := 540 + (if lowbits then 1 else 0) * height * width / 4
  if offset > file.length then fail' else do
  let out := List.replicate (width * height) 0
  let st ← forN (out.length / 64) (fun b st => block t0 t1 width b st) ⟨PumpJPEG.new (file.drop offset), 0, 0, 0, 0, out⟩
  if lowbits then forN (st.out.length / 4) (fun i out => lowFour file width i out) st.out else .ok st.out

/-- `decode_compressed`, crw.rs:178-185, with the number of the table. -/
def decodeCompressed (file : List Nat) (lowbits : Bool) (dectable width height : Nat) : R (List Nat) :=
  if dectable > 2 then fail' else doDecode file lowbits dectable width height

end Verif.Crw
