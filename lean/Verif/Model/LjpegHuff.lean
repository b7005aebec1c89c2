import Verif.Model.Pumps
/-!
# Huffman decoding tables (`rawler/src/decompressors/ljpeg/huffman.rs`)
-/

namespace Verif.Ljpeg
open Verif Verif.Pumps

/-- `DECODE_CACHE_BITS`, huffman.rs:4. -/
def DECODE_CACHE_BITS : Nat := 13

/-- `struct MockPump`, huffman.rs:54-57. -/
structure MockPump where
  bits : Nat
  nbits : Nat
  deriving DecidableEq, Repr

/-- `MockPump::set`, huffman.rs:64-67. -/
def MockPump.set (bits nbits : Nat) : MockPump := ⟨bits <<< 32, nbits + 32⟩

/-- `MockPump::peek_bits`, huffman.rs:75-77. -/
def MockPump.peek (p : MockPump) (num : Nat) : R (Nat × MockPump) :=
  if num ≤ p.nbits ∧ p.nbits - num < 64 then .ok ((p.bits >>> (p.nbits - num)) % 2 ^ 32, p) else panic'

/-- `MockPump::consume_bits`, huffman.rs:79-82. -/
def MockPump.consume (p : MockPump) (num : Nat) : R MockPump := do
  let (b, n) ← consumeMSB p.bits p.nbits num
  .ok ⟨b, n⟩

instance : BitPump MockPump := ⟨MockPump.peek, MockPump.consume⟩

/-- `x as i16`. -/
def asI16 (x : Int) : Int := (x + 32768) % 65536 - 32768

/-- The parts of `struct HuffTable` (huffman.rs:6-52) that decoding uses. -/
structure HuffTable where
  dngBug : Bool
  nbits : Nat
  table : List (Nat × Nat × Nat)
  cache : List (Option (Nat × Int))
  deriving DecidableEq, Repr

/-- `HuffTable::empty`, huffman.rs:85-98. -/
def HuffTable.empty : HuffTable := ⟨false, 0, [], List.replicate 8192 none⟩

/-- `huff_len`, huffman.rs:198-203. -/
def huffLen {P : Type} [BitPump P] (t : HuffTable) (p : P) : R ((Nat × Nat × Nat) × P) := do
  let (code, p) ← BitPump.peek p t.nbits
  let e ← idx t.table code
  let p ← BitPump.consume p e.1
  .ok (e, p)

/-- `huff_diff`, huffman.rs:214-238. Lengths for which the `i32` shifts overflow (`len + shift ≥ 31`) are modelled as a
panic; they cannot come from a table whose values are difference categories. -/
def huffDiff {P : Type} [BitPump P] (t : HuffTable) (p : P) (e : Nat × Nat × Nat) : R (Int × P) :=
  let len := e.2.1
  let shift := e.2.2
  if len = 0 then .ok (0, p)
  else if len = 16 then
    if t.dngBug then do
      let (_, p) ← getBits p 16
      .ok (-32768, p)
    else .ok (-32768, p)
  else if len + shift ≥ 31 then panic'
  else do
    let (bits, p) ← getBits p len
    let diff : Int := ((((bits <<< 1) + 1) <<< shift) >>> 1 : Nat)
    let fulllen := len + shift
    if diff.toNat &&& (1 <<< (fulllen - 1)) = 0 then
      .ok (diff - ((1 <<< fulllen : Nat) - (if shift = 0 then 1 else 0)), p)
    else .ok (diff, p)

/-- `huff_decode_slow`, huffman.rs:191-195; `len.0 + len.1` is a `u8` addition. -/
def huffDecodeSlow {P : Type} [BitPump P] (t : HuffTable) (p : P) : R ((Nat × Int) × P) := do
  let (e, p) ← huffLen t p
  if e.1 + e.2.1 < 256 then do
    let (d, p) ← huffDiff t p e
    .ok ((e.1 + e.2.1, d), p)
  else panic'

/-- `huff_decode`, huffman.rs:168-188. `debug_assert!(bits > 16)` is subsumed by the checked subtraction. -/
def huffDecode {P : Type} [BitPump P] (t : HuffTable) (p : P) : R (Int × P) := do
  let (code, p) ← BitPump.peek p DECODE_CACHE_BITS
  match ← idx t.cache code with
  | some (bits, decode) =>
    if decode = -32768 ∧ t.dngBug = false then do
      let n ← usub bits 16
      let p ← BitPump.consume p n
      .ok (decode, p)
    else do
      let p ← BitPump.consume p bits
      .ok (decode, p)
  | none => do
    let ((_, d), p) ← huffDecodeSlow t p
    .ok (d, p)

/-- The maximal code length: the first loop of `initialize`, huffman.rs:122-128. -/
def maxLen (bits : List Nat) : Nat → Nat
  | 0 => 0
  | n + 1 => if bits.getD (n + 1) 0 ≠ 0 then n + 1 else maxLen bits n

/-- Lengths of all codes in table order (`for len in 0..nbits { for _ in 0..bits[len+1] …`, huffman.rs:134-136). -/
def codeLens (bits : List Nat) (nbits : Nat) : List Nat :=
  (List.range nbits).flatMap fun l => List.replicate (bits.getD (l + 1) 0) (l + 1)

/-- The second loop of `initialize`, huffman.rs:131-145: the lookup table. The code writes `hufftable[h]` for increasing
`h`; the model concatenates what is written and fills up with the initial `(0,0,0)`. -/
def fillTable (bits huffval shiftval : List Nat) (nbits : Nat) : R (List (Nat × Nat × Nat)) := do
  let lens := codeLens bits nbits
  if huffval.length < lens.length ∨ shiftval.length < lens.length then panic' else
  let t := lens.zipIdx.flatMap fun p =>
    List.replicate (2 ^ (nbits - p.1)) (p.1 % 256, huffval.getD p.2 0 % 256, shiftval.getD p.2 0 % 256)
  if t.length ≤ 2 ^ nbits then .ok (t ++ List.replicate (2 ^ nbits - t.length) (0, 0, 0)) else panic'

/-- One entry of the decode cache (huffman.rs:150-157). `validbits() >= 0` is `nbits >= 32`. -/
def cacheEntry (t : HuffTable) (i : Nat) : R (Option (Nat × Int)) := do
  let ((bits, decode), p) ← huffDecodeSlow t (MockPump.set i DECODE_CACHE_BITS)
  .ok (if p.nbits ≥ 32 then some (bits, asI16 decode) else none)

/-- `HuffTable::new` + `initialize`, huffman.rs:100-166 (cache enabled). -/
def HuffTable.new (bits huffval shiftval : List Nat) (dngBug : Bool) : R HuffTable := do
  let nbits := maxLen bits 16
  let table ← fillTable bits huffval shiftval nbits
  let t : HuffTable := ⟨dngBug, nbits, table, []⟩
  let cache ← (List.range 8192).mapM fun i => cacheEntry t i
  .ok { t with cache := cache }

end Verif.Ljpeg
