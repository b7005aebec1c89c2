import Verif.Proofs.HuffDecode
/-! # C05: table-driven Huffman decoding -/

namespace Verif.Props
open Verif Verif.Ljpeg Verif.Pumps Verif.Spec

theorem hpos_lensOf (i : Nat) (cs : List Nat) :
    hpos 16 (lensOf i cs) = ((cs.zipIdx i).map fun p => p.1 * 2 ^ (15 - p.2)).sum := by
  induction cs generalizing i with
  | nil => rfl
  | cons n cs ih =>
    rw [lensOf, List.zipIdx_cons, List.map_cons, List.sum_cons, ← ih]
    simp only [hpos, List.map_append, List.map_replicate, List.sum_append, List.sum_replicate_nat]
    congr 3; omega

theorem length_lensOf (i : Nat) (cs : List Nat) : (lensOf i cs).length = cs.sum := by
  induction cs generalizing i with
  | nil => rfl
  | cons n cs ih => simp [lensOf, ih]

theorem goodDht_of_valid {bits huffval : List Nat} (h : ValidDht bits huffval) : GoodDht bits huffval where
  len := h.counts
  space := by rw [hpos_lensOf]; exact h.kraft
  vals := by
    intro k hk
    rw [length_lensOf] at hk
    have hk' : k < huffval.length := by have := h.total; have := h.values; omega
    rw [List.getD_eq_getElem?_getD, List.getElem?_eq_getElem hk']
    exact h.cats _ (List.getElem_mem hk')
  enough := by rw [length_lensOf, h.values]; exact h.total

/-- Decode `n` differences one after the other with the table-driven decoder. -/
def decodeN {P : Type} [BitPump P] (t : HuffTable) : Nat → P → R (List Int × P)
  | 0, p => .ok ([], p)
  | n + 1, p => do
    let (d, p) ← huffDecode t p
    let (ds, p) ← decodeN t n p
    .ok (d :: ds, p)

theorem decodeN_ok {P : Type} [BitPump P] {Rep avail} (hP : Lawful P Rep avail (fun _ _ => True)) {bits huffval : List Nat}
    {t : HuffTable} (ht : TableOK bits huffval t) (hc : CacheOK bits huffval t) (n : Nat) (p : P) (l : List Bool)
    (hr : Rep p l) : ∃ p', decodeN t n p = .ok ((refDecodeN bits huffval t.dngBug n l).1, p') ∧
      Rep p' (refDecodeN bits huffval t.dngBug n l).2 := by
  induction n generalizing p l with
  | zero => exact ⟨p, rfl, hr⟩
  | succ n ih =>
    obtain ⟨p1, e1, r1⟩ := fast_ok hP ht hc p l hr
    obtain ⟨p2, e2, r2⟩ := ih p1 _ r1
    exact ⟨p2, by simp [decodeN, e1, e2, bind, Except.bind, refDecodeN], r2⟩

/-- **C05.** For every valid table and every entropy-coded segment, decoding any number of differences with the lookup
table and decode cache gives exactly the differences that bit-by-bit decoding gives, and leaves the reader at exactly
the same bit: whatever is read afterwards is what follows there. -/
theorem C05_fast_decode_eq_bitwise (bits huffval : List Nat) (dngBug : Bool) (h : ValidDht bits huffval)
    (src : List Nat) (hb : IsBytes src) (he : ProperEnd src) :
    ∃ t, HuffTable.new bits huffval (List.replicate 256 0) dngBug = .ok t ∧
      ∀ n m, m ≤ 32 → ∃ p' v p'', decodeN t n (PumpJPEG.new src) =
          .ok ((refDecodeN bits huffval dngBug n (bytesMSB (unstuff src))).1, p') ∧
        BitPump.peek p' m = .ok (v, p'') ∧
        v = natMSB (takeZ m (refDecodeN bits huffval dngBug n (bytesMSB (unstuff src))).2) := by
  obtain ⟨t, e, hd, ht, hc⟩ := HuffTable.new_ok bits huffval dngBug (goodDht_of_valid h) h.values
  refine ⟨t, e, fun n m hm => ?_⟩
  obtain ⟨p', e1, r1⟩ := decodeN_ok PumpJPEG.lawful ht hc n _ _ (PumpJPEG.rep_new src hb he)
  rw [hd] at e1 r1
  obtain ⟨p'', e2, _, _⟩ := PumpJPEG.lawful.peek_ok p' _ m r1 hm trivial
  exact ⟨p', _, p'', e1, e2, rfl⟩

/-- The same for one difference and any other lawful bit reader: same value, same number of bits. -/
theorem C05_single {P : Type} [BitPump P] {Rep : P → List Bool → Prop} {avail : P → Nat}
    (hP : Lawful P Rep avail (fun _ _ => True)) (bits huffval : List Nat) (dngBug : Bool) (h : ValidDht bits huffval) :
    ∃ t, HuffTable.new bits huffval (List.replicate 256 0) dngBug = .ok t ∧ ∀ p l, Rep p l →
      ∃ p', huffDecode t p = .ok ((refDecode bits huffval dngBug l).1, p') ∧
        Rep p' (l.drop (refDecode bits huffval dngBug l).2) := by
  obtain ⟨t, e, hd, ht, hc⟩ := HuffTable.new_ok bits huffval dngBug (goodDht_of_valid h) h.values
  refine ⟨t, e, fun p l hr => ?_⟩
  have := fast_ok hP ht hc p l hr
  rwa [hd] at this

/-- a table with codes of lengths 1, 2, 3, 15, 16, 16 that fills the code space -/
def exBits : List Nat := [0, 1, 1, 1, 0, 0, 0, 0, 0, 0, 0, 0, 0, 0, 0, 1, 2]
def exVals : List Nat := [3, 16, 0, 15, 14, 1] ++ List.replicate 250 0

example : ValidDht exBits exVals := by decide +kernel
-- codes 0 (category 3), 10 (category 16), 110 (category 0)
example : refDecodeN exBits exVals false 3 [false, true, false, true, true, false, true, true, false] =
  ([5, -32768, 0], []) := by decide +kernel

/-- Finding: with an over-full table (three codes of length 1) table construction indexes out of range. -/
theorem C05_overfull_table_panics :
    HuffTable.new ([0, 3] ++ List.replicate 15 0) (List.replicate 256 0) (List.replicate 256 0) false = panic' := by
  decide +kernel

/-- Finding: bits that are no code decode as difference 0 without consuming anything, so the decoder makes no progress
on corrupt data but reports no error. Here the single code is `0` and the stream is all ones. -/
theorem C05_invalid_code_is_silent :
    refDecodeN ([0, 1] ++ List.replicate 15 0) (List.replicate 256 3) false 4 [true, true, true] =
      ([0, 0, 0, 0], [true, true, true]) := by decide +kernel

end Verif.Props
