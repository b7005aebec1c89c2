import Verif.Proofs.HuffDecode
import Verif.Spec.HuffCode
import Mathlib.Tactic.Ring
import Mathlib.Tactic.NormNum
/-! # Huffman tables with shifts, and readers that need the bits they peek at -/

namespace Verif.Ljpeg
open Verif Verif.Spec Verif.Pumps

structure TableOKS (bits huffval shiftval : List Nat) (t : HuffTable) : Prop where
  nb16 : t.nbits ≤ 16
  look : ∀ c, c < 2 ^ t.nbits → idx t.table c = .ok (match findSlot t.nbits (lensOf 0 bits.tail) c with
    | none => (0, 0, 0)
    | some k => ((lensOf 0 bits.tail).getD k 0, huffval.getD k 0, shiftval.getD k 0))
  sym : ∀ l, refSymbol bits.tail 0 0 0 0 l =
    (findSlot t.nbits (lensOf 0 bits.tail) (natMSB (takeZ t.nbits l))).map fun k => ((lensOf 0 bits.tail).getD k 0, k)
  lens : ∀ l ∈ lensOf 0 bits.tail, 1 ≤ l ∧ l ≤ t.nbits
  vals : ∀ k, k < (lensOf 0 bits.tail).length → huffval.getD k 0 + shiftval.getD k 0 ≤ 15

theorem TableOKS.sym_range {bits huffval shiftval t} (h : TableOKS bits huffval shiftval t) {l len k}
    (e : refSymbol bits.tail 0 0 0 0 l = some (len, k)) :
    1 ≤ len ∧ len ≤ t.nbits ∧ huffval.getD k 0 + shiftval.getD k 0 ≤ 15 := by
  rw [h.sym] at e
  obtain ⟨j, hj, e2⟩ := Option.map_eq_some_iff.1 e
  simp only [Prod.mk.injEq] at e2
  obtain ⟨e3, rfl⟩ := e2
  have hlt := findSlot_lt hj
  have hm : len ∈ lensOf 0 bits.tail := by
    rw [← e3, List.getD_eq_getElem?_getD, List.getElem?_eq_getElem hlt]
    exact List.getElem_mem hlt
  exact ⟨(h.lens _ hm).1, (h.lens _ hm).2, h.vals _ hlt⟩

theorem diffOf_range {v s x : Nat} (h : v + s ≤ 15) (hx : x < 2 ^ v) :
    -32768 < diffOf v s x ∧ diffOf v s x ≤ 32767 := by
  have hp : (2 : Nat) ^ (v + s) ≤ 2 ^ 15 := Nat.pow_le_pow_right (by omega) h
  rw [Nat.pow_add] at hp
  have hs0 := Nat.two_pow_pos s
  have hv0 := Nat.two_pow_pos v
  have hle : x * 2 ^ s + 2 ^ s ≤ 2 ^ v * 2 ^ s := by
    have : (x + 1) * 2 ^ s ≤ 2 ^ v * 2 ^ s := Nat.mul_le_mul_right _ hx
    rwa [Nat.add_mul, Nat.one_mul] at this
  unfold diffOf
  have hvc : ((2 ^ v : Nat) : Int) = (2 : Int) ^ v := by norm_cast
  have hsc : ((2 ^ s : Nat) : Int) = (2 : Int) ^ s := by norm_cast
  rw [← hvc]
  split
  · rename_i h0'
    subst h0'
    simp only [Nat.pow_zero, Nat.mul_one] at hp hle
    split <;> omega
  · rename_i hs
    have e : (2 : Int) ^ (v + s) = ((2 ^ v * 2 ^ s : Nat) : Int) := by rw [Int.pow_add, ← hvc, ← hsc]; norm_cast
    have e2 : (x : Int) * 2 ^ s + 2 ^ (s - 1) = ((x * 2 ^ s + 2 ^ (s - 1) : Nat) : Int) := by norm_cast
    have e3 : 2 ^ s = 2 ^ (s - 1) * 2 := by rw [← Nat.pow_succ]; congr 1; omega
    have h1 := Nat.two_pow_pos (s - 1)
    simp only [e, e2]
    generalize x * 2 ^ s = a at *
    generalize 2 ^ v * 2 ^ s = b at *
    generalize 2 ^ (s - 1) = c at *
    split <;> omega

theorem refDecode_someS {bits huffval shiftval l len k v s} (h : refSymbol bits.tail 0 0 0 0 l = some (len, k))
    (hv : v = huffval.getD k 0) (hs : s = shiftval.getD k 0) : refDecodeS bits huffval shiftval l = if v = 0 then (0, len)
      else (diffOf v s (natMSB (takeZ v (l.drop len))), len + v) := by
  subst hv hs; rw [refDecodeS, h]

theorem testBit_top (v s x : Nat) (h0 : 0 < v) (hx : x < 2 ^ v) (c : Nat) (hc : c < 2 ^ s) :
    (x * 2 ^ s + c).testBit (v + s - 1) = decide (2 ^ (v - 1) ≤ x) := by
  rw [Nat.testBit_eq_decide_div_mod_eq]
  have e1 : 2 ^ (v + s - 1) = 2 ^ s * 2 ^ (v - 1) := by rw [← Nat.pow_add]; congr 1; omega
  rw [e1, ← Nat.div_div_eq_div_mul, Nat.mul_comm x, Nat.mul_add_div (Nat.two_pow_pos s), Nat.div_eq_of_lt hc, Nat.add_zero]
  have e2 : 2 ^ v = 2 ^ (v - 1) * 2 := by rw [← Nat.pow_succ]; congr 1; omega
  congr 1
  rw [eq_iff_iff]
  constructor
  · intro h
    by_contra hlt
    rw [Nat.div_eq_of_lt (by omega)] at h
    omega
  · intro h
    have h1 : x / 2 ^ (v - 1) = 1 := by
      apply Nat.div_eq_of_lt_le <;> omega
    rw [h1]

theorem huffDiff_extendS {P : Type} [BitPump P] {Rep avail can} (hP : Lawful P Rep avail can) (t : HuffTable) (p : P)
    (l : List Bool) (len v s : Nat) (hr : Rep p l) (hv0 : 0 < v) (hv : v + s ≤ 15) (hc : can l v) :
    ∃ p', huffDiff t p (len, v, s) = .ok (diffOf v s (natMSB (takeZ v l)), p') ∧ Rep p' (l.drop v) := by
  obtain ⟨p', e, r⟩ := getBits_ok hP p l v hr (by omega) hc hv0
  refine ⟨p', ?_, r⟩
  have hx := natMSB_lt (takeZ v l)
  rw [length_takeZ] at hx
  obtain ⟨x, hxe⟩ : ∃ x, x = natMSB (takeZ v l) := ⟨_, rfl⟩
  rw [← hxe] at hx e ⊢
  simp only [huffDiff, show v ≠ 0 by omega, show v ≠ 16 by omega, show ¬ (v + s ≥ 31) by omega, if_false, e, bind,
    Except.bind, Int.toNat_natCast, Nat.one_shiftLeft, and_pow_eq_zero]
  unfold diffOf
  have hvc : ((2 ^ v : Nat) : Int) = (2 : Int) ^ v := by norm_cast
  rcases Nat.eq_zero_or_pos s with rfl | hs
  · have hsh : (((x <<< 1) + 1) <<< 0) >>> 1 = x := by
      simp [Nat.shiftLeft_eq, Nat.shiftRight_eq_div_pow]; omega
    have htb := testBit_top v 0 x hv0 hx 0 (by simp)
    simp only [Nat.pow_zero, Nat.mul_one, Nat.add_zero] at htb
    rw [hsh]
    simp only [Nat.add_zero, htb, if_true]
    by_cases hlt : x < 2 ^ (v - 1)
    · rw [if_pos (by simp [hlt]), if_pos hlt, ← hvc]
    · rw [if_neg (by simp [Nat.le_of_not_lt hlt]), if_neg hlt]
  · have hsh : (((x <<< 1) + 1) <<< s) >>> 1 = x * 2 ^ s + 2 ^ (s - 1) := by
      simp only [Nat.shiftLeft_eq, Nat.shiftRight_eq_div_pow]
      have e3 : 2 ^ s = 2 ^ (s - 1) * 2 := by rw [← Nat.pow_succ]; congr 1; omega
      rw [e3, show (x * 2 ^ 1 + 1) * (2 ^ (s - 1) * 2) = (x * (2 ^ (s - 1) * 2) + 2 ^ (s - 1)) * 2 by ring]
      omega
    have htb := testBit_top v s x hv0 hx (2 ^ (s - 1)) (Nat.pow_lt_pow_right (by omega) (by omega))
    rw [hsh, if_neg (show s ≠ 0 by omega)]
    simp only [show s ≠ 0 by omega, htb, if_false]
    have e2 : (x : Int) * 2 ^ s + 2 ^ (s - 1) = ((x * 2 ^ s + 2 ^ (s - 1) : Nat) : Int) := by norm_cast
    by_cases hlt : x < 2 ^ (v - 1)
    · rw [if_pos (by simp [hlt]), if_pos hlt, e2]
      congr 2
    · rw [if_neg (by simp [Nat.le_of_not_lt hlt]), if_neg hlt, e2]

theorem slow_okS {P : Type} [BitPump P] {Rep avail can} (hP : Lawful P Rep avail can) {bits huffval shiftval : List Nat}
    {t : HuffTable} (ht : TableOKS bits huffval shiftval t) (p : P) (l : List Bool) (hr : Rep p l)
    (hcan : ∀ k n, k ≤ 16 → n ≤ 16 → can (l.drop k) n) :
    ∃ p', huffDecodeSlow t p = .ok (((refDecodeS bits huffval shiftval l).2,
        (refDecodeS bits huffval shiftval l).1), p') ∧ Rep p' (l.drop (refDecodeS bits huffval shiftval l).2) := by
  have hnb := ht.nb16
  obtain ⟨p1, e1, r1, a1⟩ := hP.peek_ok p l t.nbits hr (by omega) (by simpa using hcan 0 t.nbits (by omega) hnb)
  have hc := natMSB_lt (takeZ t.nbits l)
  rw [length_takeZ] at hc
  have hlook := ht.look _ hc
  have hsym := ht.sym l
  cases hf : findSlot t.nbits (lensOf 0 bits.tail) (natMSB (takeZ t.nbits l)) with
  | none =>
    rw [hf] at hlook hsym
    simp only [Option.map_none] at hsym
    obtain ⟨p2, e2, r2, _⟩ := hP.consume_ok p1 l 0 r1 (by omega)
    refine ⟨p2, ?_, ?_⟩
    · simp [huffDecodeSlow, huffLen, e1, hlook, e2, bind, Except.bind, huffDiff, refDecodeS, hsym]
    · simpa [refDecodeS, hsym] using r2
  | some k =>
    rw [hf] at hlook hsym
    simp only [Option.map_some] at hsym
    obtain ⟨h1, h2, h3⟩ := ht.sym_range hsym
    obtain ⟨len, hlen⟩ : ∃ len, len = (lensOf 0 bits.tail).getD k 0 := ⟨_, rfl⟩
    obtain ⟨v, hv⟩ : ∃ v, v = huffval.getD k 0 := ⟨_, rfl⟩
    obtain ⟨s, hs⟩ : ∃ s, s = shiftval.getD k 0 := ⟨_, rfl⟩
    simp only [← hlen, ← hv, ← hs] at hlook hsym h1 h2 h3
    obtain ⟨p2, e2, r2, _⟩ := hP.consume_ok p1 l len r1 (by omega)
    have href := refDecode_someS hsym hv hs
    have hsz : len + v < 256 := by omega
    by_cases hv0 : v = 0
    · refine ⟨p2, ?_, ?_⟩
      · simp [huffDecodeSlow, huffLen, e1, hlook, e2, bind, Except.bind, huffDiff, href, hv0,
          show len < 256 by omega]
      · simpa [href, hv0] using r2
    · obtain ⟨p3, e3, r3⟩ := huffDiff_extendS hP t p2 (l.drop len) len v s r2 (by omega) (by omega)
          (hcan len v (by omega) (by omega))
      refine ⟨p3, ?_, ?_⟩
      · simp [huffDecodeSlow, huffLen, e1, hlook, e2, bind, Except.bind, href, hv0, hsz, e3]
      · simpa [href, hv0] using r3

/-! ### locality -/

/-- The cache entry for the first 13 bits describes the whole string, if decoding the 13 bits followed by zeros uses at
most 13 bits. -/
theorem refDecode_localS {bits huffval shiftval t} (ht : TableOKS bits huffval shiftval t) (l m : List Bool)
    (hm : m = takeZ 13 l ++ List.replicate 32 false)
    (hle : (refDecodeS bits huffval shiftval m).2 ≤ 13) :
    refDecodeS bits huffval shiftval l = refDecodeS bits huffval shiftval m := by
  have hagree : takeZ 13 m = takeZ 13 l := by
    rw [hm, takeZ_append_zeros, takeZ_of_le (by simp)]; simp [List.take_of_length_le]
  unfold refDecodeS at hle ⊢
  cases hs : refSymbol bits.tail 0 0 0 0 m with
  | none =>
    have : refSymbol bits.tail 0 0 0 0 l = none := by
      rw [ht.sym, Option.map_eq_none_iff, findSlot_none_iff] at hs ⊢
      refine Nat.le_trans hs ?_
      rcases Nat.le_total t.nbits 13 with h | h
      · rw [takeZ_eq_mono h hagree]
      · obtain ⟨d, hd⟩ : ∃ d, t.nbits = 13 + d := ⟨t.nbits - 13, by omega⟩
        rw [hd, takeZ_drop_add, takeZ_drop_add 13 d l, hagree, natMSB_append, natMSB_append, length_takeZ, length_takeZ]
        have : natMSB (takeZ d (m.drop 13)) = 0 := by
          rw [hm, List.drop_append_of_le_length (by simp), List.drop_of_length_le (by simp)]
          have := takeZ_append_zeros d 32 []
          rw [this, takeZ]
          simp [List.take_of_length_le, natMSB_replicate_false]
        omega
    rw [this]
  | some r =>
    obtain ⟨len, k⟩ := r
    rw [hs] at hle
    simp only at hle
    have hlen : len ≤ 13 := by
      split at hle
      · exact hle
      · simp at hle; omega
    have hl := (refSymbol_local _ _ _ _ _ m l len k hs (by rw [Nat.sub_zero]; exact takeZ_eq_mono hlen hagree)).2
    rw [hl]
    simp only
    split
    · rfl
    · rename_i h0
      rw [if_neg h0] at hle
      simp only at hle
      rw [takeZ_drop_eq (n := len) (m := huffval.getD k 0) (l := l) (k := m)
        (takeZ_eq_mono hle hagree).symm]

/-- The decode cache built by `initialize`. -/
def CacheOKS (bits huffval shiftval : List Nat) (t : HuffTable) : Prop :=
  ∀ i, i < 8192 → idx t.cache i = .ok (
    let r := refDecodeS bits huffval shiftval (bitsMSB 13 i ++ List.replicate 32 false)
    if r.2 ≤ 13 then some (r.2, r.1) else none)

theorem refDecode_rangeS {bits huffval shiftval t} (ht : TableOKS bits huffval shiftval t) (l : List Bool) :
    -32768 < (refDecodeS bits huffval shiftval l).1 ∧ (refDecodeS bits huffval shiftval l).1 ≤ 32767 := by
  unfold refDecodeS
  split
  · simp
  · rename_i len k hs
    obtain ⟨_, _, hv⟩ := ht.sym_range hs
    simp only
    split
    · simp
    · have hx := natMSB_lt (takeZ (huffval.getD k 0) (l.drop len))
      rw [length_takeZ] at hx
      exact diffOf_range hv hx

theorem refDecode_i16S {bits huffval shiftval t} (ht : TableOKS bits huffval shiftval t) (l : List Bool) :
    asI16 (refDecodeS bits huffval shiftval l).1 = (refDecodeS bits huffval shiftval l).1 := by
  obtain ⟨h1, h2⟩ := refDecode_rangeS ht l
  unfold asI16; omega

theorem cacheEntry_okS {bits huffval shiftval t} (ht : TableOKS bits huffval shiftval t) (i : Nat) (hi : i < 8192) :
    cacheEntry t i = .ok (
      let r := refDecodeS bits huffval shiftval (bitsMSB 13 i ++ List.replicate 32 false)
      if r.2 ≤ 13 then some (r.2, r.1) else none) := by
  have hlen : (bitsMSB 13 i ++ List.replicate 32 false).length = 45 := by simp
  obtain ⟨p', e, r⟩ := slow_okS MockPump.lawful ht (MockPump.set i 13) _ (MockPump.rep_set i (by omega))
    (by intro k n hk hn; simp; omega)
  have hnb : p'.nbits = 45 - (refDecodeS bits huffval shiftval (bitsMSB 13 i ++ List.replicate 32 false)).2 := by
    have := r.1; rw [List.length_drop, hlen] at this; exact this
  simp only [cacheEntry, DECODE_CACHE_BITS, e, bind, Except.bind, refDecode_i16S ht, hnb]
  congr 1
  by_cases h : (refDecodeS bits huffval shiftval (bitsMSB 13 i ++ List.replicate 32 false)).2 ≤ 13
  · rw [if_pos (by omega), if_pos h]
  · rw [if_neg (by omega), if_neg h]

theorem fast_okS {P : Type} [BitPump P] {Rep avail can} (hP : Lawful P Rep avail can) {bits huffval shiftval : List Nat}
    {t : HuffTable} (ht : TableOKS bits huffval shiftval t) (hcache : CacheOKS bits huffval shiftval t) (p : P) (l : List Bool) (hr : Rep p l)
    (hcan : ∀ k n, k ≤ 16 → n ≤ 16 → can (l.drop k) n) :
    ∃ p', huffDecode t p = .ok ((refDecodeS bits huffval shiftval l).1, p') ∧
      Rep p' (l.drop (refDecodeS bits huffval shiftval l).2) := by
  obtain ⟨p1, e1, r1, a1⟩ := hP.peek_ok p l 13 hr (by omega) (by simpa using hcan 0 13 (by omega) (by omega))
  have hc := natMSB_lt (takeZ 13 l)
  rw [length_takeZ] at hc
  have hent := hcache _ (by simpa using hc)
  have hbits : bitsMSB 13 (natMSB (takeZ 13 l)) = takeZ 13 l := by
    have := bitsMSB_natMSB (takeZ 13 l); rwa [length_takeZ] at this
  simp only [hbits] at hent
  by_cases hle : (refDecodeS bits huffval shiftval (takeZ 13 l ++ List.replicate 32 false)).2 ≤ 13
  · rw [if_pos hle, ← refDecode_localS ht l _ rfl hle] at hent
    rw [← refDecode_localS ht l _ rfl hle] at hle
    obtain ⟨p2, e2, r2, _⟩ := hP.consume_ok p1 l _ r1 (Nat.le_trans hle a1)
    refine ⟨p2, ?_, r2⟩
    simp only [huffDecode, DECODE_CACHE_BITS, e1, bind, Except.bind, hent]
    have hr' := refDecode_rangeS ht l
    rw [if_neg (by omega), e2]
  · rw [if_neg hle] at hent
    obtain ⟨p2, e2, r2⟩ := slow_okS hP ht p1 l r1 hcan
    refine ⟨p2, ?_, r2⟩
    simp only [huffDecode, DECODE_CACHE_BITS, e1, bind, Except.bind, hent, e2]

/-! ### `initialize` -/
/-- A DHT table whose codes fit into the code space and whose values are difference categories. -/
structure GoodDhtS (bits huffval shiftval : List Nat) : Prop where
  len : bits.length = 17
  space : hpos 16 (lensOf 0 bits.tail) ≤ 2 ^ 16
  vals : ∀ k, k < (lensOf 0 bits.tail).length → huffval.getD k 0 + shiftval.getD k 0 ≤ 15
  enough : (lensOf 0 bits.tail).length ≤ huffval.length

theorem HuffTable.newS_ok (bits huffval shiftval : List Nat) (dng : Bool) (h : GoodDhtS bits huffval shiftval) (hv : huffval.length = 256)
    (hsl : shiftval.length = 256) :
    ∃ t, HuffTable.new bits huffval shiftval dng = .ok t ∧ t.dngBug = dng ∧ TableOKS bits huffval shiftval t ∧
      CacheOKS bits huffval shiftval t := by
  obtain ⟨h16, hz⟩ := maxLen_spec bits 16
  have hl := codeLens_eq bits h.len
  have hlens : ∀ l ∈ lensOf 0 bits.tail, 1 ≤ l ∧ l ≤ maxLen bits 16 := by
    intro l hm
    obtain ⟨j, hj, rfl, hp⟩ := mem_lensOf hm
    refine ⟨by omega, ?_⟩
    by_contra hgt
    have e : bits.tail.getD j 0 = bits.getD (j + 1) 0 := by cases bits <;> simp
    have hj' : j < 16 := by simpa [h.len] using hj
    rw [e, hz _ (by omega) (by omega)] at hp
    omega
  have hsp : hpos (maxLen bits 16) (lensOf 0 bits.tail) ≤ 2 ^ maxLen bits 16 := by
    have h1 := h.space
    rw [hpos_scale (maxLen bits 16) h16 _ (fun l hl => (hlens l hl).2)] at h1
    have e : 2 ^ 16 = 2 ^ (16 - maxLen bits 16) * 2 ^ maxLen bits 16 := by rw [← Nat.pow_add]; congr 1; omega
    rw [e] at h1
    exact Nat.le_of_mul_le_mul_left h1 (Nat.two_pow_pos _)
  -- lookup table
  obtain ⟨g, hg⟩ : ∃ g : Nat → Nat → Nat × Nat × Nat,
    g = fun a b => (a % 256, huffval.getD b 0 % 256, shiftval.getD b 0 % 256) := ⟨_, rfl⟩
  obtain ⟨ent, hent⟩ : ∃ ent, ent = ((lensOf 0 bits.tail).zipIdx.flatMap fun p =>
    List.replicate (2 ^ (maxLen bits 16 - p.1)) (g p.1 p.2)) := ⟨_, rfl⟩
  have hlen : ent.length = hpos (maxLen bits 16) (lensOf 0 bits.tail) := by rw [hent]; exact fill_length _ _ _ _
  have hfill : fillTable bits huffval shiftval (maxLen bits 16) =
      .ok (ent ++ List.replicate (2 ^ maxLen bits 16 - ent.length) (0, 0, 0)) := by
    unfold fillTable
    simp only [hl]
    rw [if_neg (by rw [hv, hsl]; have := h.enough; omega)]
    have : (List.flatMap (fun p : Nat × Nat => List.replicate (2 ^ (maxLen bits 16 - p.1))
      (p.1 % 256, huffval.getD p.2 0 % 256, shiftval.getD p.2 0 % 256)) (lensOf 0 bits.tail).zipIdx) = ent := by
      rw [hent, hg]
    rw [this, if_pos (by omega)]
  let t0 : HuffTable := ⟨dng, maxLen bits 16, ent ++ List.replicate (2 ^ maxLen bits 16 - ent.length) (0, 0, 0), []⟩
  have hlook : ∀ c, c < 2 ^ maxLen bits 16 → idx t0.table c = .ok (match findSlot (maxLen bits 16) (lensOf 0 bits.tail) c with
      | none => (0, 0, 0)
      | some k => ((lensOf 0 bits.tail).getD k 0, huffval.getD k 0, shiftval.getD k 0)) := by
    intro c hc
    have hget : ent[c]? = (findSlot (maxLen bits 16) (lensOf 0 bits.tail) c).map
        fun k => g ((lensOf 0 bits.tail).getD k 0) k := by
      rw [hent, fill_get]; simp
    simp only [idx, t0]
    cases hf : findSlot (maxLen bits 16) (lensOf 0 bits.tail) c with
    | none =>
      rw [findSlot_none_iff, ← hlen] at hf
      rw [List.getElem?_append_right hf, List.getElem?_replicate, if_pos (by omega)]
    | some k =>
      rw [hf] at hget
      have hk := findSlot_lt hf
      have hlt : c < ent.length := by
        by_contra hge
        rw [List.getElem?_eq_none (by omega)] at hget
        simp at hget
      rw [List.getElem?_append_left hlt, hget]
      simp only [Option.map_some, hg]
      have hm : (lensOf 0 bits.tail).getD k 0 ∈ lensOf 0 bits.tail := by
        rw [List.getD_eq_getElem?_getD, List.getElem?_eq_getElem hk]; exact List.getElem_mem hk
      have h1 := hlens _ hm
      have h2 := h.vals k hk
      rw [Nat.mod_eq_of_lt (show (lensOf 0 bits.tail).getD k 0 < 256 by omega),
        Nat.mod_eq_of_lt (show huffval.getD k 0 < 256 by omega), Nat.mod_eq_of_lt (show shiftval.getD k 0 < 256 by omega)]
  have ht0 : TableOKS bits huffval shiftval t0 := by
    refine ⟨h16, hlook, ?_, hlens, h.vals⟩
    intro l
    have := refSymbol_findSlot (maxLen bits 16) bits.tail 0 0 0 0 l 0 (by omega) (by
      intro j hj
      have e : bits.tail.getD j 0 = bits.getD (j + 1) 0 := by cases bits <;> simp
      rw [e]
      by_cases h17 : j + 1 ≤ 16
      · exact hz _ (by omega) h17
      · rw [List.getD_eq_getElem?_getD, List.getElem?_eq_none (by rw [h.len]; omega)]; rfl) rfl
    simpa using this
  have hmap := mapM_ok (cacheEntry t0) (fun i =>
    let r := refDecodeS bits huffval shiftval (bitsMSB 13 i ++ List.replicate 32 false)
    if r.2 ≤ 13 then some (r.2, r.1) else none) (List.range 8192)
    (fun i hi => cacheEntry_okS ht0 i (List.mem_range.1 hi))
  refine ⟨{ t0 with cache := (List.range 8192).map (fun i =>
      let r := refDecodeS bits huffval shiftval (bitsMSB 13 i ++ List.replicate 32 false)
      if r.2 ≤ 13 then some (r.2, r.1) else none) }, ?_, rfl, ⟨h16, hlook, ht0.sym, hlens, h.vals⟩, ?_⟩
  · simp only [HuffTable.new, hfill, bind, Except.bind]
    rw [show (⟨dng, maxLen bits 16, ent ++ List.replicate (2 ^ maxLen bits 16 - ent.length) (0, 0, 0), []⟩ : HuffTable) = t0
      from rfl, hmap]
  · intro i hi
    simp only [idx]
    rw [List.getElem?_map, List.getElem?_range hi]
    rfl

end Verif.Ljpeg

/-! ### words -/

namespace Verif.Ljpeg
open Verif Verif.Spec Verif.Pumps

theorem hpos_append (nb : Nat) (a b : List Nat) : hpos nb (a ++ b) = hpos nb a + hpos nb b := by
  simp [hpos]

theorem canon_space (nb : Nat) (cs : List Nat) (len first k : Nat) (hk : k < cs.sum) (hnb : len + cs.length ≤ nb) :
    len < (canonCode cs len first k).1 ∧ (canonCode cs len first k).1 ≤ len + cs.length ∧
    ((canonCode cs len first k).2 + 1) * 2 ^ (nb - (canonCode cs len first k).1) ≤
      first * 2 ^ (nb - len) + hpos nb (lensOf len cs) := by
  induction cs generalizing len first k with
  | nil => simp at hk
  | cons n cs ih =>
    rw [List.length_cons] at hnb
    have e : 2 ^ (nb - len) = 2 * 2 ^ (nb - (len + 1)) := by rw [← Nat.pow_succ']; congr 1; omega
    have eh : hpos nb (lensOf len (n :: cs)) = n * 2 ^ (nb - (len + 1)) + hpos nb (lensOf (len + 1) cs) := by
      rw [lensOf, hpos_append]; simp [hpos]
    rw [eh, e]
    unfold canonCode
    split
    · rename_i h
      refine ⟨by simp, by simp, ?_⟩
      simp only
      have : (2 * first + k + 1) * 2 ^ (nb - (len + 1)) ≤ (2 * first + n) * 2 ^ (nb - (len + 1)) :=
        Nat.mul_le_mul_right _ (by omega)
      have e2 : (2 * first + n) * 2 ^ (nb - (len + 1)) = first * (2 * 2 ^ (nb - (len + 1))) + n * 2 ^ (nb - (len + 1)) := by ring
      omega
    · rename_i h
      rw [List.sum_cons] at hk
      obtain ⟨h1, h2, h3⟩ := ih (len + 1) (2 * first + n) (k - n) (by omega) (by omega)
      refine ⟨by omega, by simp only [List.length_cons]; omega, ?_⟩
      refine Nat.le_trans h3 (Nat.le_of_eq ?_)
      ring

theorem canon_ge (cs : List Nat) (len first k : Nat) (hk : k < cs.sum) :
    len < (canonCode cs len first k).1 ∧
    first * 2 ^ ((canonCode cs len first k).1 - len) ≤ (canonCode cs len first k).2 := by
  induction cs generalizing len first k with
  | nil => simp at hk
  | cons n cs ih =>
    unfold canonCode
    split
    · simp only [Nat.add_sub_cancel_left, Nat.pow_one]
      exact ⟨by omega, by omega⟩
    · rename_i h
      rw [List.sum_cons] at hk
      obtain ⟨h0, h1⟩ := ih (len + 1) (2 * first + n) (k - n) (by omega)
      refine ⟨by omega, Nat.le_trans ?_ h1⟩
      obtain ⟨L, hL⟩ : ∃ L, L = (canonCode cs (len + 1) (2 * first + n) (k - n)).1 := ⟨_, rfl⟩
      rw [← hL] at h0 ⊢
      rw [show L - len = (L - (len + 1)) + 1 by omega, Nat.pow_succ]
      have : first * (2 ^ (L - (len + 1)) * 2) = (2 * first) * 2 ^ (L - (len + 1)) := by ring
      rw [this]
      exact Nat.mul_le_mul_right _ (by omega)

theorem refSymbol_canon (cs : List Nat) (len first pos k : Nat) (rest : List Bool) (hk : k < cs.sum) :
    refSymbol cs len ((canonCode cs len first k).2 / 2 ^ ((canonCode cs len first k).1 - len)) first pos
      (bitsMSB ((canonCode cs len first k).1 - len) (canonCode cs len first k).2 ++ rest) =
      some ((canonCode cs len first k).1, pos + k) := by
  induction cs generalizing len first pos k with
  | nil => simp at hk
  | cons n cs ih =>
    unfold canonCode
    split
    · rename_i h
      simp only [Nat.add_sub_cancel_left, refSymbol, bitsMSB, List.cons_append, List.headD_cons, Nat.pow_one]
      have hb : 2 * ((2 * first + k) / 2) + ((2 * first + k).testBit 0).toNat = 2 * first + k := by
        rw [Nat.toNat_testBit]; omega
      rw [hb, if_pos (by omega), Nat.add_sub_cancel_left]
    · rename_i h
      rw [List.sum_cons] at hk
      obtain ⟨h0, h1⟩ := canon_ge cs (len + 1) (2 * first + n) (k - n) (by omega)
      have hi := ih (len + 1) (2 * first + n) (pos + n) (k - n) (by omega)
      obtain ⟨L, hL⟩ : ∃ L, L = (canonCode cs (len + 1) (2 * first + n) (k - n)).1 := ⟨_, rfl⟩
      obtain ⟨c, hc⟩ : ∃ c, c = (canonCode cs (len + 1) (2 * first + n) (k - n)).2 := ⟨_, rfl⟩
      rw [← hL, ← hc] at h1 hi ⊢
      rw [← hL] at h0
      obtain ⟨d, hd⟩ : ∃ d, L = len + 1 + d := ⟨L - (len + 1), by omega⟩
      have e1 : L - (len + 1) = d := by omega
      rw [e1] at h1 hi
      rw [show L - len = d + 1 by omega, bitsMSB, List.cons_append, refSymbol]
      simp only [List.headD_cons, List.tail_cons]
      have hb : 2 * (c / 2 ^ (d + 1)) + (c.testBit d).toNat = c / 2 ^ d := by
        rw [Nat.toNat_testBit, Nat.pow_succ, ← Nat.div_div_eq_div_mul]; omega
      have hge : 2 * first + n ≤ c / 2 ^ d := (Nat.le_div_iff_mul_le (Nat.two_pow_pos d)).2 h1
      simp only [hb]
      rw [if_neg (by omega), hi]
      congr 2; omega

/-- The word of a code that fits. -/
theorem refSymbol_codeWord (cs : List Nat) (k : Nat) (rest : List Bool) (hk : k < cs.sum) (hl : cs.length ≤ 16)
    (hsp : hpos 16 (lensOf 0 cs) ≤ 2 ^ 16) :
    refSymbol cs 0 0 0 0 (codeWord cs k ++ rest) = some ((codeWord cs k).length, k) ∧ (codeWord cs k).length ≤ 16 := by
  obtain ⟨h1, h2, h3⟩ := canon_space 16 cs 0 0 k hk (by omega)
  have hs := refSymbol_canon cs 0 0 0 k rest hk
  unfold codeWord
  obtain ⟨L, hL⟩ : ∃ L, L = (canonCode cs 0 0 k).1 := ⟨_, rfl⟩
  obtain ⟨c, hc⟩ : ∃ c, c = (canonCode cs 0 0 k).2 := ⟨_, rfl⟩
  simp only [← hL, ← hc, Nat.sub_zero, Nat.zero_add, Nat.zero_mul] at h1 h2 h3 hs ⊢
  have hlt : c < 2 ^ L := by
    have e : (2 : Nat) ^ 16 = 2 ^ L * 2 ^ (16 - L) := by rw [← Nat.pow_add]; congr 1; omega
    rw [e] at hsp
    exact Nat.le_of_mul_le_mul_right (Nat.le_trans h3 hsp) (Nat.two_pow_pos _)
  rw [Nat.div_eq_of_lt hlt] at hs
  rw [hs, length_bitsMSB]
  exact ⟨rfl, by omega⟩

/-- Decoding a word and its extra bits. -/
theorem decode_word {P : Type} [BitPump P] {Rep : P → List Bool → Prop} {avail : P → Nat} {can : List Bool → Nat → Prop}
    (hP : Lawful P Rep avail can) (hcan : ∀ l n, n ≤ l.length → can l n)
    {bits huffval shiftval : List Nat} (hg : GoodDhtS bits huffval shiftval)
    {t : HuffTable} (ht : TableOKS bits huffval shiftval t) (hc : CacheOKS bits huffval shiftval t) (k x : Nat)
    (hk : k < bits.tail.sum) (hx : x < 2 ^ huffval.getD k 0) (p : P) (rest : List Bool)
    (hr : Rep p (codeWord bits.tail k ++ bitsMSB (huffval.getD k 0) x ++ rest)) (h32 : 32 ≤ rest.length) :
    ∃ p', huffDecode t p = .ok (if huffval.getD k 0 = 0 then 0 else diffOf (huffval.getD k 0) (shiftval.getD k 0) x, p') ∧
      Rep p' rest := by
  obtain ⟨p', e, r⟩ := fast_okS hP ht hc p _ hr (fun a b ha hb => hcan _ _ (by
    rw [List.length_drop, List.length_append]; omega))
  obtain ⟨hs, _⟩ := refSymbol_codeWord bits.tail k (bitsMSB (huffval.getD k 0) x ++ rest) hk (by simp [hg.len]) hg.space
  rw [← List.append_assoc] at hs
  have hd := refDecode_someS (huffval := huffval) (shiftval := shiftval) hs rfl rfl
  refine ⟨p', ?_, ?_⟩
  · rw [e, hd]
    split
    · rfl
    · simp only
      rw [List.append_assoc, List.drop_left, takeZ_of_le (by simp), List.take_left' (by simp), natMSB_bitsMSB, Nat.mod_eq_of_lt hx]
  · rw [hd] at r
    split at r
    · rename_i h0
      rw [h0] at r
      simpa [bitsMSB] using r
    · simp only at r
      rwa [List.drop_left' (by simp)] at r

theorem extraOf_lt (d : Int) : extraOf d < 2 ^ catOf d := by
  unfold extraOf
  have h : d.natAbs < 2 ^ catOf d := by
    unfold catOf
    split
    · subst_vars; simp
    · exact Nat.lt_log2_self
  generalize catOf d = n at *
  have e : ((2 ^ n : Nat) : Int) = (2 : Int) ^ n := by norm_cast
  split <;> omega

theorem diffOf_extra (d : Int) (h : d ≠ 0) : diffOf (catOf d) 0 (extraOf d) = d := by
  have h1 : d.natAbs < 2 ^ catOf d := by
    unfold catOf
    rw [if_neg h]; exact Nat.lt_log2_self
  have h2 : 2 ^ (catOf d - 1) ≤ d.natAbs := by
    unfold catOf
    rw [if_neg h, Nat.add_sub_cancel]; exact Nat.log2_self_le (by omega)
  have h0 : 0 < catOf d := by unfold catOf; rw [if_neg h]; omega
  unfold diffOf extraOf
  rw [if_pos rfl]
  generalize catOf d = n at *
  have e : ((2 ^ n : Nat) : Int) = (2 : Int) ^ n := by norm_cast
  have e2 : 2 ^ n = 2 ^ (n - 1) * 2 := by rw [← Nat.pow_succ]; congr 1; omega
  rw [← e]
  split <;> split <;> omega

/-- Decoding a coded difference. -/
theorem decode_diff {P : Type} [BitPump P] {Rep : P → List Bool → Prop} {avail : P → Nat} {can : List Bool → Nat → Prop}
    (hP : Lawful P Rep avail can) (hcan : ∀ l n, n ≤ l.length → can l n)
    {bits huffval shiftval : List Nat} (hg : GoodDhtS bits huffval shiftval)
    {t : HuffTable} (ht : TableOKS bits huffval shiftval t) (hc : CacheOKS bits huffval shiftval t) (vals : List Nat) (d : Int)
    (hv : ∀ k, k < vals.length → huffval.getD k 0 = vals.getD k 0) (hl : vals.length ≤ bits.tail.sum)
    (hd : catOf d ∈ vals) (hs : shiftval.getD (vals.idxOf (catOf d)) 0 = 0) (p : P) (rest : List Bool)
    (hr : Rep p (diffWord bits.tail vals d ++ rest)) (h32 : 32 ≤ rest.length) :
    ∃ p', huffDecode t p = .ok (d, p') ∧ Rep p' rest := by
  have hk := List.idxOf_lt_length_iff.2 hd
  have hv' : huffval.getD (vals.idxOf (catOf d)) 0 = catOf d := by
    rw [hv _ hk, List.getD_eq_getElem?_getD, List.getElem?_eq_getElem hk, Option.getD_some, List.getElem_idxOf]
  unfold diffWord at hr
  have := decode_word hP hcan hg ht hc (vals.idxOf (catOf d)) (extraOf d) (by omega) (by rw [hv']; exact extraOf_lt d) p rest
    (by rw [hv']; exact hr) h32
  rw [hv', hs] at this
  obtain ⟨p', e, r⟩ := this
  refine ⟨p', ?_, r⟩
  rw [e]
  by_cases h0 : d = 0
  · subst h0; rfl
  · rw [if_neg (by unfold catOf; rw [if_neg h0]; omega), diffOf_extra d h0]

end Verif.Ljpeg
