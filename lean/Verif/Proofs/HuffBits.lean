import Verif.Proofs.HuffGen
import Mathlib.Tactic.NormNum
/-!
# Number of codes per length (`count_bits`, `adjust_bits`) and the canonical code table
-/

namespace Verif.Ljpeg
open Verif

/-- weighted sum `Σ l[k] * w k` -/
def wsum (w : Nat → Nat) : List Nat → Nat
  | [] => 0
  | a :: l => a * w 0 + wsum (fun k => w (k + 1)) l

theorem wsum_set (w : Nat → Nat) (l : List Nat) (i v : Nat) (h : i < l.length) :
    wsum w (l.set i v) + l.getD i 0 * w i = wsum w l + v * w i := by
  induction l generalizing i w with
  | nil => simp at h
  | cons a l ih =>
    cases i with
    | zero => simp [wsum]; omega
    | succ i =>
      have := ih (fun k => w (k + 1)) i (by simpa using h)
      simp [wsum] at this ⊢; omega

theorem wsum_replicate_zero (w : Nat → Nat) (n : Nat) : wsum w (List.replicate n 0) = 0 := by
  induction n generalizing w with
  | zero => rfl
  | succ n ih => simp [List.replicate_succ, wsum, ih]

theorem le_wsum (w : Nat → Nat) (l : List Nat) (i : Nat) : l.getD i 0 * w i ≤ wsum w l := by
  induction l generalizing i w with
  | nil => simp
  | cons a l ih =>
    cases i with
    | zero => simp [wsum]
    | succ i => have := ih (fun k => w (k + 1)) i; simp [wsum] at this ⊢; omega

theorem wsum_range (w : Nat → Nat) (l : List Nat) :
    wsum w l = ((List.range l.length).map fun k => l.getD k 0 * w k).sum := by
  induction l generalizing w with
  | nil => rfl
  | cons a l ih =>
    rw [wsum, ih, List.length_cons, List.range_succ_eq_map]
    simp [Function.comp_def]

/-- what `count_bits` computes: for every weight, the weighted sum of the counts is the sum of the weights of the sizes -/
theorem countBits_ok (cs : List Nat) (hl : cs.length = 18) (hb : ∀ i, cs.getD i 0 < 33) :
    ∃ bits, countBits cs = .ok bits ∧ bits.length = 33 ∧ bits.getD 0 0 = 0 ∧
      ∀ w, wsum w bits = ((List.range 18).map fun i => if 0 < cs.getD i 0 then w (cs.getD i 0) else 0).sum := by
  have key := forN_inv (Inv := fun i (bits : List Nat) => bits.length = 33 ∧ bits.getD 0 0 = 0 ∧
      ∀ w, wsum w bits = ((List.range i).map fun i => if 0 < cs.getD i 0 then w (cs.getD i 0) else 0).sum)
    (n := 18) (f := fun i bits => do
    let c ← idx cs i
    if c > 0 then do
      let b ← idx bits c
      upd bits c (b + 1)
    else .ok bits) (s := List.replicate 33 0) ?_ ?_
  · obtain ⟨bits, e, h⟩ := key
    exact ⟨bits, e, h⟩
  · refine ⟨by simp, by simp, fun w => wsum_replicate_zero w 33⟩
  · intro i bits hi ⟨h1, h2, h3⟩
    have hc := hb i
    have hcl : i < cs.length := by omega
    rw [List.getD_eq_getElem?_getD, List.getElem?_eq_getElem hcl] at hc
    simp at hc
    by_cases h0 : cs[i] > 0
    · refine ⟨bits.set cs[i] (bits[cs[i]] + 1), ?_, by simpa using h1, ?_, ?_⟩
      · simp [idx_lt _ _ hcl, bind, Except.bind, h0, idx_lt _ _ (show cs[i] < bits.length by omega),
          upd_lt _ _ _ (show cs[i] < bits.length by omega)]
      · rw [getD_set, if_neg (by omega)]; exact h2
      · intro w
        have := wsum_set w bits cs[i] (bits[cs[i]] + 1) (by omega)
        have e2 : bits.getD cs[i] 0 = bits[cs[i]]'(by omega) := by
          rw [List.getD_eq_getElem?_getD, List.getElem?_eq_getElem (by omega)]; rfl
        rw [e2, Nat.succ_mul, h3 w] at this
        rw [List.range_succ, List.map_append, List.sum_append]
        have e3 : cs.getD i 0 = cs[i] := by
          rw [List.getD_eq_getElem?_getD, List.getElem?_eq_getElem hcl]; rfl
        simp only [List.map_cons, List.map_nil, List.sum_cons, List.sum_nil, e3, if_pos h0]
        omega
    · refine ⟨bits, ?_, h1, h2, ?_⟩
      · simp [idx_lt _ _ hcl, bind, Except.bind, h0]
      · intro w
        have e3 : cs.getD i 0 = cs[i] := by
          rw [List.getD_eq_getElem?_getD, List.getElem?_eq_getElem hcl]; rfl
        rw [List.range_succ, List.map_append, List.sum_append, h3 w]
        simp only [List.map_cons, List.map_nil, List.sum_cons, List.sum_nil, e3, if_neg h0, Nat.add_zero]

theorem findDown_ok (bits : List Nat) (j : Nat) (hl : j < bits.length) (h : ∃ k, k ≤ j ∧ 0 < bits.getD k 0) :
    ∃ m, findDown bits j = .ok m ∧ m ≤ j ∧ 0 < bits.getD m 0 ∧ ∀ k, m < k → k ≤ j → bits.getD k 0 = 0 := by
  induction j with
  | zero =>
    obtain ⟨k, hk, hp⟩ := h
    obtain rfl : k = 0 := by omega
    refine ⟨0, ?_, by omega, hp, by omega⟩
    have : bits[0] ≠ 0 := by
      rw [List.getD_eq_getElem?_getD, List.getElem?_eq_getElem hl] at hp; simp at hp; omega
    simp [findDown, idx_lt _ _ hl, bind, Except.bind, this]
  | succ j ih =>
    have e : bits.getD (j + 1) 0 = bits[j + 1] := by
      rw [List.getD_eq_getElem?_getD, List.getElem?_eq_getElem hl]; rfl
    by_cases h0 : bits[j + 1] = 0
    · obtain ⟨k, hk, hp⟩ := h
      have : k ≠ j + 1 := by rintro rfl; omega
      obtain ⟨m, e1, e2, e3, e4⟩ := ih (by omega) ⟨k, by omega, hp⟩
      refine ⟨m, by simp [findDown, idx_lt _ _ hl, bind, Except.bind, h0, e1], by omega, e3, ?_⟩
      intro k hk1 hk2
      by_cases hkj : k = j + 1
      · subst hkj; omega
      · exact e4 k hk1 (by omega)
    · exact ⟨j + 1, by simp [findDown, idx_lt _ _ hl, bind, Except.bind, h0], by omega, by omega, by omega⟩

theorem decAt_ok (bits : List Nat) (i n : Nat) (h : i < bits.length) (hn : n ≤ bits.getD i 0) :
    decAt bits i n = .ok (bits.set i (bits.getD i 0 - n)) := by
  have e : bits.getD i 0 = bits[i] := by
    rw [List.getD_eq_getElem?_getD, List.getElem?_eq_getElem h]; rfl
  rw [e] at hn ⊢
  simp [decAt, idx_lt _ _ h, bind, Except.bind, usub, hn, upd_lt _ _ _ h]

theorem incAt_ok (bits : List Nat) (i n : Nat) (h : i < bits.length) (hn : bits.getD i 0 + n < 256) :
    incAt bits i n = .ok (bits.set i (bits.getD i 0 + n)) := by
  have e : bits.getD i 0 = bits[i] := by
    rw [List.getD_eq_getElem?_getD, List.getElem?_eq_getElem h]; rfl
  rw [e] at hn ⊢
  simp [incAt, idx_lt _ _ h, bind, Except.bind, hn, upd_lt _ _ _ h]

/-- counts of a complete code with `n` codes of lengths 1..17 -/
structure BInv (n : Nat) (bits : List Nat) : Prop where
  len : bits.length = 33
  zero : bits.getD 0 0 = 0
  high : ∀ k, 17 < k → bits.getD k 0 = 0
  kraft : wsum (fun k => 2 ^ (32 - k)) bits = 2 ^ 32
  total : wsum (fun _ => 1) bits = n

/-- the weighted sum of a list whose entries above 17 are zero -/
theorem BInv.expand {n bits} (h : BInv n bits) (w : Nat → Nat) :
    wsum w bits = bits.getD 1 0 * w 1 + bits.getD 2 0 * w 2 + bits.getD 3 0 * w 3 + bits.getD 4 0 * w 4 +
      bits.getD 5 0 * w 5 + bits.getD 6 0 * w 6 + bits.getD 7 0 * w 7 + bits.getD 8 0 * w 8 + bits.getD 9 0 * w 9 +
      bits.getD 10 0 * w 10 + bits.getD 11 0 * w 11 + bits.getD 12 0 * w 12 + bits.getD 13 0 * w 13 +
      bits.getD 14 0 * w 14 + bits.getD 15 0 * w 15 + bits.getD 16 0 * w 16 + bits.getD 17 0 * w 17 := by
  rw [wsum_range, h.len]
  have hr : List.range 33 = [0, 1, 2, 3, 4, 5, 6, 7, 8, 9, 10, 11, 12, 13, 14, 15, 16, 17, 18, 19, 20, 21, 22, 23, 24, 25,
    26, 27, 28, 29, 30, 31, 32] := by decide
  rw [hr]
  simp only [List.map_cons, List.map_nil, List.sum_cons, List.sum_nil, h.zero]
  rw [h.high 18 (by omega), h.high 19 (by omega), h.high 20 (by omega), h.high 21 (by omega), h.high 22 (by omega),
    h.high 23 (by omega), h.high 24 (by omega), h.high 25 (by omega), h.high 26 (by omega), h.high 27 (by omega),
    h.high 28 (by omega), h.high 29 (by omega), h.high 30 (by omega), h.high 31 (by omega), h.high 32 (by omega)]
  simp only [Nat.zero_mul, Nat.add_zero, Nat.zero_add, Nat.add_assoc]

theorem BInv.parity {n bits} (h : BInv n bits) : bits.getD 17 0 % 2 = 0 := by
  have hk := h.kraft
  rw [h.expand] at hk
  norm_num at hk
  simp only [List.getD_eq_getElem?_getD]
  omega

theorem BInv.exists_low {n bits} (h : BInv n bits) (hn : n ≤ 18) : ∃ k, k ≤ 15 ∧ 0 < bits.getD k 0 := by
  by_contra hc
  have hz : ∀ k, k ≤ 15 → bits.getD k 0 = 0 := fun k hk => by
    by_contra h0; exact hc ⟨k, hk, by omega⟩
  have hk := h.kraft
  have ht := h.total
  rw [h.expand] at hk ht
  rw [hz 1 (by omega), hz 2 (by omega), hz 3 (by omega), hz 4 (by omega), hz 5 (by omega), hz 6 (by omega),
    hz 7 (by omega), hz 8 (by omega), hz 9 (by omega), hz 10 (by omega), hz 11 (by omega), hz 12 (by omega),
    hz 13 (by omega), hz 14 (by omega), hz 15 (by omega)] at hk ht
  norm_num at hk ht
  omega

theorem adjust17 (n : Nat) (hn : n ≤ 18) (fuel : Nat) (bits : List Nat) (h : BInv n bits)
    (hf : bits.getD 17 0 + 2 ≤ 2 * fuel) :
    ∃ bits', adjustLoop (fuel + 1) 17 bits = .ok bits' ∧ BInv n bits' ∧ bits'.getD 17 0 = 0 := by
  induction fuel generalizing bits with
  | zero => omega
  | succ fuel ih =>
    have hl := h.len
    have e : bits.getD 17 0 = bits[17] := by
      rw [List.getD_eq_getElem?_getD, List.getElem?_eq_getElem (by omega)]; rfl
    by_cases h0 : bits[17] > 0
    · have hpar := h.parity
      have hcnt : ∀ k, bits.getD k 0 ≤ 18 := fun k => by
        have := le_wsum (fun _ => 1) bits k; rw [h.total] at this; omega
      obtain ⟨j, ej, hj, hjp, _⟩ := findDown_ok bits 15 (by omega) (h.exists_low hn)
      have hj0 : j ≠ 0 := by rintro rfl; have := h.zero; omega
      -- step 1
      have d1 := decAt_ok bits 17 2 (by omega) (by omega)
      obtain ⟨b1, hb1⟩ : ∃ b, b = bits.set 17 (bits.getD 17 0 - 2) := ⟨_, rfl⟩
      have l1 : b1.length = 33 := by simp [hb1, hl]
      have g1 : ∀ i, b1.getD i 0 = if i = 17 then bits.getD 17 0 - 2 else bits.getD i 0 := by
        intro i; rw [hb1, getD_set]
        by_cases hi : 17 = i
        · subst hi; simp [hl]
        · rw [if_neg (by tauto), if_neg (by omega)]
      have w1 := fun w => wsum_set w bits 17 (bits.getD 17 0 - 2) (by omega)
      rw [← hb1] at w1 d1
      -- step 2
      have d2 := incAt_ok b1 16 1 (by omega) (by rw [g1, if_neg (by omega)]; have := hcnt 16; omega)
      obtain ⟨b2, hb2⟩ : ∃ b, b = b1.set 16 (b1.getD 16 0 + 1) := ⟨_, rfl⟩
      have l2 : b2.length = 33 := by simp [hb2, l1]
      have g2 : ∀ i, b2.getD i 0 = if i = 16 then b1.getD 16 0 + 1 else b1.getD i 0 := by
        intro i; rw [hb2, getD_set]
        by_cases hi : 16 = i
        · subst hi; simp [l1]
        · rw [if_neg (by tauto), if_neg (by omega)]
      have w2 := fun w => wsum_set w b1 16 (b1.getD 16 0 + 1) (by omega)
      rw [← hb2] at w2 d2
      -- step 3
      have hc3 : b2.getD (j + 1) 0 ≤ 19 := by
        rw [g2]; split
        · rw [g1, if_neg (by omega)]; have := hcnt 16; omega
        · rw [g1]; split
          · omega
          · have := hcnt (j + 1); omega
      have d3 := incAt_ok b2 (j + 1) 2 (by omega) (by omega)
      obtain ⟨b3, hb3⟩ : ∃ b, b = b2.set (j + 1) (b2.getD (j + 1) 0 + 2) := ⟨_, rfl⟩
      have l3 : b3.length = 33 := by simp [hb3, l2]
      have g3 : ∀ i, b3.getD i 0 = if i = j + 1 then b2.getD (j + 1) 0 + 2 else b2.getD i 0 := by
        intro i; rw [hb3, getD_set]
        by_cases hi : j + 1 = i
        · subst hi; rw [if_pos ⟨rfl, by omega⟩]; simp
        · rw [if_neg (by tauto), if_neg (by omega)]
      have w3 := fun w => wsum_set w b2 (j + 1) (b2.getD (j + 1) 0 + 2) (by omega)
      rw [← hb3] at w3 d3
      -- step 4
      have gj : b3.getD j 0 = bits.getD j 0 := by
        rw [g3, if_neg (by omega), g2, if_neg (by omega), g1, if_neg (by omega)]
      have d4 := decAt_ok b3 j 1 (by omega) (by rw [gj]; omega)
      obtain ⟨b4, hb4⟩ : ∃ b, b = b3.set j (b3.getD j 0 - 1) := ⟨_, rfl⟩
      have l4 : b4.length = 33 := by simp [hb4, l3]
      have g4 : ∀ i, b4.getD i 0 = if i = j then b3.getD j 0 - 1 else b3.getD i 0 := by
        intro i; rw [hb4, getD_set]
        by_cases hi : j = i
        · subst hi; rw [if_pos ⟨rfl, by omega⟩]; simp
        · rw [if_neg (by tauto), if_neg (by omega)]
      have w4 := fun w => wsum_set w b3 j (b3.getD j 0 - 1) (by omega)
      rw [← hb4] at w4 d4
      have g417 : b4.getD 17 0 = bits.getD 17 0 - 2 := by
        rw [g4, if_neg (by omega), g3, if_neg (by omega), g2, if_neg (by omega), g1, if_pos rfl]
      have hinv : BInv n b4 := by
        refine ⟨l4, ?_, ?_, ?_, ?_⟩
        · rw [g4, if_neg (by omega), g3, if_neg (by omega), g2, if_neg (by omega), g1, if_neg (by omega)]
          exact h.zero
        · intro k hk
          rw [g4, if_neg (by omega), g3, if_neg (by omega), g2, if_neg (by omega), g1, if_neg (by omega)]
          exact h.high k hk
        · have a1 := w1 (fun k => 2 ^ (32 - k))
          have a2 := w2 (fun k => 2 ^ (32 - k))
          have a3 := w3 (fun k => 2 ^ (32 - k))
          have a4 := w4 (fun k => 2 ^ (32 - k))
          have hk := h.kraft
          rw [gj] at a4
          have ep : 2 ^ (32 - j) = 2 * 2 ^ (32 - (j + 1)) := by
            rw [show 32 - j = (32 - (j + 1)) + 1 by omega, Nat.pow_succ]; omega
          obtain ⟨P, hP⟩ : ∃ P, P = 2 ^ (32 - (j + 1)) := ⟨_, rfl⟩
          rw [ep] at a4
          rw [← hP] at a3 a4
          obtain ⟨u, hu⟩ : ∃ u, bits.getD j 0 = u + 1 := ⟨bits.getD j 0 - 1, by omega⟩
          obtain ⟨v, hv⟩ : ∃ v, bits.getD 17 0 = v + 2 := ⟨bits.getD 17 0 - 2, by omega⟩
          rw [hu] at a4
          rw [hv] at a1
          simp only [Nat.add_mul, Nat.add_sub_cancel] at a1 a2 a3 a4
          norm_num at a1 a2
          rw [hk] at a1
          omega
        · have a1 := w1 (fun _ => 1)
          have a2 := w2 (fun _ => 1)
          have a3 := w3 (fun _ => 1)
          have a4 := w4 (fun _ => 1)
          have ht := h.total
          rw [gj] at a4
          omega
      obtain ⟨bits', e1, e2, e3⟩ := ih b4 hinv (by rw [g417]; omega)
      refine ⟨bits', ?_, e2, e3⟩
      rw [adjustLoop]
      simp only [show (17 : Nat) > 16 by omega, if_true, idx_lt bits 17 (by omega), bind, Except.bind, h0, Nat.reduceSub, ej,
        d1, d2, d3, d4]
      exact e1
    · refine ⟨bits, ?_, h, by omega⟩
      rw [adjustLoop]
      simp only [show (17 : Nat) > 16 by omega, if_true, idx_lt bits 17 (by omega), bind, Except.bind, h0, if_false]
      rw [adjustLoop]
      simp

theorem adjust_skip (fuel i : Nat) (bits : List Nat) (hi : 17 < i) (hl : i < bits.length) (h : bits.getD i 0 = 0) :
    adjustLoop (fuel + 1) i bits = adjustLoop fuel (i - 1) bits := by
  have e : bits.getD i 0 = bits[i] := by
    rw [List.getD_eq_getElem?_getD, List.getElem?_eq_getElem (by omega)]; rfl
  rw [adjustLoop]
  simp [show i > 16 by omega, idx_lt bits i hl, bind, Except.bind, show bits[i] = 0 by omega]

theorem adjust_skips (d fuel : Nat) (bits : List Nat) (hl : 17 + d < bits.length) (h : ∀ k, 17 < k → bits.getD k 0 = 0) :
    adjustLoop (fuel + d) (17 + d) bits = adjustLoop fuel 17 bits := by
  induction d with
  | zero => rfl
  | succ d ih =>
    rw [show fuel + (d + 1) = (fuel + d) + 1 by omega, adjust_skip _ _ _ (by omega) hl (h _ (by omega)),
      show 17 + (d + 1) - 1 = 17 + d by omega]
    exact ih (by omega)

/-- Code counts after `adjust_bits`: `n - 1` codes of 1 to 16 bits which do not use up the code space. -/
theorem adjustBits_ok (n : Nat) (hn : n ≤ 18) (bits : List Nat) (h : BInv n bits) :
    ∃ bits', adjustBits bits = .ok bits' ∧ bits'.length = 33 ∧ bits'.getD 0 0 = 0 ∧ (∀ k, 16 < k → bits'.getD k 0 = 0) ∧
      wsum (fun k => 2 ^ (32 - k)) bits' < 2 ^ 32 ∧ wsum (fun _ => 1) bits' + 1 = n := by
  have hb17 : bits.getD 17 0 ≤ 18 := by
    have := le_wsum (fun _ => 1) bits 17; rw [h.total] at this; omega
  obtain ⟨b, e1, e2, e3⟩ := adjust17 n hn 48 bits h (by omega)
  have es := adjust_skips 15 49 bits (by rw [h.len]; omega) h.high
  obtain ⟨k, hk, hkp⟩ := e2.exists_low hn
  obtain ⟨m, f1, f2, f3, f4⟩ := findDown_ok b 16 (by rw [e2.len]; omega) ⟨k, by omega, hkp⟩
  have d := decAt_ok b m 1 (by rw [e2.len]; omega) (by omega)
  have hm0 : m ≠ 0 := by rintro rfl; have := e2.zero; omega
  refine ⟨b.set m (b.getD m 0 - 1), ?_, by simp [e2.len], ?_, ?_, ?_, ?_⟩
  · have : adjustLoop 64 32 bits = .ok b := by
      have := es.trans e1
      exact this
    simp [adjustBits, this, bind, Except.bind, f1, d]
  · rw [getD_set, if_neg (by omega)]; exact e2.zero
  · intro k hk
    rw [getD_set, if_neg (by omega)]
    by_cases h17 : k = 17
    · subst h17; exact e3
    · exact e2.high k (by omega)
  · have w := wsum_set (fun k => 2 ^ (32 - k)) b m (b.getD m 0 - 1) (by rw [e2.len]; omega)
    have hk := e2.kraft
    obtain ⟨u, hu⟩ : ∃ u, b.getD m 0 = u + 1 := ⟨b.getD m 0 - 1, by omega⟩
    have hp : 0 < 2 ^ (32 - m) := Nat.two_pow_pos _
    rw [hu] at w ⊢
    simp only [Nat.add_mul, Nat.add_sub_cancel] at w ⊢
    omega
  · have w := wsum_set (fun _ => 1) b m (b.getD m 0 - 1) (by rw [e2.len]; omega)
    have ht := e2.total
    omega

end Verif.Ljpeg
