import Verif.Proofs.TwoRow
import Verif.Spec.Pef
import Mathlib.Data.List.Nodup
/-! # Pentax: the stored table -/

namespace Verif.Pef
open Verif Verif.Pumps Verif.Ljpeg Verif.Spec Verif.Spec.TwoRow Verif.Spec.Pef

/-! ### canonical codes -/

theorem canon_strict (cs : List Nat) (len first k k' : Nat) (h : k < k') (hk : k' < cs.sum) :
    (canonCode cs len first k).2 < (canonCode cs len first k').2 := by
  induction cs generalizing len first k k' with
  | nil => simp at hk
  | cons n cs ih =>
    rw [List.sum_cons] at hk
    rw [canonCode, canonCode]
    by_cases h1 : k' < n
    · rw [if_pos (by omega), if_pos h1]; simp only; omega
    · rw [if_neg h1]
      by_cases h2 : k < n
      · rw [if_pos h2]
        obtain ⟨g1, g2⟩ := canon_ge cs (len + 1) (2 * first + n) (k' - n) (by omega)
        have : (2 * first + n) * 1 ≤ (2 * first + n) * 2 ^ ((canonCode cs (len + 1) (2 * first + n) (k' - n)).1 - (len + 1)) :=
          Nat.mul_le_mul_left _ (Nat.two_pow_pos _)
        simp only
        omega
      · rw [if_neg h2]
        exact ih _ _ _ _ (by omega) (by omega)

theorem sum_zero_all {cs : List Nat} (h : cs.sum = 0) : ∀ n ∈ cs, n = 0 := by
  induction cs with
  | nil => simp
  | cons a cs ih =>
    rw [List.sum_cons] at h
    intro n hn
    rcases List.mem_cons.1 hn with rfl | hn
    · omega
    · exact ih (by omega) n hn

theorem canon_last (nb : Nat) (cs : List Nat) (len first k : Nat) (hk : k + 1 = cs.sum) (hnb : len + cs.length ≤ nb) :
    ((canonCode cs len first k).2 + 1) * 2 ^ (nb - (canonCode cs len first k).1) =
      first * 2 ^ (nb - len) + hpos nb (lensOf len cs) := by
  induction cs generalizing len first k with
  | nil => simp at hk
  | cons n cs ih =>
    rw [List.length_cons] at hnb
    have e : 2 ^ (nb - len) = 2 * 2 ^ (nb - (len + 1)) := by rw [← Nat.pow_succ']; congr 1; omega
    have eh : hpos nb (lensOf len (n :: cs)) = n * 2 ^ (nb - (len + 1)) + hpos nb (lensOf (len + 1) cs) := by
      rw [lensOf, hpos_append]; simp [hpos]
    rw [eh, e, canonCode]
    rw [List.sum_cons] at hk
    split
    · have h0 : cs.sum = 0 := by omega
      rw [lensOf_zero cs (sum_zero_all h0)]
      simp only [hpos, List.map_nil, List.sum_nil, Nat.add_zero]
      rw [show 2 * first + k + 1 = 2 * first + n by omega]
      ring
    · rename_i h
      rw [ih (len + 1) (2 * first + n) (k - n) (by omega) (by omega)]
      ring

/-- A code whose last word fits leaves room for all of them. -/
theorem space_of_last (cs : List Nat) (hl : cs.length ≤ 16)
    (h : ∀ k, k < cs.sum → (canonCode cs 0 0 k).2 < 2 ^ (canonCode cs 0 0 k).1) : hpos 16 (lensOf 0 cs) ≤ 2 ^ 16 := by
  by_cases h0 : cs.sum = 0
  · rw [lensOf_zero cs (sum_zero_all h0)]; simp [hpos]
  · have e := canon_last 16 cs 0 0 (cs.sum - 1) (by omega) (by omega)
    obtain ⟨g1, g2, _⟩ := canon_space 16 cs 0 0 (cs.sum - 1) (by omega) (by omega)
    have hlt := h (cs.sum - 1) (by omega)
    rw [Nat.zero_mul, Nat.zero_add] at e
    rw [← e]
    generalize (canonCode cs 0 0 (cs.sum - 1)).1 = L at *
    have e2 : (2 : Nat) ^ 16 = 2 ^ L * 2 ^ (16 - L) := by rw [← Nat.pow_add]; congr 1; omega
    rw [e2]
    exact Nat.mul_le_mul_right _ hlt

/-! ### reading -/

theorem bsU16_word (le : Bool) (v : Nat) (r : List Nat) : bsU16 le (word16 le v ++ r) = .ok (v, r) := by
  unfold word16
  cases le
  · simp only [Bool.false_eq_true, if_false, List.cons_append, List.nil_append, bsU16]
    congr 2; omega
  · simp only [if_true, List.cons_append, List.nil_append, bsU16]
    congr 2; omega

theorem readN_ok {α β : Type} (f : List Nat → R (α × List Nat)) (enc : β → List Nat) (val : β → α) (l : List β)
    (h : ∀ b ∈ l, ∀ r, f (enc b ++ r) = .ok (val b, r)) (r : List Nat) :
    readN f l.length (l.flatMap enc ++ r) = .ok (l.map val, r) := by
  induction l with
  | nil => rfl
  | cons b l ih =>
    rw [List.length_cons, readN, List.flatMap_cons, List.append_assoc, h b List.mem_cons_self]
    simp only [bind, Except.bind]
    rw [ih (fun b hb => h b (List.mem_cons_of_mem _ hb))]
    rfl

theorem readU8_ok (l : List Nat) (r : List Nat) : readN getU8 l.length (l ++ r) = .ok (l, r) := by
  have := readN_ok getU8 (fun b => [b]) id l (fun b _ r => rfl) r
  simpa [List.flatMap_singleton'] using this

/-! ### codes and counts -/

theorem getD_lt0 {α} (l : List α) (i : Nat) (d : α) (h : i < l.length) : l.getD i d = l[i] := by
  rw [List.getD_eq_getElem?_getD, List.getElem?_eq_getElem h, Option.getD_some]

theorem codes_ok (ws : Words) (h16 : ws.length ≤ 16) (hw : ∀ a ∈ ws, 1 ≤ a.1 ∧ a.1 ≤ 12 ∧ a.2 < 2 ^ a.1) :
    ∃ v2 bits, forN ws.length (codeStep (ws.map fun a => a.2 * 2 ^ (12 - a.1)) (ws.map (·.1)))
        (List.replicate 16 0, List.replicate 17 0) = .ok (v2, bits) ∧
      v2.length = 16 ∧ (∀ j, j < ws.length → v2.getD j 0 = (ws.getD j (0, 0)).2) ∧
      bits = 0 :: counts ws := by
  obtain ⟨⟨v2, bits⟩, e, h1, h2, h3, h4⟩ := forN_inv ws.length
    (codeStep (ws.map fun a => a.2 * 2 ^ (12 - a.1)) (ws.map (·.1)))
    (fun c st => st.1.length = 16 ∧ (∀ j, j < c → st.1.getD j 0 = (ws.getD j (0, 0)).2) ∧ st.2.length = 17 ∧
      ∀ b, b < 17 → st.2.getD b 0 = ((ws.take c).filter fun a => a.1 = b).length)
    (List.replicate 16 0, List.replicate 17 0)
    ⟨List.length_replicate, by intro j hj; omega, List.length_replicate, by
      intro b hb
      simp only [List.getD_eq_getElem?_getD, List.getElem?_replicate, if_pos hb, Option.getD_some, List.take_zero,
        List.filter_nil, List.length_nil]⟩
    (by
      intro c ⟨v2, bits⟩ hc ⟨h1, h2, h3, h4⟩
      simp only at h1 h2 h3 h4
      obtain ⟨ha1, ha2, ha3⟩ := hw ws[c] (List.getElem_mem hc)
      have e1 : idx (ws.map fun a => a.2 * 2 ^ (12 - a.1)) c = .ok (ws[c].2 * 2 ^ (12 - ws[c].1)) := by
        rw [idx_lt _ _ (by simpa using hc)]; simp
      have e2 : idx (ws.map (·.1)) c = .ok ws[c].1 := by
        rw [idx_lt _ _ (by simpa using hc)]; simp
      have e3 : idx bits ws[c].1 = .ok (bits.getD ws[c].1 0) := by
        rw [idx_lt _ _ (by omega), getD_lt0]
      refine ⟨(v2.set c ws[c].2, bits.set ws[c].1 (bits.getD ws[c].1 0 + 1)), ?_, by simp [h1], ?_, by simp [h3], ?_⟩
      · have esh : (ws[c].2 * 2 ^ (12 - ws[c].1)) >>> (12 - ws[c].1) = ws[c].2 := by
          rw [Nat.shiftRight_eq_div_pow, Nat.mul_div_cancel _ (Nat.two_pow_pos _)]
        simp only [codeStep, e1, e2, bind, Except.bind]
        rw [usub, if_pos ha2]
        simp only
        rw [esh, upd_lt _ _ _ (by omega)]
        simp only
        rw [e3]
        simp only
        rw [upd_lt _ _ _ (by omega)]
      · intro j hj
        simp only
        by_cases hjc : j = c
        · subst hjc
          rw [List.getD_eq_getElem?_getD, List.getElem?_set_self (by omega), Option.getD_some, getD_lt0 _ _ _ hc]
        · rw [List.getD_eq_getElem?_getD, List.getElem?_set_ne (by omega), ← List.getD_eq_getElem?_getD]
          exact h2 j (by omega)
      · intro b hb
        simp only
        rw [List.take_succ_eq_append_getElem hc, List.filter_append, List.length_append]
        by_cases hbc : ws[c].1 = b
        · rw [hbc, List.getD_eq_getElem?_getD, List.getElem?_set_self (by omega), Option.getD_some, h4 b hb]
          simp [hbc]
        · rw [List.getD_eq_getElem?_getD, List.getElem?_set_ne hbc, ← List.getD_eq_getElem?_getD, h4 b hb]
          simp [hbc])
  simp only at h1 h2 h3 h4
  refine ⟨v2, bits, e, h1, h2, ?_⟩
  apply List.ext_getElem
  · simp [h3, counts]
  · intro i hi1 hi2
    rw [← getD_lt0 bits i 0 hi1, h4 i (by omega), List.take_of_length_le (Nat.le_refl _)]
    cases i with
    | zero =>
      simp only [List.getElem_cons_zero, List.length_eq_zero_iff, List.filter_eq_nil_iff, decide_eq_true_eq]
      intro a ha h0
      have := (hw a ha).1
      omega
    | succ i => simp [counts]

/-! ### sorting -/

theorem smallest_ok (v2 : List Nat) (depth j0 : Nat) (hj : j0 < depth)
    (hv : v2.getD j0 0 ≤ 0xfffffff)
    (hmin : ∀ j, j < depth → j ≠ j0 → v2.getD j0 0 < v2.getD j 0) : smallest v2 depth = (j0, v2.getD j0 0) := by
  suffices H : ∀ n, n ≤ depth →
      (n ≤ j0 → v2.getD j0 0 ≤ ((List.range n).foldl (fun s j => if v2.getD j 0 ≤ s.2 then (j, v2.getD j 0) else s) ((0xff, 0xfffffff) : Nat × Nat)).2) ∧
      (j0 < n → (List.range n).foldl (fun s j => if v2.getD j 0 ≤ s.2 then (j, v2.getD j 0) else s) ((0xff, 0xfffffff) : Nat × Nat) = (j0, v2.getD j0 0)) from
    (H depth (Nat.le_refl _)).2 hj
  intro n
  induction n with
  | zero => exact fun _ => ⟨fun _ => hv, fun h => by omega⟩
  | succ n ih =>
    intro hn
    obtain ⟨i1, i2⟩ := ih (by omega)
    rw [List.range_succ, List.foldl_append, List.foldl_cons, List.foldl_nil]
    generalize (List.range n).foldl (fun s j => if v2.getD j 0 ≤ s.2 then (j, v2.getD j 0) else s) ((0xff, 0xfffffff) : Nat × Nat) = s at *
    constructor
    · intro h
      have := hmin n (by omega) (by omega)
      have := i1 (by omega)
      split
      · exact Nat.le_of_lt (by assumption)
      · exact this
    · intro h
      by_cases he : n = j0
      · subst he
        rw [if_pos (i1 (Nat.le_refl _))]
      · have := hmin n (by omega) he
        rw [i2 (by omega), if_neg (by simp only; omega)]

theorem sort_ok (ws : Words) (order v2 : List Nat) (h16 : ws.length ≤ 16) (hv : v2.length = 16)
    (hcode : ∀ j, j < ws.length → v2.getD j 0 = (ws.getD j (0, 0)).2)
    (hw : ∀ a ∈ ws, 1 ≤ a.1 ∧ a.1 ≤ 12 ∧ a.2 < 2 ^ a.1)
    (hperm : order.Perm (List.range ws.length))
    (hstrict : ∀ k k', k < k' → k' < ws.length → (ws.getD (order.getD k 0) (0, 0)).2 < (ws.getD (order.getD k' 0) (0, 0)).2) :
    ∃ v2' hv', forN ws.length (sortStep ws.length) (v2, List.replicate 256 0) = .ok (v2', hv') ∧ hv'.length = 256 ∧
      ∀ k, k < ws.length → hv'.getD k 0 = order.getD k 0 := by
  have hlen : order.length = ws.length := by rw [hperm.length_eq, List.length_range]
  have hlt : ∀ k, k < ws.length → order.getD k 0 < ws.length := by
    intro k hk
    have : order.getD k 0 ∈ order := by rw [getD_lt0 _ _ _ (by omega)]; exact List.getElem_mem _
    exact List.mem_range.1 (hperm.mem_iff.1 this)
  have hnd : order.Nodup := hperm.nodup_iff.2 List.nodup_range
  have hsmall : ∀ j, j < ws.length → (ws.getD j (0, 0)).2 < 4096 := by
    intro j hj
    rw [getD_lt0 _ _ _ hj]
    obtain ⟨_, h2, h3⟩ := hw _ (List.getElem_mem hj)
    have : 2 ^ ws[j].1 ≤ 2 ^ 12 := Nat.pow_le_pow_right (by omega) h2
    omega
  obtain ⟨⟨v2', hv'⟩, e, _, _, h2, h3⟩ := forN_inv ws.length (sortStep ws.length)
    (fun i st => st.1.length = 16 ∧
      (∀ k, k < ws.length → st.1.getD (order.getD k 0) 0 = if k < i then 0xffffffff else (ws.getD (order.getD k 0) (0, 0)).2) ∧
      st.2.length = 256 ∧ ∀ k, k < i → st.2.getD k 0 = order.getD k 0)
    (v2, List.replicate 256 0)
    ⟨hv, by intro k hk; rw [if_neg (by omega)]; exact hcode _ (hlt k hk), List.length_replicate, by intro k hk; omega⟩
    (by
      intro i ⟨v2, hv'⟩ hi ⟨h1, h2, h3, h4⟩
      simp only at h1 h2 h3 h4
      have hi0 : v2.getD (order.getD i 0) 0 = (ws.getD (order.getD i 0) (0, 0)).2 := by rw [h2 i hi, if_neg (by omega)]
      have hs := hsmall _ (hlt i hi)
      have hsm := smallest_ok v2 ws.length (order.getD i 0) (hlt i hi) (by omega) (by
        intro j hj hne
        have hj' : j ∈ order := hperm.mem_iff.2 (List.mem_range.2 hj)
        obtain ⟨k, hk, rfl⟩ := List.getElem_of_mem hj'
        rw [← getD_lt0 order k 0 hk] at hne ⊢
        have hki : k ≠ i := by intro h; rw [h] at hne; exact hne rfl
        rw [hi0, h2 k (by omega)]
        split
        · omega
        · exact hstrict i k (by omega) (by omega))
      refine ⟨(v2.set (order.getD i 0) 0xffffffff, hv'.set i (order.getD i 0)), ?_, by simp [h1], ?_, by simp [h3], ?_⟩
      · simp only [sortStep, hsm, bind, Except.bind]
        rw [upd_lt _ _ _ (by omega)]
        simp only
        rw [upd_lt _ _ _ (by have := hlt i hi; omega)]
      · intro k hk
        simp only
        by_cases hki : k = i
        · subst hki
          rw [List.getD_eq_getElem?_getD, List.getElem?_set_self (by have := hlt k hk; omega), Option.getD_some, if_pos (by omega)]
        · have hne : order.getD i 0 ≠ order.getD k 0 := by
            rw [getD_lt0 _ _ _ (by omega : i < order.length), getD_lt0 _ _ _ (by omega : k < order.length)]
            intro h
            exact hki ((List.Nodup.getElem_inj_iff hnd).1 h).symm
          rw [List.getD_eq_getElem?_getD, List.getElem?_set_ne hne, ← List.getD_eq_getElem?_getD, h2 k hk]
          by_cases h : k < i
          · rw [if_pos h, if_pos (by omega)]
          · rw [if_neg h, if_neg (by omega)]
      · intro k hk
        simp only
        by_cases hki : k = i
        · subst hki
          rw [List.getD_eq_getElem?_getD, List.getElem?_set_self (by omega), Option.getD_some]
        · rw [List.getD_eq_getElem?_getD, List.getElem?_set_ne (by omega), ← List.getD_eq_getElem?_getD]
          exact h4 k (by omega))
  exact ⟨v2', hv', e, h2, h3⟩

end Verif.Pef

namespace Verif.Pef
open Verif Verif.Pumps Verif.Ljpeg Verif.Spec Verif.Spec.TwoRow Verif.Spec.Pef Verif.TwoRow

theorem indicator_sum (a n : Nat) (h1 : 1 ≤ a) (h2 : a ≤ n) :
    ((List.range n).map fun i => if a = i + 1 then 1 else 0).sum = 1 := by
  induction n with
  | zero => omega
  | succ n ih =>
    rw [List.range_succ, List.map_append, List.sum_append]
    by_cases h : a = n + 1
    · subst h
      have : ((List.range n).map fun i => if n + 1 = i + 1 then 1 else 0) = (List.range n).map fun _ => 0 := by
        apply List.map_congr_left
        intro i hi
        rw [List.mem_range] at hi
        rw [if_neg (by omega)]
      rw [this]
      simp
    · rw [ih (by omega)]
      simp [h]

theorem sum_map_add' (l : List Nat) (f g : Nat → Nat) : (l.map fun i => f i + g i).sum = (l.map f).sum + (l.map g).sum := by
  induction l with
  | nil => rfl
  | cons a l ih => simp only [List.map_cons, List.sum_cons, ih]; omega

theorem counts_sum (ws : Words) (hw : ∀ a ∈ ws, 1 ≤ a.1 ∧ a.1 ≤ 12 ∧ a.2 < 2 ^ a.1) : (counts ws).sum = ws.length := by
  induction ws with
  | nil =>
    show ((List.range 16).map fun _ => 0).sum = 0
    simp
  | cons a ws ih =>
    obtain ⟨h1, h2, _⟩ := hw a List.mem_cons_self
    have ih := ih (fun b hb => hw b (List.mem_cons_of_mem _ hb))
    have e : counts (a :: ws) = (List.range 16).map fun i => (ws.filter fun a => a.1 = i + 1).length + if a.1 = i + 1 then 1 else 0 := by
      apply List.map_congr_left
      intro i _
      rw [List.filter_cons]
      by_cases h : a.1 = i + 1
      · simp [h]
      · simp [h]
    rw [e, sum_map_add', indicator_sum a.1 16 h1 (by omega), List.length_cons]
    unfold counts at ih
    omega

/-- The stored table is read as the canonical code it is. -/
theorem fileTable_ok (le : Bool) (n : Nat) (skip tail : List Nat) (ws : Words) (order : List Nat) (hn : (n + 12) % 16 = ws.length)
    (hs : skip.length = 12) (hc : Canonical ws order) :
    ∃ hv, fileTable le (blob le n skip ws tail) = .ok (0 :: counts ws, hv) ∧ hv.length = 256 ∧
      ∀ k, k < ws.length → hv.getD k 0 = order.getD k 0 := by
  obtain ⟨hperm, hcode, hw⟩ := hc
  have hsum := counts_sum ws hw
  obtain ⟨v2, bits, e1, h1, h2, rfl⟩ := codes_ok ws (by omega) hw
  obtain ⟨v2', hv, e2, h3, h4⟩ := sort_ok ws order v2 (by omega) h1 h2 hw hperm (by
    intro k k' hk hk'
    rw [hcode k (by omega), hcode k' hk']
    exact canon_strict _ _ _ _ _ hk (by omega))
  refine ⟨hv, ?_, h3, h4⟩
  unfold fileTable blob
  rw [List.append_assoc, List.append_assoc, List.append_assoc, bsU16_word]
  simp only [bind, Except.bind]
  rw [show (0xf : Nat) = 2 ^ 4 - 1 from rfl, Nat.and_two_pow_sub_one_eq_mod, hn, List.drop_left' hs]
  have r1 := readN_ok (bsU16 le) (fun a : Nat × Nat => word16 le (a.2 * 2 ^ (12 - a.1))) (fun a => a.2 * 2 ^ (12 - a.1)) ws
    (fun a _ r => bsU16_word le _ r) (ws.map (·.1) ++ tail)
  rw [r1]
  simp only
  have r2 := readU8_ok (ws.map (·.1)) tail
  rw [List.length_map] at r2
  rw [r2]
  simp only
  rw [e1]
  simp only
  rw [e2]

theorem coded_eq (ws : Words) (order : List Nat) (hc : Canonical ws order) (d : Int) (hd : catOf d < ws.length) :
    coded ws d = diffWord (counts ws) order d := by
  obtain ⟨hperm, hcode, hw⟩ := hc
  have hlen : order.length = ws.length := by rw [hperm.length_eq, List.length_range]
  have hm : catOf d ∈ order := hperm.mem_iff.2 (List.mem_range.2 hd)
  have hk := List.idxOf_lt_length_iff.2 hm
  have := hcode (order.idxOf (catOf d)) (by omega)
  rw [getD_lt0 order _ 0 hk, List.getElem_idxOf] at this
  rw [coded, diffWord, codeWord, this]

theorem getD_zeros (n k : Nat) : (List.replicate n 0).getD k 0 = 0 := by
  rw [List.getD_eq_getElem?_getD, List.getElem?_replicate]; split <;> rfl

/-- A table with the counts of a canonical code decodes its words. -/
theorem table_decodes (ws : Words) (order hv : List Nat) (h16 : ws.length ≤ 16) (hc : Canonical ws order) (hl : hv.length = 256)
    (hv' : ∀ k, k < ws.length → hv.getD k 0 = order.getD k 0) :
    ∃ t, HuffTable.new (0 :: counts ws) hv (List.replicate 256 0) false = .ok t ∧
      ∀ d : Int, catOf d < ws.length → Decodes t (coded ws d) d := by
  have hsum := counts_sum ws hc.2.2
  have hperm := hc.1
  have hlen : order.length = ws.length := by rw [hperm.length_eq, List.length_range]
  have hlt : ∀ k, k < ws.length → order.getD k 0 < ws.length := by
    intro k hk
    have : order.getD k 0 ∈ order := by rw [getD_lt0 _ _ _ (by omega)]; exact List.getElem_mem _
    exact List.mem_range.1 (hperm.mem_iff.1 this)
  have hll : (lensOf 0 (counts ws)).length = ws.length := by
    have : ∀ (i : Nat) (cs : List Nat), (lensOf i cs).length = cs.sum := by
      intro i cs
      induction cs generalizing i with
      | nil => rfl
      | cons n cs ih => simp [lensOf, ih]
    rw [this, hsum]
  have hg : GoodDhtS (0 :: counts ws) hv (List.replicate 256 0) := by
    refine ⟨by simp [counts], ?_, ?_, ?_⟩
    · refine space_of_last _ (by simp [counts]) ?_
      intro k hk
      have hk' : k < ws.length := by simpa [hsum] using hk
      show (canonCode (counts ws) 0 0 k).2 < 2 ^ (canonCode (counts ws) 0 0 k).1
      rw [← hc.2.1 k hk', getD_lt0 _ _ _ (hlt k hk')]
      exact (hc.2.2 _ (List.getElem_mem _)).2.2
    · intro k hk
      have hk' : k < ws.length := by rw [List.tail_cons, hll] at hk; exact hk
      rw [getD_zeros, hv' k hk']
      have := hlt k hk'
      omega
    · rw [List.tail_cons, hll]; omega
  obtain ⟨t, e, _, ht, hcache⟩ := HuffTable.newS_ok (0 :: counts ws) hv (List.replicate 256 0) false hg hl List.length_replicate
  refine ⟨t, e, ?_⟩
  intro d hd p rest hrep hm
  rw [coded_eq ws order hc d hd] at hrep
  exact decode_diff PumpMSB.lawful (fun l n h => h) hg ht hcache order d
    (fun k hk => hv' k (by omega)) (by rw [List.tail_cons, hsum]; omega)
    (hperm.mem_iff.2 (List.mem_range.2 hd)) (getD_zeros _ _) p rest hrep hm

/-- The image loops, for any table that decodes the words. -/
theorem image_ok (t : HuffTable) (ws : Words) (src : List Nat) (hb : IsBytes src) (w h : Nat) (hw : w % 2 = 0) (h0 : 0 < w)
    (px : Nat → Nat → Nat) (hpx : ∀ r c, r < h → c < w → px r c < 65536)
    (hcat : ∀ r c, r < h → c < w →
      catOf ((px r c : Int) - before (fun _ _ => 0) (fun r c => (px r c : Int)) r c) < ws.length)
    (ht : ∀ d : Int, catOf d < ws.length → Decodes t (coded ws d) d) (pad : List Bool) (hp : 32 ≤ pad.length)
    (hcode : bytesMSB src = encodePef ws w h px ++ pad) :
    ∃ st, forN h (rowStep t w) ⟨PumpMSB.new src, [0, 0], [0, 0], List.replicate (w * h) 0⟩ = .ok st ∧ Holds st.out w h px := by
  have hrep : (PumpMSB.new src).Rep (encodePef ws w h px ++ pad) := by rw [← hcode]; exact PumpMSB.rep_new src hb
  obtain ⟨st, e, hd⟩ := pef_image (t := t) (w := w) (h := h) (start := fun _ _ => 0) (px := fun r c => (px r c : Int))
    (Q := fun j v => v = px (j / w) (j % w)) (w / 2 - 1) (by omega)
    (fun r c hr hc => ht _ (hcat r c hr hc))
    (fun r c hr hc => by have := hpx r c hr hc; exact ⟨by omega, by omega⟩)
    (by
      intro r c hr hc
      have e1 : (r * w + c) / w = r := by rw [Nat.mul_comm, Nat.mul_add_div h0, Nat.div_eq_of_lt hc, Nat.add_zero]
      have e2 : (r * w + c) % w = c := by rw [Nat.mul_comm, Nat.mul_add_mod, Nat.mod_eq_of_lt hc]
      have := hpx r c hr hc
      rw [e1, e2, asU16]; omega)
    ⟨PumpMSB.new src, [0, 0], [0, 0], List.replicate (w * h) 0⟩ pad (by
      refine ⟨?_, ?_⟩ <;> simp [before]) (Done.start _ _) hrep hp
  refine ⟨st, e, by rw [hd.1, Nat.mul_comm], ?_⟩
  intro r c hr hc
  have hlt : r * w + c < w * h := by
    have : (r + 1) * w ≤ h * w := Nat.mul_le_mul_right _ hr
    rw [Nat.add_mul, Nat.one_mul, Nat.mul_comm h] at this; omega
  obtain ⟨v, hv, hq⟩ := hd.2 _ hlt
  have e1 : (r * w + c) / w = r := by rw [Nat.mul_comm, Nat.mul_add_div h0, Nat.div_eq_of_lt hc, Nat.add_zero]
  have e2 : (r * w + c) % w = c := by rw [Nat.mul_comm, Nat.mul_add_mod, Nat.mod_eq_of_lt hc]
  rw [e1, e2] at hq
  rw [hv, hq]

end Verif.Pef
