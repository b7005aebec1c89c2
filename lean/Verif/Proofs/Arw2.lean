import Verif.Proofs.Arw1
import Verif.Props.Linearize
/-! # ARW2: one group, one chunk, one row, the image -/

namespace Verif.Arw
open Verif Verif.Pumps Verif.Spec Verif.Spec.Arw Verif.Linearize Verif.Props

theorem flatMap_filter {α β : Type} (l : List α) (q : α → Bool) (g : α → List β) :
    (l.filter q).flatMap g = l.flatMap fun i => if q i then g i else [] := by
  induction l with
  | nil => rfl
  | cons a l ih =>
    rw [List.filter_cons, List.flatMap_cons]
    split
    · rw [List.flatMap_cons, ih]
    · rw [ih]; rfl

/-- The code of one pixel of a group. -/
def pxCode (g : Group) (i : Nat) : List Bool :=
  if i ≠ g.hi ∧ i ≠ g.lo then bitsLSB 7 ((g.v i - g.v g.lo) / 2 ^ g.shift) else []

theorem code_eq (g : Group) : g.code = bitsLSB 11 (g.v g.hi) ++ (bitsLSB 11 (g.v g.lo) ++ (bitsLSB 4 g.hi ++ (bitsLSB 4 g.lo ++
    (List.range 16).flatMap (pxCode g)))) := by
  rw [Group.code, flatMap_filter]
  simp only [List.append_assoc, decide_eq_true_eq]
  rfl

theorem shifted_lt (g : Group) (h : g.OK) (i : Nat) (hi : i < 16) : (g.v i - g.v g.lo) / 2 ^ g.shift < 2 ^ 7 := by
  obtain ⟨_, _, _, h4⟩ := h
  have := h4 i hi
  apply Nat.div_lt_of_lt_mul
  have h1 := lt_two_pow_digits (g.v g.hi - g.v g.lo)
  have h2 : 2 ^ digits (g.v g.hi - g.v g.lo) ≤ 2 ^ (g.shift + 7) := Nat.pow_le_pow_right (by omega) (by unfold Group.shift shiftFor; omega)
  rw [← Nat.pow_add]
  omega

theorem stored_le (g : Group) (h : g.OK) (i : Nat) (hi : i < 16) : g.stored i ≤ g.v i ∧ g.v i < g.stored i + 2 ^ g.shift := by
  have := h.2.2.2 i hi
  unfold Group.stored
  split
  · have := Nat.two_pow_pos g.shift; omega
  · have h1 := Nat.div_mul_le_self (g.v i - g.v g.lo) (2 ^ g.shift)
    have h2 := Nat.lt_div_mul_add (a := g.v i - g.v g.lo) (Nat.two_pow_pos g.shift)
    omega

theorem val_ok (g : Group) (h : g.OK) (i : Nat) (hi : i < 16) (p : PumpLSB) (r : List Bool) (hr : p.Rep (pxCode g i ++ r)) :
    ∃ p', arw2Val (g.v g.hi) (g.v g.lo) g.shift g.hi g.lo i p = .ok (g.stored i, p') ∧ p'.Rep r := by
  unfold arw2Val
  by_cases h1 : i = g.hi
  · rw [if_pos h1]
    rw [pxCode, if_neg (by tauto)] at hr
    exact ⟨p, by rw [Group.stored, if_pos (.inl h1), h1], hr⟩
  · rw [if_neg h1]
    by_cases h2 : i = g.lo
    · rw [if_pos h2]
      rw [pxCode, if_neg (by tauto)] at hr
      exact ⟨p, by rw [Group.stored, if_pos (.inr h2), h2], hr⟩
    · rw [if_neg h2]
      rw [pxCode, if_pos ⟨h1, h2⟩] at hr
      obtain ⟨p', e, r'⟩ := PumpLSB.get_field p 7 _ r hr (shifted_lt g h i hi) (by omega)
      refine ⟨p', ?_, r'⟩
      rw [e]
      have hs : g.stored i = g.v g.lo + (g.v i - g.v g.lo) / 2 ^ g.shift * 2 ^ g.shift := by
        rw [Group.stored, if_neg (by tauto)]
      have hle := (stored_le g h i hi).1
      have hv := (h.2.2.2 i hi).2.2
      have hmin : Nat.min 0x7ff ((g.v i - g.v g.lo) / 2 ^ g.shift * 2 ^ g.shift + g.v g.lo) = g.stored i := by
        rw [hs, Nat.add_comm]
        exact Nat.min_eq_right (by omega)
      simp only [bind, Except.bind, Nat.shiftLeft_eq, hmin]

/-- What is known about the output while a group is decoded: its first `i` places hold the dithered stored values, the other
group's places are as before. -/
def GroupInv (table : List Nat) (j : Nat) (g : Group) (out0 : List Nat) (i : Nat) (s : Nat × List Nat) : Prop :=
  s.1 < 2 ^ 32 ∧ s.2.length = 32 ∧ (∀ k, k < i → ∃ q, s.2[j + k * 2]? = some q ∧ Near table (2 * g.stored k) q) ∧
    ∀ x, x % 2 ≠ j → s.2[x]? = out0[x]?

theorem pixel2_ok (table : List Nat) (hg : Gentle table) (n : Nat) (hn : 4096 ≤ n) (j : Nat) (hj : j < 2) (g : Group) (h : g.OK)
    (out0 : List Nat) (i : Nat) (hi : i < 16) (p : PumpLSB) (s : Nat × List Nat) (r : List Bool) (hs : GroupInv table j g out0 i s)
    (hr : p.Rep (pxCode g i ++ r)) :
    ∃ p' s', arw2Pixel ((List.range n).map (entryAt table)) j (g.v g.hi) (g.v g.lo) g.shift g.hi g.lo i (p, s) = .ok (p', s') ∧
      p'.Rep r ∧ GroupInv table j g out0 (i + 1) s' := by
  obtain ⟨i1, i2, i3, i4⟩ := hs
  obtain ⟨p', e, r'⟩ := val_ok g h i hi p r hr
  have hle := (stored_le g h i hi).1
  have hv := (h.2.2.2 i hi).2.2
  have hmod : (g.stored i <<< 1) % 2 ^ 16 = 2 * g.stored i := by
    rw [Nat.shiftLeft_eq, Nat.mod_eq_of_lt (by omega)]; omega
  obtain ⟨q, rand', d1, d2, d3⟩ := dither_ok table hg n (2 * g.stored i) s.1 (by omega) i1
  refine ⟨p', (rand', s.2.set (j + i * 2) q), ?_, r', d3, by simp [i2], ?_, ?_⟩
  · unfold arw2Pixel
    simp only [bind, Except.bind]
    rw [e]
    simp only []
    rw [hmod, d1]
    simp only []
    rw [upd, if_pos (by omega)]
  · intro k hk
    by_cases hki : k = i
    · subst hki
      exact ⟨q, List.getElem?_set_self (by omega), d2⟩
    · obtain ⟨q', h1, h2⟩ := i3 k (by omega)
      exact ⟨q', by rw [List.getElem?_set_ne (by omega)]; exact h1, h2⟩
  · intro x hx
    simp only
    rw [List.getElem?_set_ne (by omega)]
    exact i4 x hx

theorem group_ok (table : List Nat) (hg : Gentle table) (n : Nat) (hn : 4096 ≤ n) (j : Nat) (hj : j < 2) (g : Group) (h : g.OK)
    (p : PumpLSB) (s : Nat × List Nat) (r : List Bool) (h1 : s.1 < 2 ^ 32) (h2 : s.2.length = 32)
    (hr : p.Rep (g.code ++ r)) :
    ∃ p' s', arw2Group ((List.range n).map (entryAt table)) j (p, s) = .ok (p', s') ∧ p'.Rep r ∧ GroupInv table j g s.2 16 s' := by
  rw [code_eq] at hr
  simp only [List.append_assoc] at hr
  obtain ⟨g1, g2, g3, g4⟩ := h
  obtain ⟨p1, e1, r1⟩ := PumpLSB.get_field p 11 _ _ hr (by have := g4 _ g1; omega) (by omega)
  obtain ⟨p2, e2, r2⟩ := PumpLSB.get_field p1 11 _ _ r1 (by have := g4 _ g2; omega) (by omega)
  obtain ⟨p3, e3, r3⟩ := PumpLSB.get_field p2 4 _ _ r2 (by omega) (by omega)
  obtain ⟨p4, e4, r4⟩ := PumpLSB.get_field p3 4 _ _ r3 (by omega) (by omega)
  obtain ⟨p5, s5, e5, r5, i5⟩ := forN_code PumpLSB.Rep 16
    (arw2Pixel ((List.range n).map (entryAt table)) j (g.v g.hi) (g.v g.lo) g.shift g.hi g.lo) (pxCode g)
    (GroupInv table j g s.2) 0 (fun i hi p s r hs hr _ => pixel2_ok table hg n hn j hj g ⟨g1, g2, g3, g4⟩ _ i hi p s r hs hr)
    p4 s r ⟨h1, h2, fun k hk => by omega, fun x _ => rfl⟩ r4 (Nat.zero_le _)
  refine ⟨p5, s5, ?_, r5, i5⟩
  unfold arw2Group
  simp only [bind, Except.bind]
  rw [e1]; simp only []
  rw [e2]; simp only []
  rw [usub, if_pos (g4 _ g1).1]; simp only []
  rw [e3]; simp only []
  rw [e4]; simp only []
  exact e5

theorem chunk_ok (table : List Nat) (hg : Gentle table) (n : Nat) (hn : 4096 ≤ n) (g g' : Group) (h : g.OK) (h' : g'.OK)
    (p : PumpLSB) (rand : Nat) (out : List Nat) (r : List Bool) (h1 : rand < 2 ^ 32) (h2 : out.length = 32)
    (hr : p.Rep (g.code ++ (g'.code ++ r))) :
    ∃ p' rand' out', arw2Chunk ((List.range n).map (entryAt table)) p rand out = .ok (p', rand', out') ∧ p'.Rep r ∧
      rand' < 2 ^ 32 ∧ out'.length = 32 ∧
      ∀ c, c < 32 → ∃ q, out'[c]? = some q ∧ Near table (2 * (if c % 2 = 0 then g else g').stored (c / 2)) q := by
  obtain ⟨p1, s1, e1, r1, i1⟩ := group_ok table hg n hn 0 (by omega) g h p (rand, out) _ h1 h2 hr
  obtain ⟨p2, s2, e2, r2, i2⟩ := group_ok table hg n hn 1 (by omega) g' h' p1 s1 r i1.1 i1.2.1 r1
  refine ⟨p2, s2.1, s2.2, ?_, r2, i2.1, i2.2.1, ?_⟩
  · rw [arw2Chunk, show (2 : Nat) = 0 + 1 + 1 from rfl, forN_succ, forN_succ, forN_zero]
    simp only [Except.bind]
    rw [e1]; exact e2
  · intro c hc
    rcases Nat.mod_two_eq_zero_or_one c with h0 | h0
    · obtain ⟨q, q1, q2⟩ := i1.2.2.1 (c / 2) (by omega)
      refine ⟨q, ?_, by rw [if_pos h0]; exact q2⟩
      rw [i2.2.2.2 c (by omega), ← q1]
      congr 1; omega
    · obtain ⟨q, q1, q2⟩ := i2.2.2.1 (c / 2) (by omega)
      refine ⟨q, ?_, by rw [if_neg (by omega)]; exact q2⟩
      rw [← q1]
      congr 1; omega

theorem chunks_ok (table : List Nat) (hg : Gentle table) (n : Nat) (hn : 4096 ≤ n) (m : Nat) (g : Nat → Group)
    (h : ∀ k, k < 2 * m → (g k).OK) (p : PumpLSB) (rand : Nat) (out : List Nat) (r : List Bool) (h1 : rand < 2 ^ 32)
    (h2 : out.length = 32 * m) (hr : p.Rep (rowCode (2 * m) g ++ r)) :
    ∃ out', arw2Chunks ((List.range n).map (entryAt table)) m p rand out = .ok out' ∧ out'.length = 32 * m ∧
      ∀ c, c < 32 * m → ∃ q, out'[c]? = some q ∧ Near table (2 * (g (groupOf c)).stored (placeOf c)) q := by
  induction m generalizing g p rand out with
  | zero => exact ⟨out, rfl, h2, fun c hc => by omega⟩
  | succ m ih =>
    have hrow : rowCode (2 * (m + 1)) g ++ r = (g 0).code ++ ((g 1).code ++ (rowCode (2 * m) (fun k => g (k + 2)) ++ r)) := by
      rw [rowCode, show 2 * (m + 1) = 2 * m + 1 + 1 by omega, List.range_succ_eq_map, List.flatMap_cons, List.flatMap_map,
        List.range_succ_eq_map, List.flatMap_cons, List.flatMap_map, List.append_assoc, List.append_assoc]
      rfl
    rw [hrow] at hr
    obtain ⟨p1, rand1, o1, e1, r1, hr1, hl1, hv1⟩ := chunk_ok table hg n hn (g 0) (g 1) (h 0 (by omega)) (h 1 (by omega)) p rand
      (out.take 32) _ h1 (by rw [List.length_take]; omega) hr
    obtain ⟨o2, e2, hl2, hv2⟩ := ih (fun k => g (k + 2)) (fun k hk => h (k + 2) (by omega)) p1 rand1 (out.drop 32) hr1
      (by rw [List.length_drop]; omega) r1
    refine ⟨o1 ++ o2, ?_, by rw [List.length_append]; omega, ?_⟩
    · rw [arw2Chunks, e1]
      simp only [bind, Except.bind]
      rw [e2]
    · intro c hc
      by_cases hc32 : c < 32
      · obtain ⟨q, q1, q2⟩ := hv1 c hc32
        refine ⟨q, by rw [List.getElem?_append_left (by omega)]; exact q1, ?_⟩
        have hp : placeOf c = c / 2 := by unfold placeOf; omega
        rw [hp]
        rcases Nat.mod_two_eq_zero_or_one c with h0 | h0
        · have : groupOf c = 0 := by unfold groupOf; omega
          rw [this]; rw [if_pos h0] at q2; exact q2
        · have : groupOf c = 1 := by unfold groupOf; omega
          rw [this]; rw [if_neg (by omega)] at q2; exact q2
      · obtain ⟨q, q1, q2⟩ := hv2 (c - 32) (by omega)
        refine ⟨q, by rw [List.getElem?_append_right (by omega), hl1]; exact q1, ?_⟩
        have e1 : groupOf (c - 32) + 2 = groupOf c := by unfold groupOf; omega
        have e2 : placeOf (c - 32) = placeOf c := by unfold placeOf; omega
        simp only [e1, e2] at q2
        exact q2

theorem rep_row (buf : List Nat) (hb : IsBytes buf) (off len : Nat) (code : List Bool)
    (hc : bytesLSB ((buf.drop off).take len) = code) :
    (PumpLSB.new (buf.drop off)).Rep (code ++ bytesLSB ((buf.drop off).drop len)) := by
  have := PumpLSB.rep_new (buf.drop off) (fun b hm => hb b (List.mem_of_mem_drop hm))
  rw [← hc, bytesLSB, bytesLSB, ← List.flatMap_append, List.take_append_drop]
  exact this

theorem rowCode_length (n : Nat) (hn : 0 < n) (g : Nat → Group) : 16 ≤ (rowCode n g).length := by
  obtain ⟨m, rfl⟩ : ∃ m, n = m + 1 := ⟨n - 1, by omega⟩
  rw [rowCode, List.range_succ_eq_map, List.flatMap_cons, code_eq]
  simp only [List.length_append, length_bitsLSB]
  omega

theorem natLSB_lt (l : List Bool) : natLSB l < 2 ^ l.length := by
  induction l with
  | nil => simp [natLSB]
  | cons b l ih =>
    rw [natLSB, List.length_cons, Nat.pow_succ]
    have : b.toNat ≤ 1 := by cases b <;> simp
    omega

theorem row_ok (table : List Nat) (hg : Gentle table) (n : Nat) (hn : 4096 ≤ n) (buf : List Nat) (hb : IsBytes buf) (m : Nat) (hm : 0 < m)
    (row : Nat) (g : Nat → Group) (h : ∀ k, k < 2 * m → (g k).OK)
    (hc : bytesLSB ((buf.drop (row * (32 * m))).take (32 * m)) = rowCode (2 * m) g) :
    ∃ out', arw2Row buf ((List.range n).map (entryAt table)) (32 * m) (List.replicate (32 * m) 0) row = .ok out' ∧
      out'.length = 32 * m ∧ ∀ c, c < 32 * m → ∃ q, out'[c]? = some q ∧ Near table (2 * (g (groupOf c)).stored (placeOf c)) q := by
  have hrep := rep_row buf hb (row * (32 * m)) (32 * m) _ hc
  have hlen := rowCode_length (2 * m) (by omega) g
  have hoff : row * (32 * m) ≤ buf.length := by
    by_cases hlt : row * (32 * m) ≤ buf.length
    · exact hlt
    · exfalso
      rw [List.drop_of_length_le (by omega)] at hc
      simp only [List.take_nil, bytesLSB, List.flatMap_nil] at hc
      rw [← hc] at hlen
      simp at hlen
  obtain ⟨p1, e1, r1, _⟩ := PumpLSB.peek_ok _ _ 16 hrep (by omega) (by rw [List.length_append]; omega)
  have hlt := natLSB_lt (List.take 16 (rowCode (2 * m) g ++ bytesLSB ((buf.drop (row * (32 * m))).drop (32 * m))))
  rw [List.length_take] at hlt
  generalize natLSB (List.take 16 (rowCode (2 * m) g ++ bytesLSB ((buf.drop (row * (32 * m))).drop (32 * m)))) = rand at e1 hlt
  have h32 : rand < 2 ^ 32 := Nat.lt_of_lt_of_le hlt (Nat.pow_le_pow_right (by omega) (by omega))
  obtain ⟨out', e2, hl, hv⟩ := chunks_ok table hg n hn m g h p1 rand (List.replicate (32 * m) 0) _ h32 (by simp) r1
  refine ⟨out', ?_, hl, hv⟩
  unfold arw2Row
  rw [Packed.from', if_pos hoff]
  simp only [bind, Except.bind]
  rw [show BitPump.peek (PumpLSB.new (buf.drop (row * (32 * m)))) 16 = _ from e1]
  simp only [List.length_replicate]
  rw [Nat.mul_div_cancel_left m (by omega)]
  exact e2

end Verif.Arw
