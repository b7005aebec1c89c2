import Verif.Proofs.FujiBlock
import Verif.Proofs.Srw
/-! # Fuji: from one block to the next, and into the picture -/

namespace Verif.Fuji
open Verif Verif.Pumps Verif.Spec.Fuji
open Verif.Orf (ok_bind)

/-! ## Moving lines -/

theorem moveRow {W : Nat} {V V' : Nat → Nat → Nat} {K K' : Nat → Nat → Prop} {lb : List (List Nat)} (h : Known W V K lb) {a b : Nat} (ha : a < 18) (hb : b < 18)
    (hk : ∀ l i, l < 18 → i < W + 2 → K' l i → (l ≠ a ∧ K l i ∧ V' l i = V l i) ∨ (l = a ∧ K b i ∧ V' a i = V b i)) :
    ∃ lb', (do let row ← idx lb b; upd lb a row : R _) = .ok lb' ∧ Known W V' K' lb' := by
  have e1 : lb[b]? = some (lb[b]'(by rw [h.1]; exact hb)) := List.getElem?_eq_getElem _
  generalize lb[b]'(by rw [h.1]; exact hb) = row at e1
  refine ⟨lb.set a row, ?_, ?_, ?_, ?_⟩
  · rw [idx, e1]
    simp only
    rw [ok_bind, upd_lt _ _ _ (by rw [h.1]; exact ha)]
  · rw [List.length_set]; exact h.1
  · intro l r hl
    by_cases hla : l = a
    · subst hla
      rw [List.getElem?_set_self (by rw [h.1]; exact ha)] at hl
      cases hl
      exact h.2.1 b _ e1
    · rw [List.getElem?_set_ne (fun h => hla h.symm)] at hl
      exact h.2.1 l r hl
  · intro l i hl hi hK
    rcases hk l i hl hi hK with ⟨h1, h2, h3⟩ | ⟨rfl, h2, h3⟩
    · rw [List.getElem?_set_ne (fun h => h1 h.symm), h3]
      exact h.2.2 l i hl hi h2
    · refine ⟨row, List.getElem?_set_self (by rw [h.1]; exact ha), ?_⟩
      obtain ⟨row', f1, f2⟩ := h.2.2 b i hb hi h2
      rw [e1] at f1
      cases f1
      rw [f2, h3]

theorem V_next (S : Strip) (t c k i : Nat) (hc : c < 3) (hk : k < 2) : V S (t + 1) (base c + k) i = V S t (base c + (lineCount c + k)) i := by
  have : 2 ≤ lineCount c := by unfold lineCount; split_ifs <;> omega
  rw [V_eq S _ c _ _ hc (by omega), V_eq S _ c _ _ hc (by omega)]
  congr 1
  rw [Nat.mul_add]
  omega

/-- After the move the first two lines of each colour are those of the next block. -/
theorem moveLines_ok (S : Strip) (t : Nat) (lb : List (List Nat)) (h : Known S.W (V S t) (fun _ _ => True) lb) :
    ∃ lb', moveLines lb = .ok lb' ∧ Known S.W (fun l i => if num l < 2 then V S (t + 1) l i else V S t l i) (fun _ _ => True) lb' := by
  have step : ∀ (ds : List Nat) (lb : List (List Nat)) (a b : Nat), a < 18 → b < 18 → b ∉ ds → (∀ i, V S (t + 1) a i = V S t b i) →
      Known S.W (fun l i => if l ∈ ds then V S (t + 1) l i else V S t l i) (fun _ _ => True) lb →
      ∃ lb', (do let row ← idx lb b; upd lb a row : R _) = .ok lb' ∧
        Known S.W (fun l i => if l ∈ a :: ds then V S (t + 1) l i else V S t l i) (fun _ _ => True) lb' := by
    intro ds lb a b ha hb hds hv hK
    refine moveRow hK ha hb ?_
    intro l i hl hi _
    by_cases hla : l = a
    · right
      refine ⟨hla, trivial, ?_⟩
      rw [if_pos (by simp), if_neg hds]
      exact hv i
    · left
      refine ⟨hla, trivial, ?_⟩
      simp only [List.mem_cons, hla, false_or]
  obtain ⟨l1, e1, h1⟩ := step [] lb 0 3 (by omega) (by omega) (by simp) (fun i => V_next S t 0 0 i (by omega) (by omega)) (by simpa using h)
  obtain ⟨l2, e2, h2⟩ := step _ l1 1 4 (by omega) (by omega) (by simp) (fun i => V_next S t 0 1 i (by omega) (by omega)) h1
  obtain ⟨l3, e3, h3⟩ := step _ l2 5 11 (by omega) (by omega) (by simp) (fun i => V_next S t 1 0 i (by omega) (by omega)) h2
  obtain ⟨l4, e4, h4⟩ := step _ l3 6 12 (by omega) (by omega) (by simp) (fun i => V_next S t 1 1 i (by omega) (by omega)) h3
  obtain ⟨l5, e5, h5⟩ := step _ l4 13 16 (by omega) (by omega) (by simp) (fun i => V_next S t 2 0 i (by omega) (by omega)) h4
  obtain ⟨l6, e6, h6⟩ := step _ l5 14 17 (by omega) (by omega) (by simp) (fun i => V_next S t 2 1 i (by omega) (by omega)) h5
  refine ⟨l6, ?_, h6.mono ?_⟩
  · unfold moveLines mtable
    simp only [List.foldlM_cons, List.foldlM_nil]
    rw [e1, ok_bind, e2, ok_bind, e3, ok_bind, e4, ok_bind, e5, ok_bind, e6, ok_bind]
    rfl
  · intro a i ha _ _
    refine ⟨trivial, ?_⟩
    have : ∀ a < 18, a ∈ [14, 13, 6, 5, 1, 0] ↔ num a < 2 := by decide
    simp only [this a ha]

/-- Clearing lines. -/
theorem zero_ok {W : Nat} {V : Nat → Nat → Nat} (K : Nat → Nat → Prop) (a n : Nat) (han : a + n ≤ 18) (lb : List (List Nat)) (h : Known W V K lb) :
    ∃ lb', forN n (fun k lb => do
      let row ← idx lb (a + k)
      upd lb (a + k) (List.replicate row.length 0)) lb = .ok lb' ∧ Known W V (fun l i => K l i ∧ ¬ (a ≤ l ∧ l < a + n)) lb' := by
  refine forN_inv n _ (fun k lb => Known W V (fun l i => K l i ∧ ¬ (a ≤ l ∧ l < a + k)) lb) lb (h.mono fun l i _ _ hh => ⟨hh.1, rfl⟩) ?_
  intro k lb hk hK
  have e1 : lb[a + k]? = some (lb[a + k]'(by rw [hK.1]; omega)) := List.getElem?_eq_getElem _
  generalize lb[a + k]'(by rw [hK.1]; omega) = row at e1
  refine ⟨lb.set (a + k) (List.replicate row.length 0), ?_, ?_, ?_, ?_⟩
  · rw [idx, e1]
    simp only
    rw [ok_bind, upd_lt _ _ _ (by rw [hK.1]; omega)]
  · rw [List.length_set]; exact hK.1
  · intro l r hl
    by_cases hla : l = a + k
    · subst hla
      rw [List.getElem?_set_self (by rw [hK.1]; omega)] at hl
      cases hl
      rw [List.length_replicate]
      exact hK.2.1 _ _ e1
    · rw [List.getElem?_set_ne (fun h => hla h.symm)] at hl
      exact hK.2.1 l r hl
  · intro l i hl hi hh
    rw [List.getElem?_set_ne (by intro hx; omega)]
    exact hK.2.2 l i hl hi ⟨hh.1, by omega⟩

theorem clearLines_ok (S : Strip) (t : Nat) (lb : List (List Nat)) (h : Known S.W (V S t) (fun l _ => num l < 2) lb) :
    ∃ lb', clearLines S.W lb = .ok lb' ∧ Known S.W (V S t) (Upto S.W (before 0)) lb' := by
  have hW := W_even S
  have step : ∀ (c : Nat) (lb : List (List Nat)), c < 3 → Known S.W (V S t) (fun l i => num l < 2 ∨ (num l = 2 ∧ colOf l < c ∧ Border S.W i)) lb →
      ∃ lb', (do
        let lb ← forN (lineCount c) (fun k lb => do
          let row ← idx lb (base c + 2 + k)
          upd lb (base c + 2 + k) (List.replicate row.length 0)) lb
        let a ← at' lb (base c + 2 - 1) 1
        let lb ← put lb (base c + 2) 0 a.toNat
        let b ← at' lb (base c + 2 - 1) S.W
        put lb (base c + 2) (S.W + 1) b.toNat : R _) = .ok lb' ∧
        Known S.W (V S t) (fun l i => num l < 2 ∨ (num l = 2 ∧ colOf l < c + 1 ∧ Border S.W i)) lb' := by
    intro c lb hc hK
    have hbc := base_count c hc
    have hl2 : 2 ≤ lineCount c := by unfold lineCount; split_ifs <;> omega
    obtain ⟨l1, e1, h1⟩ := zero_ok _ (base c + 2) (lineCount c) (by omega) lb hK
    rw [e1, ok_bind]
    have hrange : ∀ l, l < 18 → ((base c + 2 ≤ l ∧ l < base c + 2 + lineCount c) ↔ (colOf l = c ∧ 2 ≤ num l)) := by
      have : ∀ c < 3, ∀ l < 18, ((base c + 2 ≤ l ∧ l < base c + 2 + lineCount c) ↔ (colOf l = c ∧ 2 ≤ num l)) := by decide
      exact this c hc
    have ea : base c + 2 - 1 = base c + (0 + 1) := by omega
    have hn1 := num_base c 1 hc (by omega)
    have k1 := h1.at (l := base c + (0 + 1)) (i := 1) (by omega) (by omega) ⟨.inl (by rw [hn1]; omega), by omega⟩
    rw [ea, k1, ok_bind, Int.toNat_natCast, ← V_left S t c 0 hc (by omega)]
    obtain ⟨l2, e2, h2⟩ := h1.put (l := base c + (0 + 2)) (i := 0) (fun l i => num l < 2 ∨ (num l = 2 ∧ ((colOf l < c ∧ Border S.W i) ∨ (colOf l = c ∧ i = 0))))
      (V S t (base c + (0 + 2)) 0) (by omega) (by omega) (by
        intro l i hl hi hh
        by_cases hx : l = base c + (0 + 2) ∧ i = 0
        · exact .inl ⟨hx.1, hx.2, rfl⟩
        · refine .inr ⟨⟨?_, ?_⟩, hx⟩
          · rcases hh with hh | ⟨p1, p2 | p2⟩
            · exact .inl hh
            · exact .inr ⟨p1, p2⟩
            · exact absurd ⟨num_inj hl p2.1 p1, p2.2⟩ hx
          · rw [hrange l hl]
            rintro ⟨q1, q2⟩
            rcases hh with hh | ⟨p1, p2 | p2⟩
            · omega
            · omega
            · exact hx ⟨num_inj hl p2.1 p1, p2.2⟩)
    rw [show base c + 2 = base c + (0 + 2) by omega, e2, ok_bind]
    have k2 := h2.at (l := base c + (0 + 1)) (i := S.W) (by omega) (by omega) (.inl (by rw [hn1]; omega))
    rw [k2, ok_bind, Int.toNat_natCast, ← V_right S t c 0 hc (by omega)]
    refine h2.put _ _ (by omega) (by omega) ?_
    intro l i hl hi hh
    by_cases hx : l = base c + (0 + 2) ∧ i = S.W + 1
    · exact .inl ⟨hx.1, hx.2, rfl⟩
    · refine .inr ⟨?_, hx⟩
      rcases hh with hh | ⟨p1, p2, p3⟩
      · exact .inl hh
      · refine .inr ⟨p1, ?_⟩
        by_cases hcc : colOf l = c
        · refine .inr ⟨hcc, ?_⟩
          rcases p3 with p3 | p3
          · exact p3
          · exact absurd ⟨num_inj hl hcc p1, p3⟩ hx
        · exact .inl ⟨by omega, p3⟩
  obtain ⟨l1, e1, h1⟩ := step 0 lb (by omega) (h.mono fun l i _ _ hh => ⟨by omega, rfl⟩)
  obtain ⟨l2, e2, h2⟩ := step 1 l1 (by omega) h1
  obtain ⟨l3, e3, h3⟩ := step 2 l2 (by omega) h2
  refine ⟨l3, ?_, h3.mono ?_⟩
  · unfold clearLines ztable
    simp only [List.foldlM_cons, List.foldlM_nil]
    have f1 := e1
    have f2 := e2
    have f3 := e3
    simp only [base, lineCount, Nat.reduceAdd, if_true, Nat.reduceEqDiff, if_false, Nat.reduceSub] at f1 f2 f3
    simp only [Nat.reduceSub]
    refine Eq.trans (congrArg (· >>= _) f1) ?_
    rw [ok_bind]
    refine Eq.trans (congrArg (· >>= _) f2) ?_
    rw [ok_bind]
    refine Eq.trans (congrArg (· >>= _) f3) ?_
    rfl
  · intro l i hl _ hh
    refine ⟨?_, rfl⟩
    have := num_lt l hl
    have hb : before 0 (colOf l) = 0 := by unfold before; split_ifs <;> omega
    unfold Upto at hh
    rw [hb] at hh
    rcases hh with hh | ⟨p1, p2⟩
    · exact .inl hh
    · exact .inr ⟨p1, by omega, p2⟩

/-! ## The pixels -/

/-- The value a reader has for a pixel of a strip. -/
def out (S : Strip) (r c : Nat) : Nat :=
  S.plane (S.cfa (r % 6) (c % 6)) (lineNo (S.cfa (r % 6) (c % 6)) r + 2) (place S.xtrans c + 1)

theorem pixelIndex_eq (x : Bool) (c : Nat) (hc : c < 768) : pixelIndex x c = place x c := by
  unfold pixelIndex place
  cases x with
  | false => simp
  | true =>
    rw [if_pos rfl, if_pos rfl]
    have h : ∀ c < 768, (((c * 2 / 3) &&& 0x7FFFFFFE) ||| ((c % 3) &&& 1)) + (c % 3) / 2 = 2 * (c / 3) + min 1 (c % 3) := by decide +kernel
    exact h c hc

theorem place_lt (S : Strip) (c : Nat) (hc : c < 768) : place S.xtrans c < S.W := by
  unfold place Strip.W
  split_ifs <;> omega

theorem lineNo_block (c t row : Nat) (hr : row < 6) : lineCount c * t + lineNo c row = lineNo c (6 * t + row) := by
  unfold lineCount lineNo
  split_ifs <;> omega

theorem lineOf_eq (c row : Nat) (hc : c ≤ 2) : lineOf c row = base c + (lineNo c row + 2) := by
  unfold lineOf base lineNo
  split_ifs <;> omega

theorem lineNo_lt (c row : Nat) (hr : row < 6) : lineNo c row < lineCount c := by
  unfold lineNo lineCount
  split_ifs <;> omega

/-- The six rows are copied. -/
theorem copyLine_ok (S : Strip) (t n w h : Nat) (hd : Header) (hL : Layout S.xtrans S.cfa) (hw : hd.rawWidth = w) (hbs : hd.blockSize = 768)
    (hn : n < hd.blocksInRow) (hnb : hd.blocksInRow = (w + 767) / 768) (ht : 6 * t + 6 ≤ h) (px : Nat → Nat → Nat)
    (hpx : ∀ r c, c < 768 → px r (768 * n + c) = out S r c) (lb : List (List Nat))
    (hK : Known S.W (fun l i => if num l < 2 then V S (t + 1) l i else V S t l i) (fun _ _ => True) lb)
    (D : Nat → Nat → Prop) (o : List Nat) (hf : Verif.Srw.Filled w h px D o) :
    ∃ o', copyLine hd S.cfa S.xtrans n t lb o = .ok o' ∧
      Verif.Srw.Filled w h px (fun r c => D r c ∨ (6 * t ≤ r ∧ r < 6 * t + 6 ∧ c / 768 = n)) o' := by
  have hsw : ∃ v, stripWidth hd n = .ok v ∧ v ≤ 768 ∧ 768 * n + v ≤ w ∧ ∀ c, c < w → c / 768 = n → c - 768 * n < v := by
    unfold stripWidth
    rw [hbs, hw]
    by_cases hl : n + 1 ≠ hd.blocksInRow
    · rw [if_pos hl]
      exact ⟨768, rfl, by omega, by omega, by omega⟩
    · rw [if_neg hl, usub, if_pos (by omega)]
      exact ⟨_, rfl, by omega, by omega, by omega⟩
  obtain ⟨v, hv, hv1, hv2, hv3⟩ := hsw
  unfold copyLine
  rw [hv, ok_bind, hw, hbs]
  obtain ⟨o', e1, f1⟩ := forN_inv 6 (fun row out => forN v (fun c out => do
      let v ← at' lb (lineOf (S.cfa row (c % 6)) row) (1 + pixelIndex S.xtrans c)
      upd out ((6 * t + row) * w + (768 * n + c)) v.toNat) out)
    (fun k o => Verif.Srw.Filled w h px (fun r c => D r c ∨ (6 * t ≤ r ∧ r < 6 * t + k ∧ c / 768 = n)) o) o
    (hf.mono fun r c _ _ hh => by
      rcases hh with hh | hh
      · exact hh
      · omega)
    (by
      intro row o hrow hfo
      obtain ⟨o', e1, f1⟩ := forN_inv v (fun c out => do
          let v ← at' lb (lineOf (S.cfa row (c % 6)) row) (1 + pixelIndex S.xtrans c)
          upd out ((6 * t + row) * w + (768 * n + c)) v.toNat)
        (fun k o => Verif.Srw.Filled w h px (fun r c => D r c ∨ (6 * t ≤ r ∧ r < 6 * t + row ∧ c / 768 = n) ∨ (r = 6 * t + row ∧ 768 * n ≤ c ∧ c < 768 * n + k)) o) o
        (hfo.mono fun r c _ _ hh => by
          rcases hh with hh | hh | hh
          · exact .inl hh
          · exact .inr hh
          · omega)
        (by
          intro c o hc hfo
          have hcol := (hL.1 row hrow (c % 6) (by omega)).1
          have hln := lineNo_lt (S.cfa row (c % 6)) row hrow
          have hbc := base_count (S.cfa row (c % 6)) (by omega)
          have k1 := hK.at (l := base (S.cfa row (c % 6)) + (lineNo (S.cfa row (c % 6)) row + 2)) (i := place S.xtrans c + 1) (by omega)
            (by have := place_lt S c (by omega); omega) trivial
          rw [num_base _ _ (by omega) (by omega), if_neg (by omega), V_eq S t _ _ _ (by omega) (by omega), ← Nat.add_assoc (lineCount _ * t), lineNo_block _ _ _ hrow] at k1
          have hval : px (6 * t + row) (768 * n + c) = S.plane (S.cfa row (c % 6)) (lineNo (S.cfa row (c % 6)) (6 * t + row) + 2) (place S.xtrans c + 1) := by
            rw [hpx _ _ (by omega), out, show (6 * t + row) % 6 = row by omega]
          rw [← hval] at k1
          obtain ⟨o', e, f⟩ := hfo.put (r := 6 * t + row) (c := 768 * n + c)
            (D' := fun r c' => D r c' ∨ (6 * t ≤ r ∧ r < 6 * t + row ∧ c' / 768 = n) ∨ (r = 6 * t + row ∧ 768 * n ≤ c' ∧ c' < 768 * n + (c + 1))) (by omega) (by omega)
            (by
              intro a b hab
              rcases hab with hab | hab | hab
              · exact .inl (.inl hab)
              · exact .inl (.inr (.inl hab))
              · by_cases hb : b = 768 * n + c
                · exact .inr ⟨hab.1, hb⟩
                · exact .inl (.inr (.inr (by omega))))
          refine ⟨o', ?_, f⟩
          rw [lineOf_eq _ _ hcol, pixelIndex_eq _ _ (by omega), Nat.add_comm 1, k1, ok_bind, Int.toNat_natCast]
          exact e)
      refine ⟨o', e1, f1.mono ?_⟩
      intro r c hr hc hh
      rcases hh with hh | hh
      · exact .inl hh
      · by_cases hrr : r = 6 * t + row
        · have := hv3 c hc hh.2.2
          exact .inr (.inr ⟨hrr, by omega, by omega⟩)
        · exact .inr (.inl (by omega)))
  exact ⟨o', e1, f1⟩

/-! ## Which pixel is where -/

theorem pixelAt_eq (S : Strip) (hL : Layout S.xtrans S.cfa) (r c : Nat) :
    S.pixelAt (S.cfa (r % 6) (c % 6)) (lineNo (S.cfa (r % 6) (c % 6)) r) (place S.xtrans c) = some (r, c) := by
  have h := (hL.1 (r % 6) (by omega) (c % 6) (by omega)).2
  generalize hC : S.cfa (r % 6) (c % 6) = col at *
  have hmap : candidates S.xtrans col (lineNo col r) (place S.xtrans c) =
      (candidates S.xtrans col (lineNo col (r % 6)) (place S.xtrans (c % 6))).map fun p => (6 * (r / 6) + p.1, 6 * (c / 6) + p.2) := by
    have p1 : place S.xtrans c = (if S.xtrans then 4 else 3) * (c / 6) + place S.xtrans (c % 6) := by
      unfold place
      split_ifs <;> omega
    have n1 : lineNo col r = lineCount col * (r / 6) + lineNo col (r % 6) := by
      unfold lineNo lineCount
      split_ifs <;> omega
    rw [p1, n1]
    generalize lineNo col (r % 6) = n
    generalize place S.xtrans (c % 6) = j
    unfold candidates lineCount
    cases hx : S.xtrans with
    | false =>
      simp only [Bool.false_eq_true, if_false]
      split_ifs
      · simp only [List.flatMap_cons, List.flatMap_nil, List.map_cons, List.map_nil, List.append_nil, List.cons.injEq, Prod.mk.injEq, and_true, true_and]
        omega
      · simp only [List.flatMap_cons, List.flatMap_nil, List.map_cons, List.map_nil, List.append_nil, List.cons_append, List.nil_append, List.cons.injEq, Prod.mk.injEq, and_true, true_and]
        omega
    | true =>
      simp only [if_true]
      rw [show (4 * (c / 6) + j) % 2 = j % 2 by omega, show (4 * (c / 6) + j) / 2 = 2 * (c / 6) + j / 2 by omega]
      split_ifs <;> simp only [List.flatMap_cons, List.flatMap_nil, List.map_cons, List.map_nil, List.append_nil, List.cons_append, List.nil_append, List.cons.injEq, Prod.mk.injEq, and_true, true_and] <;> omega
  unfold Strip.pixelAt
  rw [hmap, List.find?_map]
  have hcomp : ((fun p : Nat × Nat => S.cfa (p.1 % 6) (p.2 % 6) == col) ∘ fun p : Nat × Nat => (6 * (r / 6) + p.1, 6 * (c / 6) + p.2)) =
      fun p : Nat × Nat => S.cfa (p.1 % 6) (p.2 % 6) == col := by
    funext p
    simp only [Function.comp, Nat.mul_add_mod]
  rw [hcomp, h]
  simp only [Option.map_some, Option.some.injEq, Prod.mk.injEq]
  omega

theorem out_near (S : Strip) (hL : Layout S.xtrans S.cfa) (r c : Nat) (hc : c < 768) : ∃ e pred, e ≤ S.q (r / 6) ∧ 0 ≤ pred ∧ pred ≤ 2 ^ S.b - 1 ∧
    out S r c = near S.b e pred (S.px r c) := by
  have hp := pixelAt_eq S hL r c
  have hcol := (hL.1 (r % 6) (by omega) (c % 6) (by omega)).1
  unfold out
  generalize hC : S.cfa (r % 6) (c % 6) = col at *
  have hx : S.x col (lineNo col r) (place S.xtrans c) = S.px r c := by
    unfold Strip.x
    rw [hp]
    rfl
  have hg : S.gap col (lineNo col r) (place S.xtrans c) = false := by
    unfold Strip.gap
    rw [hp]
    rfl
  have hq : S.qLine col (lineNo col r) = S.q (r / 6) := by
    unfold Strip.qLine
    congr 1
    unfold lineNo lineCount
    split_ifs <;> omega
  obtain ⟨b1, b2, b3, b4⟩ := look_bounds (S := S) ⟨col, lineNo col r, place S.xtrans c, 0⟩
  refine ⟨(S.look ⟨col, lineNo col r, place S.xtrans c, 0⟩).error (S.q (r / 6)), _, errorOf_le _ _, b3, b4, ?_⟩
  rcases Nat.mod_two_eq_zero_or_one (place S.xtrans c) with h2 | h2
  · rw [plane_even S _ _ _ h2 (place_lt S c hc) 0, hg, if_neg (by simp), hx, hq]
  · rw [plane_odd S _ _ _ h2 0, hx, hq]

end Verif.Fuji
