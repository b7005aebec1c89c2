import Verif.Proofs.FujiPass
/-! # Fuji: six rows of a strip -/

namespace Verif.Fuji
open Verif Verif.Pumps Verif.Spec.Fuji
open Verif.Orf (ok_bind)

/-! ## Which places are empty -/

theorem find_none {α : Type} (l : List α) (p : α → Bool) : (l.find? p).isNone = l.all fun a => !p a := by
  induction l with
  | nil => rfl
  | cons a l ih =>
    rw [List.find?_cons, List.all_cons]
    cases p a <;> simp [ih]

theorem gap_mod (S : Strip) (c n j : Nat) : S.gap c n j =
    ((candidates S.xtrans c (n % 6) (j % 12)).find? fun p => S.cfa (p.1 % 6) (p.2 % 6) == c).isNone := by
  unfold Strip.gap Strip.pixelAt
  rw [find_none, find_none]
  unfold candidates
  have r1 : n % 6 % 6 = n % 6 := by omega
  have r2 : (2 * (n % 6)) % 6 = (2 * n) % 6 := by omega
  have r3 : (2 * (n % 6) + 1) % 6 = (2 * n + 1) % 6 := by omega
  have j1 : 3 * (j % 12 / 2) % 6 = 3 * (j / 2) % 6 := by omega
  have j2 : (3 * (j % 12 / 2) + 1) % 6 = (3 * (j / 2) + 1) % 6 := by omega
  have j3 : (3 * (j % 12 / 2) + 2) % 6 = (3 * (j / 2) + 2) % 6 := by omega
  have j4 : (2 * (j % 12)) % 6 = (2 * j) % 6 := by omega
  have j5 : (2 * (j % 12) + 1) % 6 = (2 * j + 1) % 6 := by omega
  have j6 : (j % 12) % 2 = j % 2 := by omega
  rw [j6]
  split_ifs <;> simp only [List.flatMap_cons, List.flatMap_nil, List.map_cons, List.map_nil, List.append_nil, List.cons_append, List.nil_append,
    List.all_cons, List.all_nil, r1, r2, r3, j1, j2, j3, j4, j5]

theorem gap_eq (S : Strip) (h : Layout S.xtrans S.cfa) (c n j : Nat) (hc : c < 3) : S.gap c n j = empty S.xtrans c n j := by
  rw [gap_mod, h.2 c hc _ (by omega) _ (by omega)]
  unfold empty
  rw [show j % 12 % 2 = j % 2 by omega, show j % 12 % 4 = j % 4 by omega, show n % 6 % 3 = n % 3 by omega]

theorem empty_block (x : Bool) (t c o j : Nat) : empty x c (lineCount c * t + o) j = empty x c o j := by
  unfold empty lineCount
  rw [show ((if c = 1 then 6 else 3) * t + o) % 3 = o % 3 by split_ifs <;> omega]

/-! ## Extending the lines of a colour -/

/-- Number of a line among the buffers of its colour. -/
def num (l : Nat) : Nat := l - base (colOf l)

def Border (W i : Nat) : Prop := i = 0 ∨ i = W + 1

theorem num_base (c k : Nat) (hc : c < 3) (hk : k < 2 + lineCount c) : num (base c + k) = k := by
  rw [num, colOf_base c k hc hk, Nat.add_sub_cancel_left]

theorem num_lt (l : Nat) (hl : l < 18) : num l < 2 + lineCount (colOf l) ∧ colOf l < 3 ∧ base (colOf l) + num l = l := by
  have : ∀ l < 18, num l < 2 + lineCount (colOf l) ∧ colOf l < 3 ∧ base (colOf l) + num l = l := by decide
  exact this l hl

theorem num_inj {l c k : Nat} (hl : l < 18) (hc : colOf l = c) (hk : num l = k) : l = base c + k := by
  have := num_lt l hl
  rw [hc, hk] at this
  exact this.2.2.symm

theorem V_left (S : Strip) (t c k : Nat) (hc : c < 3) (hk : k < lineCount c) : V S t (base c + (k + 2)) 0 = V S t (base c + (k + 1)) 1 := by
  rw [V_eq S t c _ _ hc (by omega), V_eq S t c _ _ hc (by omega)]
  exact plane_left S c (lineCount c * t + k)

theorem V_right (S : Strip) (t c k : Nat) (hc : c < 3) (hk : k < lineCount c) :
    V S t (base c + (k + 2)) (S.W + 1) = V S t (base c + (k + 1)) S.W := by
  rw [V_eq S t c _ _ hc (by omega), V_eq S t c _ _ hc (by omega)]
  exact plane_right S c (lineCount c * t + k)

theorem extend_ok (S : Strip) (t c F : Nat) (hc : c < 3) (K0 : Nat → Nat → Prop) (lb : List (List Nat))
    (h : Known S.W (V S t) (fun l i => if colOf l = c then num l < 2 + F else K0 l i) lb) :
    ∃ lb', extend S.W (base c + 2) (base c + 1 + lineCount c) lb = .ok lb' ∧
      Known S.W (V S t) (fun l i => if colOf l = c then num l < 2 + F ∨ (num l = 2 + F ∧ Border S.W i) else K0 l i) lb' := by
  have hW := W_even S
  unfold extend
  rw [assert', if_pos (by simp), ok_bind, show base c + 1 + lineCount c + 1 - (base c + 2) = lineCount c by omega]
  obtain ⟨lb', e1, e2⟩ := forN_inv (lineCount c) (fun k lb => do
      let a ← at' lb (base c + 2 + k - 1) 1
      let lb ← put lb (base c + 2 + k) 0 a.toNat
      let b ← at' lb (base c + 2 + k - 1) S.W
      put lb (base c + 2 + k) (S.W + 1) b.toNat)
    (fun j lb => Known S.W (V S t) (fun l i => if colOf l = c then num l < 2 + F ∨ (num l = 2 + F ∧ num l < 2 + j ∧ Border S.W i) else K0 l i) lb) lb
    (h.mono (by
      intro a i _ _ hh
      refine ⟨?_, rfl⟩
      by_cases ha : colOf a = c
      · simp only [if_pos ha] at hh ⊢
        omega
      · simp only [if_neg ha] at hh ⊢
        exact hh))
    (by
      intro j lb hj hI
      have hbc := base_count c hc
      have ea : base c + 2 + j - 1 = base c + (j + 1) := by omega
      have eb : base c + 2 + j = base c + (j + 2) := by omega
      have hn := num_base c (j + 2) hc (by omega)
      have hn1 := num_base c (j + 1) hc (by omega)
      have hcb := colOf_base c (j + 2) hc (by omega)
      have hcb1 := colOf_base c (j + 1) hc (by omega)
      rw [ea, eb]
      by_cases hF : j ≤ F
      · have k1 := hI.at (l := base c + (j + 1)) (i := 1) (by omega) (by omega) (by simp only [if_pos hcb1]; omega)
        rw [k1, ok_bind, Int.toNat_natCast, ← V_left S t c j hc hj]
        obtain ⟨lb1, e1, h1⟩ := hI.put (l := base c + (j + 2)) (i := 0) (fun l i => if colOf l = c then num l < 2 + F ∨ (num l = 2 + F ∧ num l < 2 + (j + 1) ∧
            (i = 0 ∨ (num l < 2 + j ∧ Border S.W i))) else K0 l i) (V S t (base c + (j + 2)) 0) (by omega) (by omega)
          (by
            intro a i ha _ hh
            by_cases hx : a = base c + (j + 2) ∧ i = 0
            · exact .inl ⟨hx.1, hx.2, rfl⟩
            · refine .inr ⟨?_, hx⟩
              by_cases hac : colOf a = c
              · simp only [if_pos hac] at hh ⊢
                rcases hh with hh | ⟨p1, p2, p3⟩
                · exact .inl hh
                · by_cases hnn : num a = j + 2
                  · have := num_inj ha hac hnn
                    rcases p3 with p3 | p3
                    · exact absurd ⟨this, p3⟩ hx
                    · omega
                  · exact .inr ⟨p1, by omega, p3.elim (fun h => .inl h) (fun h => h.2)⟩
              · simp only [if_neg hac] at hh ⊢
                exact hh)
        rw [e1, ok_bind]
        have k2 := h1.at (l := base c + (j + 1)) (i := S.W) (by omega) (by omega) (by simp only [if_pos hcb1]; omega)
        rw [k2, ok_bind, Int.toNat_natCast, ← V_right S t c j hc hj]
        exact h1.put _ _ (by omega) (by omega)
          (by
            intro a i ha _ hh
            by_cases hx : a = base c + (j + 2) ∧ i = S.W + 1
            · exact .inl ⟨hx.1, hx.2, rfl⟩
            · refine .inr ⟨?_, hx⟩
              by_cases hac : colOf a = c
              · simp only [if_pos hac] at hh ⊢
                rcases hh with hh | ⟨p1, p2, p3⟩
                · exact .inl hh
                · refine .inr ⟨p1, p2, ?_⟩
                  by_cases hnn : num a = j + 2
                  · have := num_inj ha hac hnn
                    rcases p3 with p3 | p3
                    · exact .inl p3
                    · exact absurd ⟨this, p3⟩ hx
                  · exact .inr ⟨by omega, p3⟩
              · simp only [if_neg hac] at hh ⊢
                exact hh)
      · obtain ⟨v1, k1⟩ := hI.ex (l := base c + (j + 1)) (i := 1) (by omega) (by omega)
        rw [k1, ok_bind]
        have hkeep : ∀ (y : Nat), ∀ a i, a < 18 → i < S.W + 2 → (if colOf a = c then num a < 2 + F ∨ (num a = 2 + F ∧ num a < 2 + j ∧ Border S.W i) else K0 a i) →
            (if colOf a = c then num a < 2 + F ∨ (num a = 2 + F ∧ num a < 2 + j ∧ Border S.W i) else K0 a i) ∧ ¬ (a = base c + (j + 2) ∧ i = y) := by
          intro y a i _ _ hh
          refine ⟨hh, ?_⟩
          rintro ⟨rfl, -⟩
          rw [if_pos hcb, hn] at hh
          omega
        obtain ⟨lb1, e1, h1⟩ := hI.put (fun l i => if colOf l = c then num l < 2 + F ∨ (num l = 2 + F ∧ num l < 2 + j ∧ Border S.W i) else K0 l i)
          (l := base c + (j + 2)) (i := 0) ((v1 : Int).toNat) (by omega) (by omega) (fun a i ha hi hh => .inr (hkeep 0 a i ha hi hh))
        rw [e1, ok_bind]
        obtain ⟨v2, k2⟩ := h1.ex (l := base c + (j + 1)) (i := S.W) (by omega) (by omega)
        rw [k2, ok_bind]
        obtain ⟨lb2, e2, h2⟩ := h1.put (fun l i => if colOf l = c then num l < 2 + F ∨ (num l = 2 + F ∧ num l < 2 + j ∧ Border S.W i) else K0 l i)
          (l := base c + (j + 2)) (i := S.W + 1) ((v2 : Int).toNat) (by omega) (by omega) (fun a i ha hi hh => .inr (hkeep (S.W + 1) a i ha hi hh))
        refine ⟨lb2, e2, h2.mono ?_⟩
        intro a i _ _ hh
        refine ⟨?_, rfl⟩
        by_cases hac : colOf a = c
        · simp only [if_pos hac] at hh ⊢
          rcases hh with hh | ⟨p1, p2, p3⟩
          · exact .inl hh
          · exact .inr ⟨p1, by omega, p3⟩
        · simp only [if_neg hac] at hh ⊢
          exact hh)
  refine ⟨lb', e1, e2.mono ?_⟩
  intro a i ha _ hh
  refine ⟨?_, rfl⟩
  by_cases hac : colOf a = c
  · simp only [if_pos hac] at hh ⊢
    have := (num_lt a ha).1
    rw [hac] at this
    rcases hh with hh | ⟨p1, p3⟩
    · exact .inl hh
    · exact .inr ⟨p1, this, p3⟩
  · simp only [if_neg hac] at hh ⊢
    exact hh

/-! ## One pass -/

/-- Known when `f c` lines of each colour have been read. -/
def Upto (W : Nat) (f : Nat → Nat) (l i : Nat) : Prop := num l < 2 + f (colOf l) ∨ (num l = 2 + f (colOf l) ∧ Border W i)

/-- Lines read before row `r` of six. -/
def before (r c : Nat) : Nat := if c = 0 then (r + 1) / 2 else if c = 1 then r else r / 2

/-- The samples of one row. -/
def rowOf (W t r : Nat) : List Sample := (places W).flatMap fun j =>
    [⟨(colours r).1, lineCount (colours r).1 * t + lineNo (colours r).1 r, j, r % 3⟩,
     ⟨(colours r).2, lineCount (colours r).2 * t + lineNo (colours r).2 r, j, r % 3⟩]

/-- The pass of row `r`. -/
structure Fit (S : Strip) (r : Nat) (q : Pass) : Prop where
  l0 : q.c0 = base (colours r).1 + (lineNo (colours r).1 r + 2)
  l1 : q.c1 = base (colours r).2 + (lineNo (colours r).2 r + 2)
  grp : q.grp = r % 3
  i0 : ∀ j, j % 2 = 0 → q.i0 j = empty S.xtrans (colours r).1 (lineNo (colours r).1 r) j
  i1 : ∀ j, j % 2 = 0 → q.i1 j = empty S.xtrans (colours r).2 (lineNo (colours r).2 r) j
  e0 : q.ext0 = (base (colours r).1 + 2, base (colours r).1 + 1 + lineCount (colours r).1)
  e1 : q.ext1 = (base (colours r).2 + 2, base (colours r).2 + 1 + lineCount (colours r).2)

theorem colours_ok (r : Nat) (hr : r < 6) : (colours r).1 < 3 ∧ (colours r).2 < 3 ∧ (colours r).1 ≠ (colours r).2 ∧
    lineNo (colours r).1 r < lineCount (colours r).1 ∧ lineNo (colours r).2 r < lineCount (colours r).2 ∧
    before r (colours r).1 = lineNo (colours r).1 r ∧ before r (colours r).2 = lineNo (colours r).2 r ∧
    before (r + 1) (colours r).1 = lineNo (colours r).1 r + 1 ∧ before (r + 1) (colours r).2 = lineNo (colours r).2 r + 1 ∧
    ∀ c, c < 3 → c ≠ (colours r).1 → c ≠ (colours r).2 → before (r + 1) c = before r c := by
  match r, hr with
  | 0, _ => decide
  | 1, _ => decide
  | 2, _ => decide
  | 3, _ => decide
  | 4, _ => decide
  | 5, _ => decide

theorem runPass_ok {S : Strip} {lossless : Bool} {t : Nat} {pr : Params} (h : Setup S lossless t pr) (hL : Layout S.xtrans S.cfa) {r : Nat} (hr : r < 6)
    {q : Pass} (hq : Fit S r q) (s : Stats) (rest : List Bool) (hlen : 30 ≤ rest.length) (st : St)
    (hi : Inv S lossless t s (Upto S.W (before r)) (S.enc s (rowOf S.W t r) ++ rest) st) :
    ∃ st', runPass pr st q = .ok st' ∧ Inv S lossless t (S.run s (rowOf S.W t r)) (Upto S.W (before (r + 1))) rest st' := by
  have hW := W_even S
  obtain ⟨hc0, hc1, hne, ho0, ho1, b0, b1, b2, b3, b4⟩ := colours_ok r hr
  have hrow : rowOf S.W t r = ((List.range' 0 (S.W / 2 + 4)).flatMap (round S.W)).flatMap
      (pair t (colours r).1 (lineNo (colours r).1 r) (colours r).2 (lineNo (colours r).2 r) (r % 3)) := by
    rw [← List.range_eq_range']
    rfl
  have g0 := hq.i0
  have g1 := hq.i1
  have hl0 := hq.l0
  have hl1 := hq.l1
  have he0 := hq.e0
  have he1 := hq.e1
  rw [hrow] at hi ⊢
  generalize hC0 : (colours r).1 = c0 at *
  generalize hC1 : (colours r).2 = c1 at *
  generalize hO0 : lineNo c0 r = o0 at *
  generalize hO1 : lineNo c1 r = o1 at *
  have hready : ∀ c o, c < 3 → o < lineCount c → before r c = o → Ready S.W (Upto S.W (before r)) c o := by
    intro c o hc ho hb
    refine ⟨fun i _ => .inl ?_, fun i _ => .inl ?_, .inr ⟨?_, .inl rfl⟩, .inr ⟨?_, .inr rfl⟩⟩
    · rw [num_base c _ hc (by omega), colOf_base c _ hc (by omega)]; omega
    · rw [num_base c _ hc (by omega), colOf_base c _ hc (by omega)]; omega
    · rw [num_base c _ hc (by omega), colOf_base c _ hc (by omega)]; omega
    · rw [num_base c _ hc (by omega), colOf_base c _ hc (by omega)]; omega
  obtain ⟨st1, e1, v1⟩ := passLoop_ok h hc0 ho0 hc1 ho1 (show r % 3 < 3 by omega) q.i0 q.i1
    (fun j hj => by rw [gap_eq S hL _ _ _ hc0, empty_block, g0 j hj]) (fun j hj => by rw [gap_eq S hL _ _ _ hc1, empty_block, g1 j hj])
    (Upto S.W (before r)) (hready c0 o0 hc0 ho0 b0) (hready c1 o1 hc1 ho1 b1) rest hlen (S.W / 2 + 4) 0 (S.W + 9) s st (by omega) (by omega)
    (hi.mono (by
      intro a i _ _ hh
      rcases hh with hh | ⟨-, h1, -, h2⟩
      · exact hh
      · omega))
  obtain ⟨lb1, e2, v2⟩ := extend_ok S t c0 (o0 + 1) hc0 (fun l i => if colOf l = c1 then num l < 2 + (o1 + 1) else Upto S.W (before (r + 1)) l i) st1.lb
    (v1.known.mono (by
      intro a i ha hi hh
      refine ⟨?_, rfl⟩
      have hdone : ∀ c o, (c = c0 ∧ o = o0) ∨ (c = c1 ∧ o = o1) → before r c = o → colOf a = c → num a < 2 + (o + 1) → Done c0 o0 c1 o1 S.W (Upto S.W (before r)) (S.W / 2 + 4) a i := by
        intro c o hco hb hac hn
        by_cases hlt : num a < 2 + o
        · exact .inl (.inl (by rw [hac, hb]; exact hlt))
        · have hno : num a = o + 2 := by omega
          have hab := num_inj ha hac hno
          by_cases hb2 : Border S.W i
          · exact .inl (.inr ⟨by rw [hac, hb]; omega, hb2⟩)
          · refine .inr ⟨?_, ?_⟩
            · rcases hco with ⟨rfl, rfl⟩ | ⟨rfl, rfl⟩
              · exact .inl hab
              · exact .inr hab
            · unfold Border at hb2
              omega
      by_cases h0 : colOf a = c0
      · rw [if_pos h0] at hh
        exact hdone c0 o0 (.inl ⟨rfl, rfl⟩) b0 h0 hh
      · rw [if_neg h0] at hh
        by_cases h1 : colOf a = c1
        · rw [if_pos h1] at hh
          exact hdone c1 o1 (.inr ⟨rfl, rfl⟩) b1 h1 hh
        · rw [if_neg h1] at hh
          left
          unfold Upto at hh ⊢
          rw [b4 _ (num_lt a ha).2.1 h0 h1] at hh
          exact hh))
  obtain ⟨lb2, e3, v3⟩ := extend_ok S t c1 (o1 + 1) hc1 (Upto S.W (before (r + 1))) lb1
    (v2.mono (by
      intro a i ha hi hh
      refine ⟨?_, rfl⟩
      by_cases h1 : colOf a = c1
      · simp only [if_pos h1] at hh
        simp only [if_pos h1]
        rw [if_neg (by rw [h1]; exact fun h => hne h.symm)]
        exact hh
      · simp only [if_neg h1] at hh ⊢
        by_cases h0 : colOf a = c0
        · rw [if_pos h0]
          unfold Upto at hh
          rw [h0, b2] at hh
          exact hh
        · rw [if_neg h0]
          exact hh))
  refine ⟨{ st1 with lb := lb2 }, ?_, v1.ok, v1.grads, ?_, v1.rep⟩
  · unfold runPass
    rw [h.pr.w, hl0, hl1, hq.grp, he0, he1]
    have hz : passLoop pr (base c0 + (o0 + 2)) (base c1 + (o1 + 2)) (r % 3) q.i0 q.i1 (S.W + 9) 0 1 st = .ok st1 := e1
    rw [hz, ok_bind]
    simp only
    rw [e2, ok_bind, e3, ok_bind]
  · refine v3.mono ?_
    intro a i ha hi hh
    refine ⟨?_, rfl⟩
    by_cases h1 : colOf a = c1
    · simp only [if_pos h1]
      unfold Upto at hh
      rw [h1, b3] at hh
      exact hh
    · simp only [if_neg h1]
      exact hh

/-! ## Six passes -/

theorem passes_ok {S : Strip} {lossless : Bool} {t : Nat} {pr : Params} (h : Setup S lossless t pr) (hL : Layout S.xtrans S.cfa)
    (rest : List Bool) (hlen : 30 ≤ rest.length) : ∀ (ps : List Pass) (r : Nat) (s : Stats) (st : St), r + ps.length ≤ 6 →
    (∀ (i : Nat) (q : Pass), ps[i]? = some q → Fit S (r + i) q) →
    Inv S lossless t s (Upto S.W (before r)) (S.enc s ((List.range' r ps.length).flatMap (rowOf S.W t)) ++ rest) st →
    ∃ st', ps.foldlM (runPass pr) st = .ok st' ∧
      Inv S lossless t (S.run s ((List.range' r ps.length).flatMap (rowOf S.W t))) (Upto S.W (before (r + ps.length))) rest st' := by
  intro ps
  induction ps with
  | nil =>
    intro r s st _ _ hi
    exact ⟨st, rfl, hi⟩
  | cons q ps ih =>
    intro r s st hr hfit hi
    rw [List.length_cons] at hr hi ⊢
    rw [List.range'_succ, List.flatMap_cons] at hi ⊢
    rw [enc_append, List.append_assoc] at hi
    obtain ⟨st1, e1, v1⟩ := runPass_ok h hL (by omega) (hfit 0 q rfl) s _ (by rw [List.length_append]; omega) st hi
    obtain ⟨st2, e2, v2⟩ := ih (r + 1) _ st1 (by omega) (fun i q' hq => by rw [Nat.add_assoc, Nat.add_comm 1]; exact hfit (i + 1) q' hq) v1
    refine ⟨st2, ?_, ?_⟩
    · rw [List.foldlM_cons]
      exact (congrArg (· >>= _) e1).trans e2
    · rw [run_append, Nat.add_comm ps.length 1, ← Nat.add_assoc]
      exact v2

theorem fit_bayer (S : Strip) (hx : S.xtrans = false) (i : Nat) (q : Pass) (h : bayerPasses[i]? = some q) : Fit S (0 + i) q := by
  match i, h with
  | 0, h => cases h; exact ⟨rfl, rfl, rfl, fun _ _ => by rw [hx]; rfl, fun _ _ => by rw [hx]; rfl, rfl, rfl⟩
  | 1, h => cases h; exact ⟨rfl, rfl, rfl, fun _ _ => by rw [hx]; rfl, fun _ _ => by rw [hx]; rfl, rfl, rfl⟩
  | 2, h => cases h; exact ⟨rfl, rfl, rfl, fun _ _ => by rw [hx]; rfl, fun _ _ => by rw [hx]; rfl, rfl, rfl⟩
  | 3, h => cases h; exact ⟨rfl, rfl, rfl, fun _ _ => by rw [hx]; rfl, fun _ _ => by rw [hx]; rfl, rfl, rfl⟩
  | 4, h => cases h; exact ⟨rfl, rfl, rfl, fun _ _ => by rw [hx]; rfl, fun _ _ => by rw [hx]; rfl, rfl, rfl⟩
  | 5, h => cases h; exact ⟨rfl, rfl, rfl, fun _ _ => by rw [hx]; rfl, fun _ _ => by rw [hx]; rfl, rfl, rfl⟩
  | n + 6, h => cases h

theorem fit_xtrans (S : Strip) (hx : S.xtrans = true) (i : Nat) (q : Pass) (h : xtransPasses[i]? = some q) : Fit S (0 + i) q := by
  match i, h with
  | 0, h => cases h; exact ⟨rfl, rfl, rfl, fun j hj => by rw [hx]; simp [empty, colours, lineNo, hj], fun j hj => by rw [hx]; simp [empty, colours, lineNo], rfl, rfl⟩
  | 1, h => cases h; exact ⟨rfl, rfl, rfl, fun j hj => by rw [hx]; simp [empty, colours, lineNo], fun j hj => by rw [hx]; simp [empty, colours, lineNo, hj], rfl, rfl⟩
  | 2, h => cases h; exact ⟨rfl, rfl, rfl, fun j hj => by rw [hx]; simp [empty, colours, lineNo, hj, bne], fun j hj => by rw [hx]; simp [empty, colours, lineNo, hj], rfl, rfl⟩
  | 3, h => cases h; exact ⟨rfl, rfl, rfl, fun j hj => by rw [hx]; simp [empty, colours, lineNo], fun j hj => by rw [hx]; simp [empty, colours, lineNo, hj], rfl, rfl⟩
  | 4, h => cases h; exact ⟨rfl, rfl, rfl, fun j hj => by rw [hx]; simp [empty, colours, lineNo, hj], fun j hj => by rw [hx]; simp [empty, colours, lineNo], rfl, rfl⟩
  | 5, h => cases h; exact ⟨rfl, rfl, rfl, fun j hj => by rw [hx]; simp [empty, colours, lineNo, hj], fun j hj => by rw [hx]; simp [empty, colours, lineNo, hj, bne], rfl, rfl⟩
  | n + 6, h => cases h

/-- Six rows are read. -/
theorem decodeBlock_ok {S : Strip} {lossless : Bool} {t : Nat} {pr : Params} (h : Setup S lossless t pr) (hL : Layout S.xtrans S.cfa)
    (s : Stats) (rest : List Bool) (hlen : 30 ≤ rest.length) (st : St) (hi : Inv S lossless t s (Upto S.W (before 0)) (S.enc s (block S.W t) ++ rest) st) :
    ∃ st', decodeBlock pr S.xtrans st = .ok st' ∧ Inv S lossless t (S.run s (block S.W t)) (Upto S.W (before 6)) rest st' := by
  have hb : block S.W t = (List.range' 0 6).flatMap (rowOf S.W t) := rfl
  unfold decodeBlock
  rw [hb] at hi ⊢
  cases hx : S.xtrans with
  | false =>
    rw [if_neg (by simp)]
    exact passes_ok h hL rest hlen bayerPasses 0 s st (by decide) (fit_bayer S hx) hi
  | true =>
    rw [if_pos rfl]
    exact passes_ok h hL rest hlen xtransPasses 0 s st (by decide) (fit_xtrans S hx) hi

end Verif.Fuji
