import Verif.Proofs.FujiStep
/-! # Fuji: a pass over two lines -/

namespace Verif.Fuji
open Verif Verif.Pumps Verif.Spec.Fuji
open Verif.Orf (ok_bind)

theorem enc_append (S : Strip) (s : Stats) (a l : List Sample) : S.enc s (a ++ l) = S.enc s a ++ S.enc (S.run s a) l := by
  induction a generalizing s with
  | nil => rfl
  | cons e a ih =>
    rw [List.cons_append, Strip.enc, Strip.enc, ih, List.append_assoc]
    rfl

theorem run_append (S : Strip) (s : Stats) (a l : List Sample) : S.run s (a ++ l) = S.run (S.run s a) l := List.foldl_append

/-- What holds between two samples: statistics, known entries of the buffers and the bits left. -/
structure Inv (S : Strip) (lossless : Bool) (t : Nat) (s : Stats) (K : Nat → Nat → Prop) (rest : List Bool) (st : St) : Prop where
  ok : AllOk s
  grads : StRep (if lossless then 1 else 4) s st
  known : Known S.W (V S t) K st.lb
  rep : st.p.Rep rest

/-- What must be known before a line can be read. -/
def Ready (W : Nat) (K : Nat → Nat → Prop) (c o : Nat) : Prop :=
  (∀ i, i < W + 2 → K (base c + (o + 1)) i) ∧ (∀ i, i < W + 2 → K (base c + o) i) ∧ K (base c + (o + 2)) 0 ∧ K (base c + (o + 2)) (W + 1)

theorem Ready.mono {W : Nat} {K K' : Nat → Nat → Prop} {c o : Nat} (h : Ready W K c o) (hk : ∀ a i, K a i → K' a i) : Ready W K' c o :=
  ⟨fun i hi => hk _ _ (h.1 i hi), fun i hi => hk _ _ (h.2.1 i hi), hk _ _ h.2.2.1, hk _ _ h.2.2.2⟩

theorem even_inv {S : Strip} {lossless : Bool} {t : Nat} {pr : Params} (h : Setup S lossless t pr) {c o j grp : Nat} (hc : c < 3) (ho : o < lineCount c)
    (hg : grp < 3) (hj : j % 2 = 0) (hw : j < S.W) {s : Stats} {K : Nat → Nat → Prop} {r : List Bool} {st : St}
    (hK : Ready S.W K c o) (hr : 30 ≤ r.length) (hi : Inv S lossless t s K (S.bits s ⟨c, lineCount c * t + o, j, grp⟩ ++ r) st) :
    ∃ st', evenStep pr (base c + (o + 2)) j grp (S.gap c (lineCount c * t + o) j) st = .ok st' ∧
      Inv S lossless t (S.after s ⟨c, lineCount c * t + o, j, grp⟩) (fun a i => K a i ∨ (a = base c + (o + 2) ∧ i = j + 1)) r st' := by
  obtain ⟨st', e1, e2, e3, e4⟩ := evenStep_ok h hc ho hg hj hw s hi.ok st hi.grads K hi.known (hK.1 _ (by omega)) (hK.1 _ (by omega)) (hK.1 _ (by omega))
    (hK.2.1 _ (by omega)) r hr hi.rep
  exact ⟨st', e1, hi.ok.after h _ (qLine_eq S t c o ho), e3, e2, e4⟩

theorem odd_inv {S : Strip} {lossless : Bool} {t : Nat} {pr : Params} (h : Setup S lossless t pr) {c o j grp : Nat} (hc : c < 3) (ho : o < lineCount c)
    (hg : grp < 3) (hj : j % 2 = 1) (hw : j < S.W) {s : Stats} {K : Nat → Nat → Prop} {r : List Bool} {st : St}
    (hK : Ready S.W K c o) (k1 : K (base c + (o + 2)) j) (k2 : K (base c + (o + 2)) (j + 2)) (hr : 30 ≤ r.length)
    (hi : Inv S lossless t s K (S.bits s ⟨c, lineCount c * t + o, j, grp⟩ ++ r) st) :
    ∃ st', decodeOdd pr (base c + (o + 2)) j grp st = .ok st' ∧
      Inv S lossless t (S.after s ⟨c, lineCount c * t + o, j, grp⟩) (fun a i => K a i ∨ (a = base c + (o + 2) ∧ i = j + 1)) r st' := by
  obtain ⟨st', e1, e2, e3, e4⟩ := oddStep_ok h hc ho hg hj hw s hi.ok st hi.grads K hi.known (hK.1 _ (by omega)) (hK.1 _ (by omega)) (hK.1 _ (by omega))
    k1 k2 r hr hi.rep
  exact ⟨st', e1, hi.ok.after h _ (qLine_eq S t c o ho), e3, e2, e4⟩

theorem Inv.mono {S : Strip} {lossless : Bool} {t : Nat} {s : Stats} {K K' : Nat → Nat → Prop} {rest : List Bool} {st : St}
    (h : Inv S lossless t s K rest st) (hk : ∀ a i, a < 18 → i < S.W + 2 → K' a i → K a i) : Inv S lossless t s K' rest st :=
  ⟨h.ok, h.grads, h.known.mono fun a i ha hi hh => ⟨hk a i ha hi hh, rfl⟩, h.rep⟩

/-! ## The loop -/

section
variable (S : Strip) (t c0 o0 c1 o1 grp : Nat)

/-- The two samples at a place. -/
def pair (j : Nat) : List Sample := [⟨c0, lineCount c0 * t + o0, j, grp⟩, ⟨c1, lineCount c1 * t + o1, j, grp⟩]

/-- The places of a round. -/
def round (W k : Nat) : List Nat := (if k < W / 2 then [2 * k] else []) ++ if 4 ≤ k then [2 * (k - 4) + 1] else []

/-- Entries read after `k` rounds. -/
def Done (W : Nat) (K : Nat → Nat → Prop) (k a i : Nat) : Prop :=
  K a i ∨ ((a = base c0 + (o0 + 2) ∨ a = base c1 + (o1 + 2)) ∧ 0 < i ∧ i ≤ W ∧ ((i % 2 = 1 ∧ i ≤ 2 * k) ∨ (i % 2 = 0 ∧ i ≤ 2 * (k - 4))))

variable {S} {t c0 o0 c1 o1 grp}

theorem passLoop_ok {lossless : Bool} {pr : Params} (h : Setup S lossless t pr) (hc0 : c0 < 3) (ho0 : o0 < lineCount c0) (hc1 : c1 < 3)
    (ho1 : o1 < lineCount c1) (hg : grp < 3) (i0 i1 : Nat → Bool) (hi0 : ∀ j, j % 2 = 0 → i0 j = S.gap c0 (lineCount c0 * t + o0) j)
    (hi1 : ∀ j, j % 2 = 0 → i1 j = S.gap c1 (lineCount c1 * t + o1) j) (K : Nat → Nat → Prop) (hR0 : Ready S.W K c0 o0) (hR1 : Ready S.W K c1 o1)
    (r : List Bool) (hr : 30 ≤ r.length) : ∀ m k fuel s st, k + m = S.W / 2 + 4 → m < fuel →
    Inv S lossless t s (Done c0 o0 c1 o1 S.W K k) (S.enc s (((List.range' k m).flatMap (round S.W)).flatMap (pair t c0 o0 c1 o1 grp)) ++ r) st →
    ∃ st', passLoop pr (base c0 + (o0 + 2)) (base c1 + (o1 + 2)) grp i0 i1 fuel (2 * min k (S.W / 2)) (1 + 2 * (k - 4)) st = .ok st' ∧
      Inv S lossless t (S.run s (((List.range' k m).flatMap (round S.W)).flatMap (pair t c0 o0 c1 o1 grp)))
        (Done c0 o0 c1 o1 S.W K (S.W / 2 + 4)) r st' := by
  intro m
  have hW := W_even S
  have hpw : pr.width = S.W := h.pr.w
  induction m with
  | zero =>
    intro k fuel s st hk hf hinv
    obtain ⟨fuel, rfl⟩ : ∃ f, fuel = f + 1 := ⟨fuel - 1, by omega⟩
    refine ⟨st, ?_, ?_⟩
    · rw [passLoop, if_neg (by omega)]
    · rw [show k = S.W / 2 + 4 by omega] at hinv ⊢
      simpa [Strip.enc, Strip.run] using hinv
  | succ m ih =>
    intro k fuel s st hk hf hinv
    obtain ⟨fuel, rfl⟩ : ∃ f, fuel = f + 1 := ⟨fuel - 1, by omega⟩
    rw [List.range'_succ, List.flatMap_cons, List.flatMap_append, round, List.flatMap_append, List.append_assoc] at hinv ⊢
    rw [enc_append, enc_append, List.append_assoc, List.append_assoc] at hinv
    rw [run_append, run_append]
    rw [passLoop, if_pos (by omega)]
    -- the even places
    have heven : ∃ st', (if 2 * min k (S.W / 2) < pr.width then do
          let st ← evenStep pr (base c0 + (o0 + 2)) (2 * min k (S.W / 2)) grp (i0 (2 * min k (S.W / 2))) st
          let st ← evenStep pr (base c1 + (o1 + 2)) (2 * min k (S.W / 2)) grp (i1 (2 * min k (S.W / 2))) st
          .ok (2 * min k (S.W / 2) + 2, st)
        else .ok (2 * min k (S.W / 2), st) : R (Nat × St)) = .ok (2 * min (k + 1) (S.W / 2), st') ∧
        Inv S lossless t (S.run s ((if k < S.W / 2 then [2 * k] else []).flatMap (pair t c0 o0 c1 o1 grp)))
          (fun a i => K a i ∨ ((a = base c0 + (o0 + 2) ∨ a = base c1 + (o1 + 2)) ∧ 0 < i ∧ i ≤ S.W ∧ ((i % 2 = 1 ∧ i ≤ 2 * (k + 1)) ∨ (i % 2 = 0 ∧ i ≤ 2 * (k - 4)))))
          (S.enc (S.run s ((if k < S.W / 2 then [2 * k] else []).flatMap (pair t c0 o0 c1 o1 grp)))
              ((if 4 ≤ k then [2 * (k - 4) + 1] else []).flatMap (pair t c0 o0 c1 o1 grp)) ++
            (S.enc (S.run (S.run s ((if k < S.W / 2 then [2 * k] else []).flatMap (pair t c0 o0 c1 o1 grp)))
              ((if 4 ≤ k then [2 * (k - 4) + 1] else []).flatMap (pair t c0 o0 c1 o1 grp)))
              (((List.range' (k + 1) m).flatMap (round S.W)).flatMap (pair t c0 o0 c1 o1 grp)) ++ r)) st' := by
      generalize hrest : S.enc (S.run s ((if k < S.W / 2 then [2 * k] else []).flatMap (pair t c0 o0 c1 o1 grp)))
              ((if 4 ≤ k then [2 * (k - 4) + 1] else []).flatMap (pair t c0 o0 c1 o1 grp)) ++
            (S.enc (S.run (S.run s ((if k < S.W / 2 then [2 * k] else []).flatMap (pair t c0 o0 c1 o1 grp)))
              ((if 4 ≤ k then [2 * (k - 4) + 1] else []).flatMap (pair t c0 o0 c1 o1 grp)))
              (((List.range' (k + 1) m).flatMap (round S.W)).flatMap (pair t c0 o0 c1 o1 grp)) ++ r) = rest at hinv ⊢
      have hlen : 30 ≤ rest.length := by rw [← hrest]; simp only [List.length_append]; omega
      clear hrest
      by_cases hkw : k < S.W / 2
      · rw [if_pos hkw] at hinv ⊢
        rw [if_pos (by omega), Nat.min_eq_left (by omega), Nat.min_eq_left (by omega)]
        have hp : [2 * k].flatMap (pair t c0 o0 c1 o1 grp) = [⟨c0, lineCount c0 * t + o0, 2 * k, grp⟩, ⟨c1, lineCount c1 * t + o1, 2 * k, grp⟩] := rfl
        rw [hp] at hinv ⊢
        rw [Strip.enc, Strip.enc, Strip.enc, List.append_nil, List.append_assoc] at hinv
        rw [hi0 _ (by omega), hi1 _ (by omega)]
        obtain ⟨s1, e1, v1⟩ := even_inv h hc0 ho0 hg (by omega) (by omega) (hR0.mono fun a i hh => .inl hh) (by rw [List.length_append]; omega) hinv
        obtain ⟨s2, e2, v2⟩ := even_inv h hc1 ho1 hg (by omega) (by omega) (hR1.mono fun a i hh => .inl (.inl hh)) hlen v1
        refine ⟨s2, ?_, ?_⟩
        · rw [e1, ok_bind, e2, ok_bind]
          rfl
        · refine v2.mono fun a i _ _ hh => ?_
          rcases hh with hh | ⟨hl, hh⟩
          · exact .inl (.inl (.inl hh))
          · by_cases hi : i = 2 * k + 1
            · rcases hl with hl | hl
              · exact .inl (.inr ⟨hl, hi⟩)
              · exact .inr ⟨hl, hi⟩
            · exact .inl (.inl (.inr ⟨hl, by omega⟩))
      · rw [if_neg hkw] at hinv ⊢
        rw [if_neg (by omega)]
        refine ⟨st, by rw [Nat.min_eq_right (by omega), Nat.min_eq_right (by omega)], ?_⟩
        refine hinv.mono fun a i _ _ hh => ?_
        rcases hh with hh | ⟨hl, hh⟩
        · exact .inl hh
        · exact .inr ⟨hl, by omega⟩
    obtain ⟨st', e1, v1⟩ := heven
    rw [e1, ok_bind]
    simp only
    by_cases h4 : 4 ≤ k
    · rw [if_pos (by omega)]
      rw [if_pos h4] at v1 ⊢
      have hp : [2 * (k - 4) + 1].flatMap (pair t c0 o0 c1 o1 grp) =
        [⟨c0, lineCount c0 * t + o0, 2 * (k - 4) + 1, grp⟩, ⟨c1, lineCount c1 * t + o1, 2 * (k - 4) + 1, grp⟩] := rfl
      rw [hp] at v1 ⊢
      rw [Strip.enc, Strip.enc, Strip.enc, List.append_nil, List.append_assoc] at v1
      have hin : ∀ (a i : Nat), (a = base c0 + (o0 + 2) ∨ a = base c1 + (o1 + 2)) → (i = 2 * (k - 4) + 1 ∨ i = 2 * (k - 4) + 3) → i ≤ S.W →
          (fun a i => K a i ∨ ((a = base c0 + (o0 + 2) ∨ a = base c1 + (o1 + 2)) ∧ 0 < i ∧ i ≤ S.W ∧ ((i % 2 = 1 ∧ i ≤ 2 * (k + 1)) ∨ (i % 2 = 0 ∧ i ≤ 2 * (k - 4))))) a i :=
        fun a i ha hi hw => .inr ⟨ha, by omega, hw, .inl ⟨by omega, by omega⟩⟩
      have hin2 : ∀ (a : Nat), (a = base c0 + (o0 + 2) ∨ a = base c1 + (o1 + 2)) →
          (fun a i => K a i ∨ ((a = base c0 + (o0 + 2) ∨ a = base c1 + (o1 + 2)) ∧ 0 < i ∧ i ≤ S.W ∧ ((i % 2 = 1 ∧ i ≤ 2 * (k + 1)) ∨ (i % 2 = 0 ∧ i ≤ 2 * (k - 4))))) a (2 * (k - 4) + 1 + 2) := by
        intro a ha
        by_cases hw : 2 * (k - 4) + 3 ≤ S.W
        · exact hin a _ ha (.inr rfl) hw
        · rw [show 2 * (k - 4) + 1 + 2 = S.W + 1 by omega]
          rcases ha with rfl | rfl
          · exact .inl hR0.2.2.2
          · exact .inl hR1.2.2.2
      obtain ⟨s1, e2, v2⟩ := odd_inv h hc0 ho0 hg (by omega) (by omega) (hR0.mono fun a i hh => .inl hh) (hin _ _ (.inl rfl) (.inl rfl) (by omega))
        (hin2 _ (.inl rfl)) (by simp only [List.length_append]; omega) v1
      obtain ⟨s2, e3, v3⟩ := odd_inv h hc1 ho1 hg (by omega) (by omega) (hR1.mono fun a i hh => .inl (.inl hh)) (.inl (hin _ _ (.inr rfl) (.inl rfl) (by omega)))
        (.inl (hin2 _ (.inr rfl))) (by simp only [List.length_append]; omega) v2
      rw [Nat.add_comm 1 (2 * (k - 4)), e2, ok_bind, e3, ok_bind]
      rw [show 2 * (k - 4) + 1 + 2 = 1 + 2 * (k + 1 - 4) by omega]
      exact ih (k + 1) fuel _ s2 (by omega) (by omega) (v3.mono fun a i _ _ hh => by
        rcases hh with hh | ⟨hl, hh⟩
        · exact .inl (.inl (.inl hh))
        · by_cases hi : i = 2 * (k - 4) + 1 + 1
          · rcases hl with hl | hl
            · exact .inl (.inr ⟨hl, hi⟩)
            · exact .inr ⟨hl, hi⟩
          · exact .inl (.inl (.inr ⟨hl, by omega⟩)))
    · rw [if_neg (by omega)]
      rw [if_neg h4] at v1 ⊢
      rw [show k - 4 = k + 1 - 4 by omega]
      refine ih (k + 1) fuel _ st' (by omega) (by omega) (v1.mono fun a i _ _ hh => ?_)
      rcases hh with hh | ⟨hl, hh⟩
      · exact .inl hh
      · exact .inr ⟨hl, by omega⟩

end
end Verif.Fuji
