import Verif.Proofs.FujiCode
/-! # Fuji: samples and line buffers -/

namespace Verif.Fuji
open Verif Verif.Pumps Verif.Spec.Fuji
open Verif.Orf (ok_bind)

/-- Parameters of a reader in a block with allowed error `q`. -/
structure PrOk (b : Nat) (lossless : Bool) (q W : Nat) (pr : Params) : Prop where
  qt : pr.qtables = tabs b lossless q
  mb : pr.maxBits = 4 * b
  mn : pr.minValue = 64
  mx : pr.maxValue = 2 ^ b - 1
  w : pr.width = W

/-- Entries of a gradient vector. -/
def ctxs (t : Nat) : Nat := if t = 0 then 41 else 5

/-- The gradients hold the statistics. -/
def GRep (T : Nat) (s : Nat → Nat → Nat → Stat) (gs : List (List (List Grad))) : Prop :=
  gs.length = 3 ∧ ∀ g, g < 3 → ∃ gl, gs[g]? = some gl ∧ gl.length = 4 ∧ ∀ t, t < T → ∃ gt, gl[t]? = some gt ∧ gt.length = ctxs t ∧
    ∀ k, k < ctxs t → gt[k]? = some (toGrad (s g t k))

theorem level_abs (q : Nat) (v : Int) : (level q v).natAbs ≤ 4 ∧ (v.natAbs < 18 → (level q v).natAbs ≤ 1) := by
  unfold level
  simp only
  split_ifs <;> omega

theorem ctx_lt (l : Look) (q : Nat) : (l.ctx q).natAbs < ctxs (l.table q) := by
  have h1 := level_abs (l.error q) l.v1
  have h2 := level_abs (l.error q) l.v2
  have ht : l.table q ≠ 0 → l.v1.natAbs + l.v2.natAbs ≤ 7 := by
    unfold Look.table Look.act tableOf
    split_ifs <;> omega
  unfold Look.ctx ctxs
  split_ifs with h <;> omega

theorem table_lt (l : Look) (q : Nat) (lossless : Bool) (hl : lossless = true → q = 0) : l.table q < (if lossless then 1 else 4) := by
  unfold Look.table tableOf
  cases lossless with
  | true => rw [hl rfl]; simp
  | false => split_ifs <;> simp_all

theorem sample_ok {b : Nat} {lossless : Bool} {q W : Nat} {pr : Params} (hb : b = 12 ∨ b = 14 ∨ b = 16) (hpr : PrOk b lossless q W pr)
    (hq : q < 256) (hl : lossless = true → q = 0) (l : Look) (h1 : l.v1.natAbs ≤ 2 ^ b - 1) (h2 : l.v2.natAbs ≤ 2 ^ b - 1)
    (hp0 : 0 ≤ l.pred) (hp1 : l.pred ≤ 2 ^ b - 1) (s : Nat → Nat → Nat → Stat) (gs : List (List (List Grad)))
    (hgs : GRep (if lossless then 1 else 4) s gs) (grp : Nat) (hg : grp < 3) (hs : StatOk (s grp (l.table q) (l.ctx q).natAbs))
    (x : Nat) (hx : x < 2 ^ b) (p : PumpMSB) (r : List Bool) (hr : 30 ≤ r.length) (sym : Nat)
    (hsym : sym = symbol (steps b (l.error q)) ((if l.ctx q < 0 then -1 else 1) * delta (l.error q) l.pred x))
    (hrep : p.Rep (codeBits b (steps b (l.error q)) (s grp (l.table q) (l.ctx q).natAbs) sym ++ r)) :
    ∃ gs' p', sample pr gs grp p l.act l.v1 l.v2 l.pred = .ok (near b (l.error q) l.pred x, gs', p') ∧ p'.Rep r ∧
      GRep (if lossless then 1 else 4) (fun g t k => if g = grp ∧ t = l.table q ∧ k = (l.ctx q).natAbs then
        (s grp (l.table q) (l.ctx q).natAbs).add ((sym + 1) / 2) else s g t k) gs' := by
  have hpb := pow_bits hb
  have hcast : ((2 ^ b - 1 : Nat) : Int) = 2 ^ b - 1 := by rw [Int.ofNat_sub (Nat.two_pow_pos b)]; push_cast; rfl
  have hel := errorOf_le q l.act
  obtain ⟨s1, s2, -⟩ := steps_pos b (l.error q) hb (Nat.lt_of_le_of_lt hel hq)
  obtain ⟨g, htab⟩ : ∃ g, idx (tabs b lossless q) (l.table q) = .ok (tab b (l.error q) (if l.table q = 0 then 9 else 3) g) :=
    tabs_get b lossless q l.act hl
  have hpick : pickFrom (tabs b lossless q) l.act 3 1 = .ok (l.table q) := pick_eq b lossless q l.act hl
  obtain ⟨hg3, hgs'⟩ := hgs
  obtain ⟨gl, e1, e2, e3⟩ := hgs' grp hg
  obtain ⟨gt, f1, f2, f3⟩ := e3 (l.table q) (table_lt l q lossless hl)
  have f4 := f3 _ (ctx_lt l q)
  obtain ⟨p', r1, r2⟩ := readCode_ok pr b (steps b (l.error q)) hb s1 s2 (tab b (l.error q) (if l.table q = 0 then 9 else 3) g) hpr.mb hpr.mn rfl rfl
    _ hs sym (hsym ▸ (val_symbol _ s1 _).2) p r hr hrep
  refine ⟨gs.set grp (gl.set (l.table q) (gt.set (l.ctx q).natAbs (toGrad ((s grp (l.table q) (l.ctx q).natAbs).add ((sym + 1) / 2))))), p', ?_, r2, ?_⟩
  · unfold sample
    rw [hpr.qt, hpick, ok_bind, htab, ok_bind]
    have hlook : lookupGradient (tab b (l.error q) (if l.table q = 0 then 9 else 3) g) pr.maxValue l.v1 l.v2 = .ok (l.ctx q) := by
      rw [lookupGradient, hpr.mx, table_get _ _ _ _ _ (by omega) (by omega), ok_bind, table_get _ _ _ _ _ (by omega) (by omega), ok_bind]
      unfold Look.ctx tab
      simp only
      congr 2
      split <;> rfl
    rw [hlook, ok_bind]
    rw [idx, e1]
    simp only
    rw [ok_bind]
    rw [idx, f1]
    simp only
    rw [ok_bind, idx, f4]
    simp only
    rw [ok_bind]
    rw [r1, ok_bind]
    simp only
    rw [upd_lt _ _ _ (by omega), ok_bind, hpr.mx, hsym]
    rw [recon_ok b (l.error q) _ g hb (Nat.lt_of_le_of_lt hel hq) l.pred hp0 hp1 x hx (l.ctx q)]
  · refine ⟨by rw [List.length_set]; exact hg3, ?_⟩
    intro g' hg'
    by_cases hgg : g' = grp
    · subst hgg
      refine ⟨_, List.getElem?_set_self (by omega), by rw [List.length_set]; exact e2, ?_⟩
      intro t ht
      by_cases htt : t = l.table q
      · subst htt
        have := table_lt l q lossless hl
        refine ⟨_, List.getElem?_set_self (by rw [e2]; split at this <;> omega), by rw [List.length_set]; exact f2, ?_⟩
        intro k hk
        by_cases hkk : k = (l.ctx q).natAbs
        · subst hkk
          rw [List.getElem?_set_self (by rw [f2]; exact hk)]
          simp only
          rw [if_pos ⟨trivial, trivial, trivial⟩]
        · rw [List.getElem?_set_ne (fun h => hkk h.symm)]
          simp only
          rw [if_neg (by tauto)]
          exact f3 k hk
      · obtain ⟨gt', k1, k2, k3⟩ := e3 t ht
        refine ⟨gt', by rw [List.getElem?_set_ne (fun h => htt h.symm)]; exact k1, k2, ?_⟩
        intro k hk
        simp only
        rw [if_neg (by tauto)]
        exact k3 k hk
    · obtain ⟨gl', k1, k2, k3⟩ := hgs' g' hg'
      refine ⟨gl', by rw [List.getElem?_set_ne (fun h => hgg h.symm)]; exact k1, k2, ?_⟩
      intro t ht
      obtain ⟨gt', m1, m2, m3⟩ := k3 t ht
      refine ⟨gt', m1, m2, ?_⟩
      intro k hk
      simp only
      rw [if_neg (by tauto)]
      exact m3 k hk

/-! ## Line buffers -/

/-- The entries in `K` are those of `V`. -/
def Known (W : Nat) (V : Nat → Nat → Nat) (K : Nat → Nat → Prop) (lb : List (List Nat)) : Prop :=
  lb.length = 18 ∧ (∀ (l : Nat) (row : List Nat), lb[l]? = some row → row.length = W + 2) ∧
    ∀ l i, l < 18 → i < W + 2 → K l i → ∃ row, lb[l]? = some row ∧ row[i]? = some (V l i)

theorem Known.at {W : Nat} {V : Nat → Nat → Nat} {K : Nat → Nat → Prop} {lb : List (List Nat)} (h : Known W V K lb) {l i : Nat}
    (hl : l < 18) (hi : i < W + 2) (hk : K l i) : at' lb l i = .ok (V l i : Int) := by
  obtain ⟨row, e1, e2⟩ := h.2.2 l i hl hi hk
  rw [at', idx, e1]
  simp only
  rw [ok_bind, idx, e2]
  rfl

theorem Known.ex {W : Nat} {V : Nat → Nat → Nat} {K : Nat → Nat → Prop} {lb : List (List Nat)} (h : Known W V K lb) {l i : Nat}
    (hl : l < 18) (hi : i < W + 2) : ∃ v : Nat, at' lb l i = .ok (v : Int) := by
  have e1 : lb[l]? = some (lb[l]'(by rw [h.1]; exact hl)) := List.getElem?_eq_getElem _
  have e2 := h.2.1 l _ e1
  rw [at', idx, e1]
  simp only
  rw [ok_bind, idx, List.getElem?_eq_getElem (by rw [e2]; exact hi)]
  exact ⟨_, rfl⟩

theorem Known.put {W : Nat} {V : Nat → Nat → Nat} {K : Nat → Nat → Prop} (K' : Nat → Nat → Prop) {lb : List (List Nat)} (h : Known W V K lb) {l i : Nat}
    (v : Nat) (hl : l < 18) (hi : i < W + 2) (hk : ∀ a c, a < 18 → c < W + 2 → K' a c → (a = l ∧ c = i ∧ v = V l i) ∨ (K a c ∧ ¬ (a = l ∧ c = i))) :
    ∃ lb', put lb l i v = .ok lb' ∧ Known W V K' lb' := by
  have e1 : lb[l]? = some (lb[l]'(by rw [h.1]; exact hl)) := List.getElem?_eq_getElem _
  generalize lb[l]'(by rw [h.1]; exact hl) = row at e1
  have e2 := h.2.1 l _ e1
  refine ⟨lb.set l (row.set i v), ?_, ?_, ?_, ?_⟩
  · rw [Verif.Fuji.put, idx, e1]
    simp only
    rw [ok_bind, upd_lt _ _ _ (by omega), ok_bind, upd_lt _ _ _ (by rw [h.1]; exact hl)]
  · rw [List.length_set]; exact h.1
  · intro a r ha
    by_cases hal : a = l
    · subst hal
      rw [List.getElem?_set_self (by rw [h.1]; exact hl)] at ha
      cases ha
      rw [List.length_set]; exact e2
    · rw [List.getElem?_set_ne (fun h => hal h.symm)] at ha
      exact h.2.1 a r ha
  · intro a c ha hc hk'
    rcases hk a c ha hc hk' with ⟨rfl, rfl, rfl⟩ | ⟨h1, h2⟩
    · exact ⟨_, List.getElem?_set_self (by rw [h.1]; exact ha), List.getElem?_set_self (by omega)⟩
    · obtain ⟨row', k1, k2⟩ := h.2.2 a c ha hc h1
      by_cases hal : a = l
      · subst hal
        rw [e1] at k1
        cases k1
        refine ⟨_, List.getElem?_set_self (by rw [h.1]; exact ha), ?_⟩
        rw [List.getElem?_set_ne (fun h => h2 ⟨rfl, h.symm⟩)]
        exact k2
      · refine ⟨row', ?_, k2⟩
        rw [List.getElem?_set_ne (fun h => hal h.symm)]
        exact k1

theorem Known.mono {W : Nat} {V V' : Nat → Nat → Nat} {K K' : Nat → Nat → Prop} {lb : List (List Nat)} (h : Known W V K lb)
    (hk : ∀ a c, a < 18 → c < W + 2 → K' a c → K a c ∧ V a c = V' a c) : Known W V' K' lb :=
  ⟨h.1, h.2.1, fun l i hl hi hki => by rw [← (hk l i hl hi hki).2]; exact h.2.2 l i hl hi (hk l i hl hi hki).1⟩

end Verif.Fuji
