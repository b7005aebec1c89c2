import Verif.Proofs.Arw2
/-! # The Sony tone curve -/

namespace Verif.Arw
open Verif Verif.Spec Verif.Spec.Arw Verif.Linearize Verif.Props

theorem getD_set_self (l : List Nat) (i v : Nat) (h : i < l.length) : (l.set i v).getD i 0 = v := by
  rw [List.getD_eq_getElem?_getD, List.getElem?_set_self h]; rfl

theorem getD_set_ne (l : List Nat) (i j v : Nat) (h : i ≠ j) : (l.set i v).getD j 0 = l.getD j 0 := by
  rw [List.getD_eq_getElem?_getD, List.getElem?_set_ne h, ← List.getD_eq_getElem?_getD]

theorem idx_getD (l : List Nat) (i : Nat) (h : i < l.length) : idx l i = .ok (l.getD i 0) := by
  rw [idx_lt _ _ h, getD_lt' _ _ h]

/-- One segment: values up to `a` are kept, from `a` to `b` the curve rises by `2^i` per step. -/
theorem segment_ok (i a b : Nat) (out : List Nat) (hb : a ≤ b → b < out.length) (hmax : a ≤ b → out.getD a 0 + 2 ^ i * (b - a) < 2 ^ 16) :
    ∃ out', forN (b - a) (fun k out => curveStep i (a + 1 + k) out) out = .ok out' ∧ out'.length = out.length ∧
      (∀ x, x ≤ a → out'.getD x 0 = out.getD x 0) ∧ ∀ t, t ≤ b - a → out'.getD (a + t) 0 = out.getD a 0 + 2 ^ i * t := by
  by_cases hab : a ≤ b
  · have hb := hb hab
    have hmax := hmax hab
    refine forN_inv (b - a) _ (fun k o => o.length = out.length ∧ (∀ x, x ≤ a → o.getD x 0 = out.getD x 0) ∧
      ∀ t, t ≤ k → o.getD (a + t) 0 = out.getD a 0 + 2 ^ i * t) out ⟨rfl, fun _ _ => rfl, ?_⟩ ?_
    · intro t ht
      have : t = 0 := by omega
      subst this; simp
    · rintro k o hk ⟨h1, h2, h3⟩
      have hk' := h3 k (Nat.le_refl _)
      have hlt : 2 ^ i * (k + 1) ≤ 2 ^ i * (b - a) := Nat.mul_le_mul_left _ (by omega)
      rw [Nat.mul_add, Nat.mul_one] at hlt
      refine ⟨o.set (a + 1 + k) (out.getD a 0 + 2 ^ i * k + 2 ^ i), ?_, by simp [h1], ?_, ?_⟩
      · unfold curveStep
        rw [show a + 1 + k - 1 = a + k by omega, idx_getD _ _ (by omega), hk']
        simp only [bind, Except.bind]
        rw [assert', if_pos (decide_eq_true (by omega))]
        simp only []
        rw [upd, if_pos (by omega)]
      · intro x hx
        rw [getD_set_ne _ _ _ _ (by omega)]
        exact h2 x hx
      · intro t ht
        by_cases htk : t = k + 1
        · subst htk
          rw [show a + (k + 1) = a + 1 + k by omega, getD_set_self _ _ _ (by omega), Nat.mul_add]; omega
        · rw [getD_set_ne _ _ _ _ (by omega)]
          exact h3 t (by omega)
  · rw [show b - a = 0 by omega]
    refine ⟨out, rfl, rfl, fun _ _ => rfl, ?_⟩
    intro t ht
    have : t = 0 := by omega
    subst this; rfl

/-- Up to `f` the curve starts at 0, is the identity up to 8 and rises by 1 to 16 per step. -/
def Rising (f : Nat) (out : List Nat) : Prop :=
  out.length = 4096 ∧ (∀ x, x ≤ 8 → out.getD x 0 = x) ∧ ∀ x, x < f → out.getD x 0 + 1 ≤ out.getD (x + 1) 0 ∧ out.getD (x + 1) 0 ≤ out.getD x 0 + 16

theorem rising_le {f : Nat} {out : List Nat} (h : Rising f out) (x : Nat) (hx : x ≤ f) : out.getD x 0 ≤ 16 * x := by
  induction x with
  | zero => rw [h.2.1 0 (by omega)]
  | succ x ih => have := h.2.2 x (by omega); have := ih (by omega); omega

theorem rising_ge {f : Nat} {out : List Nat} (h : Rising f out) (x : Nat) (hx : x ≤ f) : x ≤ out.getD x 0 := by
  induction x with
  | zero => omega
  | succ x ih => have := h.2.2 x (by omega); have := ih (by omega); omega

theorem segment_rising (i a b : Nat) (hi : i ≤ 4) (ha : 8 ≤ a) (hb8 : 8 ≤ b) (hb : b ≤ 4095) (out : List Nat) (h : Rising a out) :
    ∃ out', forN (b - a) (fun k out => curveStep i (a + 1 + k) out) out = .ok out' ∧ Rising b out' ∧
      (∀ x, x ≤ a → out'.getD x 0 = out.getD x 0) ∧ ∀ t, t ≤ b - a → out'.getD (a + t) 0 = out.getD a 0 + 2 ^ i * t := by
  have hp : 2 ^ i ≤ 2 ^ 4 := Nat.pow_le_pow_right (by omega) hi
  have hpos := Nat.two_pow_pos i
  obtain ⟨out', e, h1, h2, h3⟩ := segment_ok i a b out (fun _ => by rw [h.1]; omega) (fun hab => by
    have := rising_le h a (Nat.le_refl _)
    have h2 : 2 ^ i * (b - a) ≤ 16 * (b - a) := Nat.mul_le_mul_right _ hp
    omega)
  refine ⟨out', e, ⟨by rw [h1, h.1], ?_, ?_⟩, h2, h3⟩
  · intro x hx; rw [h2 x (by omega)]; exact h.2.1 x hx
  · intro x hx
    by_cases hxa : x < a
    · rw [h2 x (by omega), h2 (x + 1) (by omega)]; exact h.2.2 x hxa
    · have e1 := h3 (x - a) (by omega)
      have e2 := h3 (x - a + 1) (by omega)
      rw [show a + (x - a) = x by omega] at e1
      rw [show a + (x - a + 1) = x + 1 by omega, Nat.mul_add] at e2
      omega

theorem segment_first (b : Nat) (hb8 : 8 ≤ b) (hb : b ≤ 4095) :
    ∃ out', forN b (fun k out => curveStep 0 (0 + 1 + k) out) (List.replicate 4096 0) = .ok out' ∧ Rising b out' ∧
      ∀ x, x ≤ b → out'.getD x 0 = x := by
  have h0 : ∀ x, (List.replicate 4096 0).getD x 0 = 0 := by
    intro x; rw [List.getD_eq_getElem?_getD, List.getElem?_replicate]; split <;> rfl
  obtain ⟨out', e, h1, h2, h3⟩ := segment_ok 0 0 b (List.replicate 4096 0) (fun _ => by rw [List.length_replicate]; omega)
    (fun _ => by rw [h0]; omega)
  have h4 : ∀ x, x ≤ b → out'.getD x 0 = x := by
    intro x hx
    have := h3 x (by omega)
    rw [Nat.zero_add, h0] at this
    omega
  refine ⟨out', e, ⟨by rw [h1, List.length_replicate], fun x hx => h4 x (by omega), ?_⟩, h4⟩
  intro x hx
  rw [h4 x (by omega), h4 (x + 1) (by omega)]; omega

/-- A knot is allowed. -/
def KnotOK (k : Nat) : Prop := 8 ≤ k ∧ k ≤ 4095

theorem table_ok (k1 k2 k3 k4 : Nat) (h1 : KnotOK k1) (h2 : KnotOK k2) (h3 : KnotOK k3) (h4 : KnotOK k4) :
    ∃ out, curveTable [0, k1, k2, k3, k4, 4095] = .ok out ∧ Rising 4095 out ∧
      (k1 ≤ k2 → k2 ≤ k3 → k3 ≤ k4 → ∀ x, x ≤ 4095 → out.getD x 0 = curveAt k1 k2 k3 k4 x) := by
  obtain ⟨o0, e0, r0, v0⟩ := segment_first k1 h1.1 h1.2
  obtain ⟨o1, e1, r1, u1, v1⟩ := segment_rising 1 k1 k2 (by omega) h1.1 h2.1 h2.2 o0 r0
  obtain ⟨o2, e2, r2, u2, v2⟩ := segment_rising 2 k2 k3 (by omega) h2.1 h3.1 h3.2 o1 r1
  obtain ⟨o3, e3, r3, u3, v3⟩ := segment_rising 3 k3 k4 (by omega) h3.1 h4.1 h4.2 o2 r2
  obtain ⟨o4, e4, r4, u4, v4⟩ := segment_rising 4 k4 4095 (by omega) h4.1 (by omega) (by omega) o3 r3
  refine ⟨o4, ?_, r4, ?_⟩
  · show forN 5 (curveSegment [0, k1, k2, k3, k4, 4095]) (List.replicate 4096 0) = _
    rw [show (5 : Nat) = 0 + 1 + 1 + 1 + 1 + 1 from rfl, forN_succ, forN_succ, forN_succ, forN_succ, forN_succ, forN_zero]
    have s0 : curveSegment [0, k1, k2, k3, k4, 4095] 0 (List.replicate 4096 0) = .ok o0 := e0
    have s1 : curveSegment [0, k1, k2, k3, k4, 4095] (0 + 1) o0 = .ok o1 := e1
    have s2 : curveSegment [0, k1, k2, k3, k4, 4095] (0 + 1 + 1) o1 = .ok o2 := e2
    have s3 : curveSegment [0, k1, k2, k3, k4, 4095] (0 + 1 + 1 + 1) o2 = .ok o3 := e3
    have s4 : curveSegment [0, k1, k2, k3, k4, 4095] (0 + 1 + 1 + 1 + 1) o3 = .ok o4 := e4
    simp only [Except.bind]
    rw [s0]; dsimp only
    rw [s1]; dsimp only
    rw [s2]; dsimp only
    rw [s3]; dsimp only
    exact s4
  · intro s12 s23 s34 x
    -- increments of the final table
    have inc : ∀ x, x < 4095 → o4.getD (x + 1) 0 = o4.getD x 0 + slope k1 k2 k3 k4 x := by
      have b := h4.2
      intro x hx
      by_cases c4 : k4 ≤ x
      · have a1 := v4 (x - k4) (by omega)
        have a2 := v4 (x - k4 + 1) (by omega)
        rw [show k4 + (x - k4) = x by omega] at a1
        rw [show k4 + (x - k4 + 1) = x + 1 by omega] at a2
        have : slope k1 k2 k3 k4 x = 2 ^ 4 := by
          rw [slope, if_pos (by omega), if_pos (by omega), if_pos (by omega), if_pos c4]
        omega
      · rw [u4 x (by omega), u4 (x + 1) (by omega)]
        by_cases c3 : k3 ≤ x
        · have a1 := v3 (x - k3) (by omega)
          have a2 := v3 (x - k3 + 1) (by omega)
          rw [show k3 + (x - k3) = x by omega] at a1
          rw [show k3 + (x - k3 + 1) = x + 1 by omega] at a2
          have : slope k1 k2 k3 k4 x = 2 ^ 3 := by
            rw [slope, if_pos (by omega), if_pos (by omega), if_pos c3, if_neg c4]
          omega
        · rw [u3 x (by omega), u3 (x + 1) (by omega)]
          by_cases c2 : k2 ≤ x
          · have a1 := v2 (x - k2) (by omega)
            have a2 := v2 (x - k2 + 1) (by omega)
            rw [show k2 + (x - k2) = x by omega] at a1
            rw [show k2 + (x - k2 + 1) = x + 1 by omega] at a2
            have : slope k1 k2 k3 k4 x = 2 ^ 2 := by
              rw [slope, if_pos (by omega), if_pos c2, if_neg c3, if_neg c4]
            omega
          · rw [u2 x (by omega), u2 (x + 1) (by omega)]
            by_cases c1 : k1 ≤ x
            · have a1 := v1 (x - k1) (by omega)
              have a2 := v1 (x - k1 + 1) (by omega)
              rw [show k1 + (x - k1) = x by omega] at a1
              rw [show k1 + (x - k1 + 1) = x + 1 by omega] at a2
              have : slope k1 k2 k3 k4 x = 2 ^ 1 := by
                rw [slope, if_pos c1, if_neg c2, if_neg c3, if_neg c4]
              omega
            · rw [u1 x (by omega), u1 (x + 1) (by omega), v0 x (by omega), v0 (x + 1) (by omega)]
              have : slope k1 k2 k3 k4 x = 2 ^ 0 := by
                rw [slope, if_neg c1, if_neg c2, if_neg c3, if_neg c4]
              omega
    induction x with
    | zero => intro _; rw [curveAt]; exact r4.2.1 0 (by omega)
    | succ x ih =>
      intro hx
      rw [inc x (by omega), ih (by omega), curveAt]

theorem at'_eq {out : List Nat} (h : out.length = 4096) (x : Nat) : at' out x = out.getD (min x 4095) 0 := by
  rw [at', h]

theorem gentle_of_rising {out : List Nat} (h : Rising 4095 out) : Gentle out := by
  have hl := h.1
  refine ⟨?_, ?_, ?_, ?_⟩
  · intro h0; rw [h0] at hl; simp at hl
  · intro v hv
    obtain ⟨i, hi, rfl⟩ := List.getElem_of_mem hv
    have := rising_le h i (by omega)
    rw [getD_lt' _ _ hi] at this
    omega
  · intro i
    rw [at'_eq hl, at'_eq hl]
    by_cases hi : i < 4095
    · rw [Nat.min_eq_left (by omega), Nat.min_eq_left (by omega)]
      have := h.2.2 i hi; omega
    · rw [Nat.min_eq_right (by omega), Nat.min_eq_right (by omega)]
  · intro i hi
    rw [hl] at hi
    rw [spread, at'_eq hl, at'_eq hl, at'_eq hl, Nat.min_eq_left (show i ≤ 4095 by omega), Nat.min_eq_left (show i - 1 ≤ 4095 by omega)]
    have hge := rising_ge h i (by omega)
    have hle := rising_le h i (by omega)
    have hup : out.getD (min (i + 1) 4095) 0 ≤ out.getD i 0 + 16 := by
      by_cases hi' : i < 4095
      · rw [Nat.min_eq_left (by omega)]; exact (h.2.2 i hi').2
      · rw [Nat.min_eq_right (by omega), show i = 4095 by omega]; omega
    have hlo : out.getD i 0 ≤ out.getD (i - 1) 0 + 16 := by
      cases i with
      | zero => omega
      | succ i => exact (h.2.2 i (by omega)).2
    refine ⟨by omega, ?_, by omega⟩
    by_cases h8 : i < 8
    · have e1 := h.2.1 i (by omega)
      have e2 := h.2.1 (i + 1) (by omega)
      have e3 := h.2.1 (i - 1) (by omega)
      rw [Nat.min_eq_left (show i + 1 ≤ 4095 by omega), e1, e2, e3]
      omega
    · right; omega

theorem calculateCurve_ok (k1 k2 k3 k4 : Nat) (h1 : KnotOK k1) (h2 : KnotOK k2) (h3 : KnotOK k3) (h4 : KnotOK k4) :
    ∃ table, calculateCurve [0, k1, k2, k3, k4, 4095] = .ok ((List.range 4096).map (entryAt table)) ∧ Gentle table ∧ table.length = 4096 ∧
      (k1 ≤ k2 → k2 ≤ k3 → k3 ≤ k4 → ∀ x, x ≤ 4095 → at' table x = curveAt k1 k2 k3 k4 x) := by
  obtain ⟨out, e, r, v⟩ := table_ok k1 k2 k3 k4 h1 h2 h3 h4
  have hg := gentle_of_rising r
  refine ⟨out, ?_, hg, r.1, ?_⟩
  · rw [calculateCurve, e]
    show Linearize.new out = _
    obtain ⟨last, hlast⟩ : ∃ last, out.getLast? = some last := by
      cases h : out.getLast? with
      | none => exact absurd (List.getLast?_eq_none_iff.mp h) hg.1
      | some x => exact ⟨x, rfl⟩
    have := new_ok out hg 0 last hlast
    rw [List.replicate_zero, List.append_nil, Nat.add_zero, r.1] at this
    exact this
  · intro a b c x hx
    rw [at'_eq r.1, Nat.min_eq_left hx]
    exact v a b c x hx

end Verif.Arw
