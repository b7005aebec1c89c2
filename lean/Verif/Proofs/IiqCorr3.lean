import Verif.Proofs.IiqCorr2
/-! # Corrections of Phase One sensors: proofs for bad columns -/

namespace Verif.IiqCorr
open Verif Verif.Spec

/-- The distance from the mean, four times -/
def dist (v : Fin 4 → Nat) (k : Fin 4) : Nat := ((v k : Int) * 4 - ((v 0 + v 1 + v 2 + v 3 : Nat) : Int)).natAbs

theorem idx_fin (v : Fin 4 → Nat) (k : Fin 4) : idx [v 0, v 1, v 2, v 3] k.val = .ok (v k) := by
  match k with
  | 0 => rfl
  | 1 => rfl
  | 2 => rfl
  | 3 => rfl

theorem farthest_ok (v : Fin 4 → Nat) : ∃ k : Fin 4, farthest [v 0, v 1, v 2, v 3] = .ok k.val ∧ ∀ i, dist v i ≤ dist v k := by
  have hsum : [v 0, v 1, v 2, v 3].sum = v 0 + v 1 + v 2 + v 3 := by simp only [List.sum_cons, List.sum_nil]; omega
  obtain ⟨m, h1, k, hk, h2⟩ := forN_inv 4 (fun i max => do
      let x ← idx [v 0, v 1, v 2, v 3] i
      let y ← idx [v 0, v 1, v 2, v 3] max
      if ((y : Int) * 4 - (([v 0, v 1, v 2, v 3].sum : Nat) : Int)).natAbs < ((x : Int) * 4 - (([v 0, v 1, v 2, v 3].sum : Nat) : Int)).natAbs then .ok i
      else .ok max) (fun n m => ∃ k : Fin 4, m = k.val ∧ ∀ i : Fin 4, i.val < n → dist v i ≤ dist v k) 0
    ⟨0, rfl, fun i hi => by omega⟩
    (fun n m hn ⟨k, hk, hI⟩ => by
      subst hk
      have e1 := idx_fin v ⟨n, hn⟩
      simp only at e1
      rw [e1, idx_fin, hsum]
      simp only [bind, Except.bind]
      show ∃ s', (if dist v k < dist v ⟨n, hn⟩ then Except.ok n else Except.ok k.val) = Except.ok s' ∧ _
      by_cases hlt : dist v k < dist v ⟨n, hn⟩
      · rw [if_pos hlt]
        refine ⟨n, rfl, ⟨n, hn⟩, rfl, fun i hi => ?_⟩
        by_cases e : i.val = n
        · have : i = ⟨n, hn⟩ := Fin.ext e
          rw [this]
        · have := hI i (by omega)
          omega
      · rw [if_neg hlt]
        refine ⟨k.val, rfl, k, rfl, fun i hi => ?_⟩
        by_cases e : i.val = n
        · have : i = ⟨n, hn⟩ := Fin.ext e
          rw [this]; omega
        · exact hI i (by omega))
  exact ⟨k, by rw [← hk]; exact h1, fun i => h2 i i.isLt⟩

theorem dist_abs (v : Fin 4 → Nat) (k : Fin 4) : |(v k : ℚ) - (v 0 + v 1 + v 2 + v 3 : ℚ) / 4| = (dist v k : ℚ) / 4 := by
  have : (dist v k : ℚ) = |(v k : ℚ) * 4 - (v 0 + v 1 + v 2 + v 3 : ℚ)| := by
    rw [dist, Nat.cast_natAbs, Int.cast_abs]
    push_cast
    rfl
  rw [this]
  have e : (v k : ℚ) - (v 0 + v 1 + v 2 + v 3 : ℚ) / 4 = ((v k : ℚ) * 4 - (v 0 + v 1 + v 2 + v 3 : ℚ)) / 4 := by ring
  rw [e, abs_div]
  norm_num

theorem third (t : Nat) : |(((t + 1) / 3 : Nat) : ℚ) - (t : ℚ) / 3| < 1 / 2 := by
  obtain ⟨q, h⟩ : ∃ q, (t + 1) / 3 = q := ⟨_, rfl⟩
  rw [h]
  have h1 : 3 * q ≤ t + 1 := by omega
  have h2 : t + 1 < 3 * q + 3 := by omega
  have h1' : (3 : ℚ) * q ≤ t + 1 := by exact_mod_cast h1
  have h2' : (t : ℚ) + 1 + 1 ≤ 3 * q + 3 := by exact_mod_cast h2
  rw [abs_lt]
  constructor <;> linarith

theorem green_mean (v : Fin 4 → Nat) : ∃ k : Fin 4, farthest [v 0, v 1, v 2, v 3] = .ok k.val ∧
    IiqCorr.MeanOfThree v ((([v 0, v 1, v 2, v 3].sum - v k + 1) / 3)) := by
  obtain ⟨k, h1, h2⟩ := farthest_ok v
  have hsum : [v 0, v 1, v 2, v 3].sum = v 0 + v 1 + v 2 + v 3 := by simp only [List.sum_cons, List.sum_nil]; omega
  refine ⟨k, h1, k, fun i => ?_, ?_⟩
  · rw [dist_abs, dist_abs]
    have : (dist v i : ℚ) ≤ dist v k := by exact_mod_cast h2 i
    linarith
  · rw [hsum]
    have hle : v k ≤ v 0 + v 1 + v 2 + v 3 := by
      match k with
      | 0 => omega
      | 1 => omega
      | 2 => omega
      | 3 => omega
    have := third (v 0 + v 1 + v 2 + v 3 - v k)
    rw [Nat.cast_sub hle] at this
    push_cast at this
    exact this

theorem word_floor (q : ℚ) : toU16 (some (q.floor : ℚ)) = IiqCorr.word q := by
  rw [toU16_word, IiqCorr.word, IiqCorr.word, Rat.floor_intCast]

theorem at_ok {l : List Nat} {w h : Nat} {f : Nat → Nat → Nat} (hl : Holds l w h f) (r c : Nat) (hr : r < h) (hc : c < w) : at' l w r c = .ok (f r c) := by
  rw [at', idx, hl.2 r c hr hc]

theorem usub_ok' (a b : Nat) (h : b ≤ a) : usub a b = .ok (a - b) := by rw [usub, if_pos h]

theorem fixColumn_ok (color : Nat → Nat → Nat) {l : List Nat} {w h : Nat} {f : Nat → Nat → Nat} (hl : Holds l w h f) (col : Nat) (hh : 2 ≤ h) (h2 : 2 ≤ col)
    (hc : col + 2 < w) (hcol : ∀ r, color r col ≤ 2) :
    ∃ l' g, fixColumn color w h col l = .ok l' ∧ Holds l' w h g ∧
      ∀ r c, r < h → c < w → (c = col ∧ 2 ≤ r ∧ r + 2 < h → IiqCorr.Repaired color f r col (g r c)) ∧ (¬ (c = col ∧ 2 ≤ r ∧ r + 2 < h) → g r c = f r c) := by
  rw [fixColumn, usub_ok' h 2 hh]
  simp only [bind, Except.bind]
  obtain ⟨l', h1, g, hg, hI⟩ := forN_inv (h - 2 - 2) (fun k img =>
      if color (k + 2) col = 1 then fixGreen w (k + 2) col img
      else if color (k + 2) col = 0 ∨ color (k + 2) col = 2 then fixOther w (k + 2) col img
      else panic')
    (fun k l => ∃ g, Holds l w h g ∧ ∀ r c, r < h → c < w → (c = col ∧ 2 ≤ r ∧ r < k + 2 → IiqCorr.Repaired color f r col (g r c)) ∧
      (¬ (c = col ∧ 2 ≤ r ∧ r < k + 2) → g r c = f r c)) l
    ⟨f, hl, fun r c _ _ => ⟨fun a => by omega, fun _ => rfl⟩⟩
    (fun k l hk ⟨g, hg, hI⟩ => by
      have same : ∀ r c, r < h → c < w → c ≠ col → g r c = f r c := fun r c hr hc' hne => (hI r c hr hc').2 (by omega)
      have fin : ∀ v, IiqCorr.Repaired color f (k + 2) col v → ∃ l', upd l ((k + 2) * w + col) v = .ok l' ∧ ∃ g, Holds l' w h g ∧
          ∀ r c, r < h → c < w → (c = col ∧ 2 ≤ r ∧ r < k + 1 + 2 → IiqCorr.Repaired color f r col (g r c)) ∧ (¬ (c = col ∧ 2 ≤ r ∧ r < k + 1 + 2) → g r c = f r c) := by
        intro v hv
        obtain ⟨l', u1, u2⟩ := holds_upd hg (k + 2) col v (by omega) (by omega)
        refine ⟨l', u1, _, u2, fun r c hr hc' => ⟨fun a => ?_, fun a => ?_⟩⟩
        · by_cases e : r = k + 2
          · rw [if_pos ⟨e, a.1⟩, e]; exact hv
          · rw [if_neg (by omega)]
            exact (hI r c hr hc').1 (by omega)
        · rw [if_neg (by omega)]
          exact (hI r c hr hc').2 (by omega)
      by_cases h1 : color (k + 2) col = 1
      · rw [if_pos h1, fixGreen, usub_ok' col 1 (by omega)]
        simp only [bind, Except.bind]
        rw [at_ok hg _ _ (by omega) (by omega), at_ok hg _ _ (by omega) (by omega), at_ok hg _ _ (by omega) (by omega), at_ok hg _ _ (by omega) (by omega),
          same _ _ (by omega) (by omega) (by omega), same _ _ (by omega) (by omega) (by omega), same _ _ (by omega) (by omega) (by omega),
          same _ _ (by omega) (by omega) (by omega)]
        simp only
        obtain ⟨j, j1, j2⟩ := green_mean (IiqCorr.four (f (k + 2 - 1) (col - 1)) (f (k + 2 + 1) (col - 1)) (f (k + 2 - 1) (col + 1)) (f (k + 2 + 1) (col + 1)))
        have j3 := idx_fin (IiqCorr.four (f (k + 2 - 1) (col - 1)) (f (k + 2 + 1) (col - 1)) (f (k + 2 - 1) (col + 1)) (f (k + 2 + 1) (col + 1))) j
        simp only [IiqCorr.four] at j1 j3
        rw [j1]
        simp only
        rw [j3]
        simp only
        exact fin _ ⟨fun _ => j2, fun a => absurd h1 a⟩
      · rw [if_neg h1, if_pos (by have := hcol (k + 2); omega), fixOther, usub_ok' col 2 h2]
        simp only [bind, Except.bind]
        rw [at_ok hg _ _ (by omega) (by omega), at_ok hg _ _ (by omega) (by omega), at_ok hg _ _ (by omega) (by omega), at_ok hg _ _ (by omega) (by omega),
          at_ok hg _ _ (by omega) (by omega), at_ok hg _ _ (by omega) (by omega),
          same _ _ (by omega) (by omega) (by omega), same _ _ (by omega) (by omega) (by omega), same _ _ (by omega) (by omega) (by omega),
          same _ _ (by omega) (by omega) (by omega), same _ _ (by omega) (by omega) (by omega), same _ _ (by omega) (by omega) (by omega)]
        simp only
        rw [word_floor]
        exact fin _ ⟨fun a => absurd a h1, fun _ => rfl⟩)
  refine ⟨l', g, h1, hg, fun r c hr hc' => ⟨fun a => (hI r c hr hc').1 (by omega), fun a => (hI r c hr hc').2 (by omega)⟩⟩

end Verif.IiqCorr
