import Verif.Model.Color
import Verif.Spec.Color
import Mathlib.Tactic.Ring
import Mathlib.Tactic.NormNum
import Mathlib.Tactic.Linarith
import Mathlib.Tactic.FieldSimp
import Mathlib.Tactic.IntervalCases
/-! # Elimination, colours -/

namespace Verif.Color
open Verif Verif.Spec.Color

theorem sum3 (f : Nat → ℚ) : sumTo 3 f = f 0 + f 1 + f 2 := by
  simp [sumTo, List.range_succ]

theorem sum4 (f : Nat → ℚ) : sumTo 4 f = f 0 + f 1 + f 2 + f 3 := by
  simp [sumTo, List.range_succ]

/-- The columns are independent. -/
def Indep (m : Mat) : Prop :=
  ∀ v : Nat → ℚ, (∀ k < 4, m k 0 * v 0 + m k 1 * v 1 + m k 2 * v 2 = 0) → v 0 = 0 ∧ v 1 = 0 ∧ v 2 = 0

/-- Products of columns -/
def G (m : Mat) (i j : Nat) : ℚ := m 0 i * m 0 j + m 1 i * m 1 j + m 2 i * m 2 j + m 3 i * m 3 j

/-- The left half is the right half times the products. -/
def Lin (m w : Mat) : Prop := ∀ i < 3, ∀ j < 3, w i j = w i 3 * G m 0 j + w i 4 * G m 1 j + w i 5 * G m 2 j

theorem gram_left (m : Mat) (i j : Nat) (hj : j < 3) : gram 4 m i j = G m i j := by
  rw [gram, if_pos hj, sum4, G]

theorem gram_right (m : Mat) (i j : Nat) (hj : 3 ≤ j) : gram 4 m i j = if j = i + 3 then 1 else 0 := by
  rw [gram, if_neg (by omega)]

theorem lin_gram (m : Mat) : Lin m (gram 4 m) := by
  intro i hi j hj
  rw [gram_left m i j hj, gram_right m i 3 (by omega), gram_right m i 4 (by omega), gram_right m i 5 (by omega)]
  interval_cases i <;> simp

theorem lin_eliminate {m w : Mat} (h : Lin m w) (i : Nat) (hi : i < 3) : Lin m (eliminate i w) := by
  intro k hk j hj
  simp only [eliminate, if_true]
  have h1 := h i hi j hj
  have h2 := h k hk j hj
  by_cases e : k = i
  · subst e
    simp only [if_true]
    rw [h1]
    ring
  · simp only [e, if_false]
    rw [h1, h2]
    ring

theorem square {m w : Mat} (h : Lin m w) (i : Nat) (hi : i < 3) (hz : w i 0 * w i 3 + w i 1 * w i 4 + w i 2 * w i 5 = 0) (hm : Indep m) :
    w i 3 = 0 ∧ w i 4 = 0 ∧ w i 5 = 0 := by
  have := hm (fun x => w i (x + 3)) ?_
  · exact this
  · have e0 := h i hi 0 (by omega)
    have e1 := h i hi 1 (by omega)
    have e2 := h i hi 2 (by omega)
    have key : (m 0 0 * w i 3 + m 0 1 * w i 4 + m 0 2 * w i 5) ^ 2 + (m 1 0 * w i 3 + m 1 1 * w i 4 + m 1 2 * w i 5) ^ 2
        + (m 2 0 * w i 3 + m 2 1 * w i 4 + m 2 2 * w i 5) ^ 2 + (m 3 0 * w i 3 + m 3 1 * w i 4 + m 3 2 * w i 5) ^ 2 = 0 := by
      rw [← hz, e0, e1, e2]
      simp only [G]
      ring
    have p0 := sq_nonneg (m 0 0 * w i 3 + m 0 1 * w i 4 + m 0 2 * w i 5)
    have p1 := sq_nonneg (m 1 0 * w i 3 + m 1 1 * w i 4 + m 1 2 * w i 5)
    have p2 := sq_nonneg (m 2 0 * w i 3 + m 2 1 * w i 4 + m 2 2 * w i 5)
    have p3 := sq_nonneg (m 3 0 * w i 3 + m 3 1 * w i 4 + m 3 2 * w i 5)
    intro k hk
    simp only [Nat.zero_add, Nat.reduceAdd]
    interval_cases k
    · exact pow_eq_zero_iff (n := 2) (by decide) |>.1 (by linarith)
    · exact pow_eq_zero_iff (n := 2) (by decide) |>.1 (by linarith)
    · exact pow_eq_zero_iff (n := 2) (by decide) |>.1 (by linarith)
    · exact pow_eq_zero_iff (n := 2) (by decide) |>.1 (by linarith)

/-- Column `i` afterwards -/
theorem eliminate_col (w : Mat) (i : Nat) (hp : w i i ≠ 0) (k : Nat) : eliminate i w k i = if k = i then 1 else 0 := by
  simp only [eliminate, if_true]
  by_cases e : k = i
  · simp only [e, if_true]
    exact div_self hp
  · simp only [e, if_false]
    rw [div_self hp]; ring

/-- Columns in which row `i` is zero do not change outside row `i`. -/
theorem eliminate_keep (w : Mat) (i k j : Nat) (hz : w i j = 0) : eliminate i w k j = w k j := by
  simp only [eliminate, if_true]
  by_cases e : k = i
  · subst e; simp [hz]
  · simp [e, hz]

/-- The result of the elimination -/
theorem eliminated {m : Mat} (hm : Indep m) :
    let w := eliminate 2 (eliminate 1 (eliminate 0 (gram 4 m)))
    Lin m w ∧ ∀ i < 3, ∀ j < 3, w i j = if i = j then 1 else 0 := by
  intro w
  let w0 := gram 4 m
  let w1 := eliminate 0 w0
  let w2 := eliminate 1 w1
  have l0 : Lin m w0 := lin_gram m
  have l1 : Lin m w1 := lin_eliminate l0 0 (by omega)
  have l2 : Lin m w2 := lin_eliminate l1 1 (by omega)
  have l3 : Lin m w := lin_eliminate l2 2 (by omega)
  have r0 : ∀ i j, 3 ≤ j → w0 i j = if j = i + 3 then 1 else 0 := fun i j h => gram_right m i j h
  -- first pivot
  have p0 : w0 0 0 ≠ 0 := by
    intro hz
    have := square l0 0 (by omega) (by rw [hz, r0 0 4 (by omega), r0 0 5 (by omega)]; simp) hm
    rw [r0 0 3 (by omega)] at this
    simp at this
  have c0 : ∀ k, w1 k 0 = if k = 0 then 1 else 0 := eliminate_col w0 0 p0
  have r14 : ∀ k, w1 k 4 = w0 k 4 := fun k => eliminate_keep w0 0 k 4 (by rw [r0 0 4 (by omega)]; simp)
  have r15 : ∀ k, w1 k 5 = w0 k 5 := fun k => eliminate_keep w0 0 k 5 (by rw [r0 0 5 (by omega)]; simp)
  have p1 : w1 1 1 ≠ 0 := by
    intro hz
    have := square l1 1 (by omega) (by rw [hz, c0 1, r15 1, r0 1 5 (by omega)]; simp) hm
    rw [r14 1, r0 1 4 (by omega)] at this
    simp at this
  have d1 : ∀ k, w2 k 1 = if k = 1 then 1 else 0 := eliminate_col w1 1 p1
  have d0 : ∀ k, w2 k 0 = if k = 0 then 1 else 0 := fun k => by
    rw [show w2 k 0 = w1 k 0 from eliminate_keep w1 1 k 0 (by rw [c0 1]; simp), c0 k]
  have r25 : ∀ k, w2 k 5 = w0 k 5 := fun k => by
    rw [show w2 k 5 = w1 k 5 from eliminate_keep w1 1 k 5 (by rw [r15 1, r0 1 5 (by omega)]; simp), r15 k]
  have p2 : w2 2 2 ≠ 0 := by
    intro hz
    have := square l2 2 (by omega) (by rw [hz, d0 2, d1 2]; simp) hm
    rw [r25 2, r0 2 5 (by omega)] at this
    simp at this
  have e2 : ∀ k, w k 2 = if k = 2 then 1 else 0 := eliminate_col w2 2 p2
  have e1 : ∀ k, w k 1 = if k = 1 then 1 else 0 := fun k => by
    rw [show w k 1 = w2 k 1 from eliminate_keep w2 2 k 1 (by rw [d1 2]; simp), d1 k]
  have e0 : ∀ k, w k 0 = if k = 0 then 1 else 0 := fun k => by
    rw [show w k 0 = w2 k 0 from eliminate_keep w2 2 k 0 (by rw [d0 2]; simp), d0 k]
  refine ⟨l3, fun i hi j hj => ?_⟩
  interval_cases j
  · exact e0 i
  · exact e1 i
  · exact e2 i

/-- The pseudo inverse undoes the matrix. -/
theorem pinv {m : Mat} (hm : Indep m) (i l : Nat) (hi : i < 3) (hl : l < 3) :
    pseudoInverse 4 m i 0 * m 0 l + pseudoInverse 4 m i 1 * m 1 l + pseudoInverse 4 m i 2 * m 2 l + pseudoInverse 4 m i 3 * m 3 l =
      if i = l then 1 else 0 := by
  obtain ⟨h1, h2⟩ := eliminated hm
  rw [← h2 i hi l hl, h1 i hi l hl]
  simp only [pseudoInverse, sum3, G, Nat.zero_add, Nat.reduceAdd]
  ring

/-! ## The camera -/

theorem srgb_rows (i : Nat) (s : ℚ × ℚ × ℚ) (m : Mat) :
    multiply 3 m srgbToXyz i 0 * s.1 + multiply 3 m srgbToXyz i 1 * s.2.1 + multiply 3 m srgbToXyz i 2 * s.2.2 = response m (xyz s) i := by
  simp only [multiply, sum3, srgbToXyz, rows3, response, xyz]
  norm_num
  ring

theorem row_sum (i : Nat) (m : Mat) : sumTo 3 (multiply 3 m srgbToXyz i) = response m (xyz white) i := by
  rw [← srgb_rows, sum3, white]; ring

theorem xyz_inj (a b : ℚ × ℚ × ℚ) (h : xyz a = xyz b) : a = b := by
  obtain ⟨a0, a1, a2⟩ := a
  obtain ⟨b0, b1, b2⟩ := b
  simp only [xyz, Prod.mk.injEq] at h ⊢
  obtain ⟨h1, h2, h3⟩ := h
  norm_num at h1 h2 h3
  refine ⟨?_, ?_, ?_⟩ <;> linarith

/-- Rows of the normalized matrix: the response divided by the response to white -/
theorem normalized (m : Mat) (i : Nat) (s : ℚ × ℚ × ℚ) (hw : response m (xyz white) i ≠ 0) :
    normalize (multiply 3 m srgbToXyz) i 0 * s.1 + normalize (multiply 3 m srgbToXyz) i 1 * s.2.1 + normalize (multiply 3 m srgbToXyz) i 2 * s.2.2 =
      response m (xyz s) i / response m (xyz white) i := by
  simp only [normalize, row_sum]
  rw [if_pos hw, if_pos hw, if_pos hw, ← srgb_rows i s m]
  ring

theorem normalized_zero (m : Mat) (i : Nat) (hz : ∀ j, m i j = 0) (j : Nat) : normalize (multiply 3 m srgbToXyz) i j = 0 := by
  have : ∀ j, multiply 3 m srgbToXyz i j = 0 := by intro j; simp [multiply, sum3, hz]
  simp [normalize, this]

theorem indep_normalized (m : Mat) (n : Nat) (hn : n ≤ 4) (hd : Distinguishes m n) (hw : SeesWhite m n) :
    Indep (normalize (multiply 3 m srgbToXyz)) := by
  intro v hv
  have : xyz (v 0, v 1, v 2) = xyz (0, 0, 0) := by
    apply hd
    intro i hi
    have h1 := normalized m i (v 0, v 1, v 2) (hw i hi)
    rw [hv i (by omega)] at h1
    have h2 := hw i hi
    have h3 : response m (xyz (v 0, v 1, v 2)) i = 0 := by
      rcases div_eq_zero_iff.1 h1.symm with h | h
      · exact h
      · exact absurd h h2
    rw [h3]
    simp [response, xyz]
  have := xyz_inj _ _ this
  simp only [Prod.mk.injEq] at this
  exact this

theorem clip_id (norm : Rgb → ℚ) (s : Rgb) (h : InGamut s) : clipAvg norm s = s := by
  obtain ⟨⟨a1, a2⟩, ⟨b1, b2⟩, c1, c2⟩ := h
  have e1 : clipNeg s.1 = s.1 := if_neg (not_lt.2 a1)
  have e2 : clipNeg s.2.1 = s.2.1 := if_neg (not_lt.2 b1)
  have e3 : clipNeg s.2.2 = s.2.2 := if_neg (not_lt.2 c1)
  simp only [clipAvg, e1, e2, e3]
  rw [if_neg (not_lt.2 (max_le (max_le a2 b2) c2))]

theorem clip_grey (norm : Rgb → ℚ) (g : ℚ) : ∃ v, clipAvg norm (g, g, g) = (v, v, v) := by
  simp only [clipAvg]
  split
  · exact ⟨_, rfl⟩
  · exact ⟨_, rfl⟩

/-- The pixel before clipping, three channels -/
theorem map3_eq (norm : Rgb → ℚ) (m : Mat) (hz : ∀ j, m 3 j = 0) (hd : Distinguishes m 3) (hw : SeesWhite m 3) (wb : Quad) (p s : Rgb)
    (h0 : p.1 * wb.1 = response m (xyz s) 0 / response m (xyz white) 0) (h1 : p.2.1 * wb.2.1 = response m (xyz s) 1 / response m (xyz white) 1)
    (h2 : p.2.2 * wb.2.2.1 = response m (xyz s) 2 / response m (xyz white) 2) : map3 norm m wb p = clipAvg norm s := by
  have I := indep_normalized m 3 (by omega) hd hw
  have key : ∀ i < 3, camToRgb m i 0 * (p.1 * wb.1) + camToRgb m i 1 * (p.2.1 * wb.2.1) + camToRgb m i 2 * (p.2.2 * wb.2.2.1) =
      (if i = 0 then 1 else 0) * s.1 + (if i = 1 then 1 else 0) * s.2.1 + (if i = 2 then 1 else 0) * s.2.2 := by
    intro i hi
    rw [h0, h1, h2, ← normalized m 0 s (hw 0 (by omega)), ← normalized m 1 s (hw 1 (by omega)), ← normalized m 2 s (hw 2 (by omega))]
    rw [← pinv I i 0 hi (by omega), ← pinv I i 1 hi (by omega), ← pinv I i 2 hi (by omega)]
    rw [normalized_zero m 3 hz 0, normalized_zero m 3 hz 1, normalized_zero m 3 hz 2]
    simp only [camToRgb]
    ring
  simp only [map3]
  rw [key 0 (by omega), key 1 (by omega), key 2 (by omega)]
  simp

/-- The pixel before clipping, four channels -/
theorem map4_eq (norm : Rgb → ℚ) (m : Mat) (hd : Distinguishes m 4) (hw : SeesWhite m 4) (wb : Quad) (p : Quad) (s : Rgb)
    (h0 : p.1 * wb.1 = response m (xyz s) 0 / response m (xyz white) 0) (h1 : p.2.1 * wb.2.1 = response m (xyz s) 1 / response m (xyz white) 1)
    (h2 : p.2.2.1 * wb.2.2.1 = response m (xyz s) 2 / response m (xyz white) 2)
    (h3 : p.2.2.2 * wb.2.2.2 = response m (xyz s) 3 / response m (xyz white) 3) : map4 norm m wb p = clipAvg norm s := by
  have I := indep_normalized m 4 (by omega) hd hw
  have key : ∀ i < 3, camToRgb m i 0 * (p.1 * wb.1) + camToRgb m i 1 * (p.2.1 * wb.2.1) + camToRgb m i 2 * (p.2.2.1 * wb.2.2.1)
      + camToRgb m i 3 * (p.2.2.2 * wb.2.2.2) =
      (if i = 0 then 1 else 0) * s.1 + (if i = 1 then 1 else 0) * s.2.1 + (if i = 2 then 1 else 0) * s.2.2 := by
    intro i hi
    rw [h0, h1, h2, h3, ← normalized m 0 s (hw 0 (by omega)), ← normalized m 1 s (hw 1 (by omega)), ← normalized m 2 s (hw 2 (by omega)),
      ← normalized m 3 s (hw 3 (by omega))]
    rw [← pinv I i 0 hi (by omega), ← pinv I i 1 hi (by omega), ← pinv I i 2 hi (by omega)]
    simp only [camToRgb]
    ring
  simp only [map4]
  rw [key 0 (by omega), key 1 (by omega), key 2 (by omega)]
  simp

end Verif.Color
