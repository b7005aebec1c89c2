import Verif.Model.IiqPoly
import Verif.Props.IiqCorr
/-! # C91: polynomial curves and multipliers -/

namespace Verif.Props
open Verif Verif.Spec Verif.IiqCorr Verif.IiqPoly

theorem toWord_eq (q : ℚ) : toWord q = IiqCorr.word q := toU16_word q

theorem idxQ (l : List ℚ) (i : Nat) (h : i < l.length) : idx l i = .ok (l.getD i 0) := by
  rw [idx, List.getElem?_eq_getElem h, List.getD_eq_getElem?_getD, List.getElem?_eq_getElem h]; rfl

/-- **C91, curve of the right half.** Pixels from the split column on are changed by a polynomial of degree 2, whose factor of the value is one, plus a coefficient,
plus another one for each degree of temperature away from that of the calibration; the others are kept. -/
theorem C91_half (p : List ℚ) (hp : p.length = 8) (sc : Nat) (t : ℚ) (img : List Nat) (w h : Nat) (f : Nat → Nat → Nat) (hi : Holds img w h f) :
    ∃ out, correctHalf (some p) (some sc) (some t) w h img = .ok out ∧
      Holds out w h (fun r c => if c < sc then f r c else
        IiqCorr.word (p.getD 1 0 + (1 + p.getD 3 0 + p.getD 6 0 * (t - p.getD 7 0)) * f r c + p.getD 5 0 * (f r c) ^ 2)) := by
  refine ⟨_, ?_, holds_genRows h w _⟩
  simp only [correctHalf]
  rw [halfCurve, idxQ p 1 (by omega), idxQ p 3 (by omega), idxQ p 5 (by omega), idxQ p 6 (by omega), idxQ p 7 (by omega)]
  simp only [bind, Except.bind]
  apply genRows_ok
  intro r c hr hc
  rw [idx, hi.2 r c hr hc]
  simp only
  split
  · rfl
  · rw [toWord_eq]
    refine congrArg Except.ok (congrArg _ ?_)
    ring

/-- **C91, curve of the whole sensor.** Each pixel is changed by adding a polynomial of degree 3 of its value. -/
theorem C91_full (a b c d : ℚ) (img : List Nat) (i v : Nat) (hv : img[i]? = some v) :
    (correctFull (some [a, b, c, d]) img).length = img.length ∧
    (correctFull (some [a, b, c, d]) img)[i]? = some (IiqCorr.word (v + (a + b * v + c * (v : ℚ) ^ 2 + d * (v : ℚ) ^ 3))) := by
  refine ⟨List.length_map _, ?_⟩
  rw [correctFull]
  simp only [List.getElem?_map, hv, Option.map_some]
  rw [toWord_eq]
  refine congrArg some (congrArg _ ?_)
  simp only [horner]
  ring

/-- **C91, multipliers.** Each pixel is multiplied by one plus the number of its quadrant: the numbers 4 and 10 above the split, 14 and 18 below. -/
theorem C91_multipliers (m : List ℚ) (hm : m.length = 19) (sr sc : Nat) (img : List Nat) (w h : Nat) (f : Nat → Nat → Nat) (hi : Holds img w h f) :
    ∃ out, correctMul (some m) (some (sr, sc)) w h img = .ok out ∧
      Holds out w h (fun r c => IiqCorr.word ((1 + m.getD (if r < sr then (if c < sc then 4 else 10) else (if c < sc then 14 else 18)) 0) * f r c)) := by
  refine ⟨_, ?_, holds_genRows h w _⟩
  rw [correctMul]
  simp only []
  rw [idxQ m 4 (by omega), idxQ m 10 (by omega), idxQ m 14 (by omega), idxQ m 18 (by omega)]
  simp only [bind, Except.bind]
  apply genRows_ok
  intro r c hr hc
  rw [idx, hi.2 r c hr hc]
  simp only
  have e1 : (if r ≥ sr then 1 else 0) = if r < sr then 0 else 1 := by split <;> split <;> omega
  have e2 : (if c ≥ sc then 1 else 0) = if c < sc then 0 else 1 := by split <;> split <;> omega
  rw [e1, e2]
  by_cases h1 : r < sr <;> by_cases h2 : c < sc <;> simp only [h1, h2, if_true, if_false] <;> exact congrArg Except.ok (toWord_eq _)

/-- Without data nothing is changed; data without the split or the temperature abort. -/
theorem C91_poly_no_data (p m : List ℚ) (split : Option Nat) (s : Option (Nat × Nat)) (temp : Option ℚ) (w h : Nat) (img : List Nat) :
    correctHalf none split temp w h img = .ok img ∧ correctFull none img = img ∧ correctMul none s w h img = .ok img ∧
    correctHalf (some p) none temp w h img = panic' ∧ correctHalf (some p) split none w h img = panic' ∧ correctMul (some m) none w h img = panic' := by
  refine ⟨rfl, rfl, rfl, rfl, ?_, rfl⟩
  cases split <;> rfl

/-- A value that is doubled, at the right of the split -/
example : IiqCorr.word ((1 + (1 : ℚ)) * (7 : Nat)) = 14 ∧ IiqCorr.word ((1 + (1 : ℚ)) * (40000 : Nat)) = 65535 := by
  constructor
  · rw [show ((1 + (1 : ℚ)) * ((7 : Nat) : ℚ)) = ((14 : Int) : ℚ) by norm_num, IiqCorr.word, Rat.floor_intCast]; rfl
  · rw [show ((1 + (1 : ℚ)) * ((40000 : Nat) : ℚ)) = ((80000 : Int) : ℚ) by norm_num, IiqCorr.word, Rat.floor_intCast]; rfl

end Verif.Props
