import Verif.Proofs.CrxPlaneSrc
import Verif.Proofs.CrxPlane

namespace Verif.Crx

open CrxSpec Wav

theorem exG_1 (pw : Nat) :
    (pw % 8 = 0 ∧ exG 1 pw 0 = 1 ∧ exG 1 pw 1 = 1) ∨
    (pw % 8 = 1 ∧ exG 1 pw 0 = 1 ∧ exG 1 pw 1 = 0) ∨
    (pw % 8 = 2 ∧ exG 1 pw 0 = 1 ∧ exG 1 pw 1 = 1) ∨
    (pw % 8 = 3 ∧ exG 1 pw 0 = 1 ∧ exG 1 pw 1 = 0) ∨
    (pw % 8 = 4 ∧ exG 1 pw 0 = 1 ∧ exG 1 pw 1 = 1) ∨
    (pw % 8 = 5 ∧ exG 1 pw 0 = 1 ∧ exG 1 pw 1 = 0) ∨
    (pw % 8 = 6 ∧ exG 1 pw 0 = 1 ∧ exG 1 pw 1 = 1) ∨
    (pw % 8 = 7 ∧ exG 1 pw 0 = 1 ∧ exG 1 pw 1 = 0) := by
  have h : pw % 8 = 0 ∨ pw % 8 = 1 ∨ pw % 8 = 2 ∨ pw % 8 = 3 ∨ pw % 8 = 4 ∨ pw % 8 = 5 ∨ pw % 8 = 6 ∨ pw % 8 = 7 := by omega
  unfold exG
  rcases h with h | h | h | h | h | h | h | h <;> rw [h] <;> simp [exCoef]

theorem exG_2 (pw : Nat) :
    (pw % 8 = 0 ∧ exG 2 pw 0 = 1 ∧ exG 2 pw 1 = 1 ∧ exG 2 pw 2 = 1 ∧ exG 2 pw 3 = 1) ∨
    (pw % 8 = 1 ∧ exG 2 pw 0 = 1 ∧ exG 2 pw 1 = 0 ∧ exG 2 pw 2 = 1 ∧ exG 2 pw 3 = 0) ∨
    (pw % 8 = 2 ∧ exG 2 pw 0 = 1 ∧ exG 2 pw 1 = 2 ∧ exG 2 pw 2 = 2 ∧ exG 2 pw 3 = 1) ∨
    (pw % 8 = 3 ∧ exG 2 pw 0 = 1 ∧ exG 2 pw 1 = 1 ∧ exG 2 pw 2 = 1 ∧ exG 2 pw 3 = 1) ∨
    (pw % 8 = 4 ∧ exG 2 pw 0 = 1 ∧ exG 2 pw 1 = 1 ∧ exG 2 pw 2 = 1 ∧ exG 2 pw 3 = 1) ∨
    (pw % 8 = 5 ∧ exG 2 pw 0 = 1 ∧ exG 2 pw 1 = 0 ∧ exG 2 pw 2 = 1 ∧ exG 2 pw 3 = 0) ∨
    (pw % 8 = 6 ∧ exG 2 pw 0 = 1 ∧ exG 2 pw 1 = 2 ∧ exG 2 pw 2 = 2 ∧ exG 2 pw 3 = 1) ∨
    (pw % 8 = 7 ∧ exG 2 pw 0 = 1 ∧ exG 2 pw 1 = 1 ∧ exG 2 pw 2 = 1 ∧ exG 2 pw 3 = 1) := by
  have h : pw % 8 = 0 ∨ pw % 8 = 1 ∨ pw % 8 = 2 ∨ pw % 8 = 3 ∨ pw % 8 = 4 ∨ pw % 8 = 5 ∨ pw % 8 = 6 ∨ pw % 8 = 7 := by omega
  unfold exG
  rcases h with h | h | h | h | h | h | h | h <;> rw [h] <;> simp [exCoef]

theorem exG_3 (pw : Nat) :
    (pw % 8 = 0 ∧ exG 3 pw 0 = 1 ∧ exG 3 pw 1 = 1 ∧ exG 3 pw 2 = 1 ∧ exG 3 pw 3 = 1 ∧ exG 3 pw 4 = 1 ∧ exG 3 pw 5 = 1) ∨
    (pw % 8 = 1 ∧ exG 3 pw 0 = 1 ∧ exG 3 pw 1 = 0 ∧ exG 3 pw 2 = 1 ∧ exG 3 pw 3 = 0 ∧ exG 3 pw 4 = 1 ∧ exG 3 pw 5 = 0) ∨
    (pw % 8 = 2 ∧ exG 3 pw 0 = 1 ∧ exG 3 pw 1 = 2 ∧ exG 3 pw 2 = 2 ∧ exG 3 pw 3 = 2 ∧ exG 3 pw 4 = 2 ∧ exG 3 pw 5 = 1) ∨
    (pw % 8 = 3 ∧ exG 3 pw 0 = 1 ∧ exG 3 pw 1 = 1 ∧ exG 3 pw 2 = 1 ∧ exG 3 pw 3 = 2 ∧ exG 3 pw 4 = 2 ∧ exG 3 pw 5 = 1) ∨
    (pw % 8 = 4 ∧ exG 3 pw 0 = 1 ∧ exG 3 pw 1 = 1 ∧ exG 3 pw 2 = 1 ∧ exG 3 pw 3 = 2 ∧ exG 3 pw 4 = 2 ∧ exG 3 pw 5 = 1) ∨
    (pw % 8 = 5 ∧ exG 3 pw 0 = 1 ∧ exG 3 pw 1 = 0 ∧ exG 3 pw 2 = 1 ∧ exG 3 pw 3 = 1 ∧ exG 3 pw 4 = 1 ∧ exG 3 pw 5 = 1) ∨
    (pw % 8 = 6 ∧ exG 3 pw 0 = 1 ∧ exG 3 pw 1 = 2 ∧ exG 3 pw 2 = 2 ∧ exG 3 pw 3 = 1 ∧ exG 3 pw 4 = 1 ∧ exG 3 pw 5 = 1) ∨
    (pw % 8 = 7 ∧ exG 3 pw 0 = 1 ∧ exG 3 pw 1 = 1 ∧ exG 3 pw 2 = 1 ∧ exG 3 pw 3 = 1 ∧ exG 3 pw 4 = 1 ∧ exG 3 pw 5 = 1) := by
  have h : pw % 8 = 0 ∨ pw % 8 = 1 ∨ pw % 8 = 2 ∨ pw % 8 = 3 ∨ pw % 8 = 4 ∨ pw % 8 = 5 ∨ pw % 8 = 6 ∨ pw % 8 = 7 := by omega
  unfold exG
  rcases h with h | h | h | h | h | h | h | h <;> rw [h] <;> simp [exCoef]

/-- The widths of a tile in its levels -/
def rowTiles : Nat → List LevelSize → List TileW
  | _, [] => []
  | w, s :: ls => ⟨w, s.wHigh, s.wLow⟩ :: rowTiles s.wLow ls


theorem tileOK_right (left : Bool) (levels pw ph W x0 : Nat) (h0 : 0 < levels) (h3 : levels ≤ 3) (hp : 17 ≤ pw) (hh : 9 ≤ ph)
    (hx : x0 % 2 ^ levels = 0) (hl : left = false → x0 = 0) (hW : x0 + pw + 16 ≤ W) :
    TileOK left true (rowTiles pw (rowLevels left true levels pw levels 0 pw ph)) ph W x0 (exL true levels pw + halved levels pw) := by
  have h : levels = 1 ∨ levels = 2 ∨ levels = 3 := by omega
  have hl' : left = false → x0 / 2 = 0 := fun h => by rw [hl h]
  have hl'' : left = false → x0 / 2 / 2 = 0 := fun h => by rw [hl h]
  rcases h with rfl | rfl | rfl
  · simp only [rowLevels, rowTiles, TileOK, belowW, needLow, needHigh, ex0, ex1, exL, halved, if_true, Nat.reduceAdd, Nat.reduceMul, Nat.reduceSub, Nat.reducePow, Nat.zero_add] at *
    rcases exG_1 pw with e | e | e | e | e | e | e | e <;> simp only [e, forall_const] <;> refine ⟨?_, ?_, ?_, ?_, hl, ?_, ?_, ?_, ?_, trivial⟩ <;> omega
  · simp only [rowLevels, rowTiles, TileOK, belowW, needLow, needHigh, ex0, ex1, exL, halved, if_true, Nat.reduceAdd, Nat.reduceMul, Nat.reduceSub, Nat.reducePow, Nat.zero_add] at *
    rcases exG_2 pw with e | e | e | e | e | e | e | e <;> simp only [e, forall_const] <;>
      refine ⟨?_, ?_, ?_, ?_, hl, ?_, ?_, ?_, ?_, ?_, ?_, ?_, ?_, hl', ?_, ?_, ?_, ?_, trivial⟩ <;> omega
  · simp only [rowLevels, rowTiles, TileOK, belowW, needLow, needHigh, ex0, ex1, exL, halved, if_true, Nat.reduceAdd, Nat.reduceMul, Nat.reduceSub, Nat.reducePow, Nat.zero_add] at *
    rcases exG_3 pw with e | e | e | e | e | e | e | e <;> simp only [e, forall_const] <;>
      refine ⟨?_, ?_, ?_, ?_, hl, ?_, ?_, ?_, ?_, ?_, ?_, ?_, ?_, hl', ?_, ?_, ?_, ?_, ?_, ?_, ?_, ?_, hl'', ?_, ?_, ?_, ?_, trivial⟩ <;> omega

theorem tileOK_last (left : Bool) (levels pw ph W x0 : Nat) (h0 : 0 < levels) (h3 : levels ≤ 3) (hp : 9 ≤ pw) (hh : 9 ≤ ph)
    (hx : x0 % 2 ^ levels = 0) (hl : left = false → x0 = 0) (hW : x0 + pw = W) :
    TileOK left false (rowTiles pw (rowLevels left false levels pw levels 0 pw ph)) ph W x0 (exL false levels pw + halved levels pw) := by
  have h : levels = 1 ∨ levels = 2 ∨ levels = 3 := by omega
  have hl' : left = false → x0 / 2 = 0 := fun h => by rw [hl h]
  have hl'' : left = false → x0 / 2 / 2 = 0 := fun h => by rw [hl h]
  rcases h with rfl | rfl | rfl
  · simp only [rowLevels, rowTiles, TileOK, belowW, needLow, needHigh, ex0, ex1, exL, halved, Bool.false_eq_true, if_false, Nat.reduceAdd, Nat.reduceMul, Nat.reduceSub, Nat.reducePow, Nat.zero_add, Nat.add_zero, false_implies, implies_true] at *
    refine ⟨?_, ?_, trivial, ?_, hl, ?_, ?_, ?_, ?_, trivial⟩ <;> omega
  · simp only [rowLevels, rowTiles, TileOK, belowW, needLow, needHigh, ex0, ex1, exL, halved, Bool.false_eq_true, if_false, Nat.reduceAdd, Nat.reduceMul, Nat.reduceSub, Nat.reducePow, Nat.zero_add, Nat.add_zero, false_implies, implies_true] at *
    refine ⟨?_, ?_, trivial, ?_, hl, ?_, ?_, ?_, ?_, ?_, ?_, trivial, ?_, hl', ?_, ?_, ?_, ?_, trivial⟩ <;> omega
  · simp only [rowLevels, rowTiles, TileOK, belowW, needLow, needHigh, ex0, ex1, exL, halved, Bool.false_eq_true, if_false, Nat.reduceAdd, Nat.reduceMul, Nat.reduceSub, Nat.reducePow, Nat.zero_add, Nat.add_zero, false_implies, implies_true] at *
    refine ⟨?_, ?_, trivial, ?_, hl, ?_, ?_, ?_, ?_, ?_, ?_, trivial, ?_, hl', ?_, ?_, ?_, ?_, ?_, ?_, trivial, ?_, hl'', ?_, ?_, ?_, ?_, trivial⟩ <;> omega

end Verif.Crx
