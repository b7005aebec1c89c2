import Verif.Spec.Crx
import Verif.Proofs.Base

/-! Bits packed into bytes are read back. -/

namespace Verif.CrxSpec

theorem natMSB8 (b0 b1 b2 b3 b4 b5 b6 b7 : Bool) :
    natMSB [b0, b1, b2, b3, b4, b5, b6, b7] < 256 ∧ bitsMSB 8 (natMSB [b0, b1, b2, b3, b4, b5, b6, b7]) = [b0, b1, b2, b3, b4, b5, b6, b7] := by
  revert b0 b1 b2 b3 b4 b5 b6 b7; decide +kernel

theorem natMSB8' (l : List Bool) (h : l.length = 8) : natMSB l < 256 ∧ bitsMSB 8 (natMSB l) = l := by
  match l, h with
  | [b0, b1, b2, b3, b4, b5, b6, b7], _ => exact natMSB8 ..

theorem toBytes_short (l : List Bool) (h0 : l ≠ []) (h : l.length < 8) :
    toBytes l = [natMSB (l ++ List.replicate (8 - l.length) false)] := by
  match l, h0, h with
  | [_], _, _ => rfl
  | [_, _], _, _ => rfl
  | [_, _, _], _, _ => rfl
  | [_, _, _, _], _, _ => rfl
  | [_, _, _, _, _], _, _ => rfl
  | [_, _, _, _, _, _], _, _ => rfl
  | [_, _, _, _, _, _, _], _, _ => rfl
  | _ :: _ :: _ :: _ :: _ :: _ :: _ :: _ :: r, _, h => simp at h; omega

theorem toBytes_spec : ∀ (n : Nat) (l : List Bool), l.length ≤ n → ∃ pad, bytesMSB (toBytes l) = l ++ pad ∧ IsBytes (toBytes l) ∧
    (toBytes l).length = (l.length + 7) / 8 := by
  intro n
  induction n with
  | zero => intro l h; cases l with
    | nil => exact ⟨[], rfl, by simp [toBytes, IsBytes], rfl⟩
    | cons => simp at h
  | succ n ih =>
    intro l h
    by_cases h8 : l.length < 8
    · by_cases h0 : l = []
      · subst h0; exact ⟨[], rfl, by simp [toBytes, IsBytes], rfl⟩
      · have hl : (l ++ List.replicate (8 - l.length) false).length = 8 := by simp; omega
        have := natMSB8' _ hl
        rw [toBytes_short l h0 h8]
        refine ⟨List.replicate (8 - l.length) false, ?_, ?_, ?_⟩
        · simp only [bytesMSB, List.flatMap_cons, List.flatMap_nil, List.append_nil]; exact this.2
        · intro b hb; simp only [List.mem_singleton] at hb; subst hb; exact this.1
        · have : 0 < l.length := List.length_pos_iff.2 h0
          simp only [List.length_singleton]; omega
    · match l, h8, h with
      | b0 :: b1 :: b2 :: b3 :: b4 :: b5 :: b6 :: b7 :: r, _, h =>
        obtain ⟨pad, hp, hb, hl⟩ := ih r (by simp at h; omega)
        have := natMSB8 b0 b1 b2 b3 b4 b5 b6 b7
        refine ⟨pad, ?_, ?_, ?_⟩
        · simp only [bytesMSB] at hp
          simp only [toBytes, bytesMSB, List.flatMap_cons, hp, this.2]; simp
        · intro b hb'; simp only [toBytes, List.mem_cons] at hb'
          rcases hb' with rfl | hb'
          · exact this.1
          · exact hb b hb'
        · simp only [toBytes, List.length_cons, hl]; omega
      | [], h, _ => simp at h
      | [_], h, _ => simp at h
      | [_, _], h, _ => simp at h
      | [_, _, _], h, _ => simp at h
      | [_, _, _, _], h, _ => simp at h
      | [_, _, _, _, _], h, _ => simp at h
      | [_, _, _, _, _, _], h, _ => simp at h
      | [_, _, _, _, _, _, _], h, _ => simp at h

end Verif.CrxSpec
