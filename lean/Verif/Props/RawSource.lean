import Verif.Model.RawSource
/-! # C98: views of a file, from which the samples of RAF and other files are read -/

namespace Verif.Props
open Verif Verif.RawSource

theorem RawSource.wadd_eq {a b : Nat} (h : a + b < 2 ^ 64) : wadd a b = a + b := Nat.mod_eq_of_lt h

/-- **C98, plain views.** A view inside the file has the bytes asked for; any other is an error. -/
theorem C98_view (file : List Nat) (off size : Nat) (h64 : off + size < 2 ^ 64) :
    (off + size ≤ file.length → ∃ v, subview file off size = .ok v ∧ v.length = size ∧ ∀ i, i < size → v[i]? = file[off + i]?) ∧
    (file.length < off + size → subview file off size = fail') := by
  refine ⟨fun h => ⟨(file.drop off).take size, ?_, by simp; omega, fun i hi => ?_⟩, fun h => ?_⟩
  · rw [subview, RawSource.wadd_eq h64, Verif.RawSource.get, if_pos ⟨by omega, h⟩, Nat.add_sub_cancel_left]
  · rw [List.getElem?_take_of_lt hi, List.getElem?_drop]
  · rw [subview, RawSource.wadd_eq h64, Verif.RawSource.get, if_neg (by omega)]

/-- **C98, padded views.** A view inside the file has the bytes asked for and 16 more: those that follow in the file if it has as many, zeros if not. A view that
ends behind the file is an error. -/
theorem C98_padded_view (file : List Nat) (hf : file.length < 2 ^ 62) (off size : Nat) (h64 : off + size < 2 ^ 64) :
    (off + size ≤ file.length → ∃ v, subviewPadded file off size = .ok v ∧ v.length = size + 16 ∧ (∀ i, i < size → v[i]? = file[off + i]?) ∧
      ∀ i, size ≤ i → i < size + 16 → v[i]? = if off + size + 16 ≤ file.length then file[off + i]? else some 0) ∧
    (file.length < off + size → subviewPadded file off size = fail') := by
  refine ⟨fun h => ?_, fun h => ?_⟩
  · have e1 : wadd (off + size) 16 = off + size + 16 := RawSource.wadd_eq (by omega)
    have e2 : wadd size 16 = size + 16 := RawSource.wadd_eq (by omega)
    by_cases hp : off + size + 16 ≤ file.length
    · obtain ⟨v, e, hl, hv⟩ := (C98_view file off (size + 16) (by omega)).1 (by omega)
      refine ⟨v, ?_, hl, fun i hi => hv i (by omega), fun i _ hi => ?_⟩
      · rw [subviewPadded, RawSource.wadd_eq h64, if_pos h, e1, if_pos hp, e2, e]
      · rw [if_pos hp, hv i hi]
    · obtain ⟨v, e, hl, hv⟩ := (C98_view file off size h64).1 h
      refine ⟨v ++ List.replicate 16 0, ?_, by simp [hl], fun i hi => ?_, fun i h1 h2 => ?_⟩
      · rw [subviewPadded, RawSource.wadd_eq h64, if_pos h, e1, if_neg hp, e2, withCapacity, if_pos (by omega), e]
        rfl
      · rw [List.getElem?_append_left (by omega), hv i hi]
      · rw [if_neg hp, List.getElem?_append_right (by omega), List.getElem?_replicate, if_pos (by omega)]
  · rw [subviewPadded, RawSource.wadd_eq h64, if_neg (by omega)]

/-- **C98, views to the end of the file.** They have all bytes from their start and 16 zeros; one that starts at the end of the file or behind is an error. -/
theorem C98_view_to_end (file : List Nat) (hf : file.length < 2 ^ 62) (off : Nat) :
    (off < file.length → subviewEofPadded file off = .ok (file.drop off ++ List.replicate 16 0)) ∧
    (file.length ≤ off → subviewEofPadded file off = fail') := by
  refine ⟨fun h => ?_, fun h => ?_⟩
  · rw [subviewEofPadded, if_pos h, withCapacity, if_pos (by omega), subviewEof, Verif.RawSource.get, if_pos ⟨by omega, Nat.le_refl _⟩, List.take_of_length_le (by simp)]
    rfl
  · rw [subviewEofPadded, if_neg (by omega)]

/-- **C98 is false of sums above 64 bits.** A view of 2^64 - 1 bytes from the second byte is no error in any file of 16 bytes or more: it has 15 bytes, without padding. -/
theorem C98_view_wraps (file : List Nat) (h : 16 ≤ file.length) :
    subviewPadded file 1 (2 ^ 64 - 1) = .ok ((file.drop 1).take 15) := by
  have a : wadd 1 (2 ^ 64 - 1) = 0 := by decide
  have b : wadd 0 16 = 16 := by decide
  have c : wadd (2 ^ 64 - 1) 16 = 15 := by decide
  have d : wadd 1 15 = 16 := by decide
  rw [subviewPadded, a, if_pos (by omega), b, if_pos h, c, subview, d, Verif.RawSource.get, if_pos ⟨by omega, h⟩]

/-- In a shorter file, a view of 2^63 bytes from 2^63 aborts the program -/
theorem C98_view_wrap_aborts (file : List Nat) (h : file.length < 16) : subviewPadded file (2 ^ 63) (2 ^ 63) = panic' := by
  have a : wadd (2 ^ 63) (2 ^ 63) = 0 := by decide
  have b : wadd 0 16 = 16 := by decide
  have c : wadd (2 ^ 63) 16 = 2 ^ 63 + 16 := by decide
  rw [subviewPadded, a, if_pos (by omega), b, if_neg (by omega), c, withCapacity, if_neg (by omega)]
  rfl

/-- Two bytes of a file of four: its last byte is not part of the padding -/
example : (subviewPadded [1, 2, 3, 4] 1 2).toOption = some ([2, 3] ++ List.replicate 16 0) ∧ (subviewPadded [1, 2, 3, 4] 3 2).toOption = none := by decide +kernel
example : ∃ v, subviewPadded (List.range 40) 2 3 = .ok v ∧ v[2]? = some 4 ∧ v[3]? = some 5 := by
  obtain ⟨v, e, -, h, g⟩ := (C98_padded_view (List.range 40) (by simp) 2 3 (by omega)).1 (by simp)
  exact ⟨v, e, by rw [h 2 (by omega)]; rfl, by rw [g 3 (by omega) (by omega)]; rfl⟩

end Verif.Props
