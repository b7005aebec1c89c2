import Verif.Model.Small
import Verif.Spec.Small
import Verif.Props.PackedRows
import Verif.Props.Linearize
import Verif.Proofs.Kdc
/-! # Small raw formats: proofs -/

namespace Verif.Small
open Verif Verif.Spec Verif.Packed Verif.Kdc

theorem idx_sub (file : List Nat) (off size i : Nat) (h : off + size ≤ file.length) (hi : i < size) :
    idx ((file.drop off).take size) i = .ok (file.getD (off + i) 0) := by
  rw [idx, List.getElem?_take, if_pos hi, List.getElem?_drop, List.getD_eq_getElem?_getD, List.getElem?_eq_getElem (by omega)]; rfl

theorem le32_sub (file : List Nat) (off size i : Nat) (h : off + size ≤ file.length) (hi : i + 4 ≤ size) :
    le32 ((file.drop off).take size) i = .ok (Small.num32 file (off + i)) := by
  rw [le32, idx_sub file off size i h (by omega), idx_sub file off size (i + 1) h (by omega), idx_sub file off size (i + 2) h (by omega),
    idx_sub file off size (i + 3) h (by omega)]
  simp only [bind, Except.bind, Small.num32, Nat.add_assoc off]
  congr 1
  omega

theorem fieldMSB_prefix (n : Nat) (a b : List Nat) (p : Nat) (h : (p + 1) * n ≤ 8 * a.length) : fieldMSB n (a ++ b) p = fieldMSB n a p := by
  rw [Nat.succ_mul] at h
  have hl := length_bytesMSB a
  rw [fieldMSB, fieldMSB, bytesMSB_append, List.drop_append_of_le_length (by omega), List.take_append_of_le_length (by rw [List.length_drop]; omega)]

theorem fieldLSB_prefix (n : Nat) (a b : List Nat) (p : Nat) (h : (p + 1) * n ≤ 8 * a.length) : fieldLSB n (a ++ b) p = fieldLSB n a p := by
  rw [Nat.succ_mul] at h
  have hl := length_bytesLSB a
  rw [fieldLSB, fieldLSB, show bytesLSB (a ++ b) = bytesLSB a ++ bytesLSB b from List.flatMap_append, List.drop_append_of_le_length (by omega),
    List.take_append_of_le_length (by rw [List.length_drop]; omega)]

theorem swapWords_append (n : Nat) : ∀ (a b : List Nat), a.length = 4 * n → swapWords (a ++ b) = swapWords a ++ swapWords b := by
  induction n with
  | zero => intro a b h; rw [List.eq_nil_of_length_eq_zero (by omega : a.length = 0)]; rfl
  | succ n ih =>
    intro a b h
    match a, h with
    | w :: x :: y :: z :: r, h =>
      have := ih r b (by simp only [List.length_cons] at h; omega)
      simp only [List.cons_append, swapWords, this]

theorem length_swapWords (n : Nat) : ∀ (a : List Nat), a.length = 4 * n → (swapWords a).length = 4 * n := by
  induction n with
  | zero => intro a h; rw [List.eq_nil_of_length_eq_zero (by omega : a.length = 0)]; rfl
  | succ n ih =>
    intro a h
    match a, h with
    | w :: x :: y :: z :: r, h =>
      have := ih r (by simp only [List.length_cons] at h; omega)
      simp only [swapWords, List.length_cons, this]; omega

/-- The padded data begin with the bytes that a picture needs -/
theorem padded_split (file : List Nat) (off n : Nat) (h : n ≤ file.length - off + 16) :
    ∃ rest, file.drop off ++ List.replicate 16 0 = Small.bytes file off n ++ rest ∧ (Small.bytes file off n).length = n := by
  refine ⟨(file.drop off ++ List.replicate 16 0).drop n, ?_, by rw [Small.bytes]; simp⟩
  have : Small.bytes file off n = (file.drop off ++ List.replicate 16 0).take n := by
    apply List.ext_getElem?
    intro i
    rw [Small.bytes, List.getElem?_take, List.getElem?_take]
    split
    · rename_i hi
      by_cases hd : i < (file.drop off).length
      · rw [List.getElem?_append_left hd, List.getElem?_append_left hd]
      · rw [List.getElem?_append_right (by omega), List.getElem?_append_right (by omega)]
        rw [List.length_drop] at hd ⊢
        rw [List.getElem?_replicate, List.getElem?_replicate, if_pos (by omega), if_pos (by omega)]
    · rfl
  rw [this, List.take_append_drop]

/-- For a file with all the bytes, they are those of the file -/
theorem bytes_complete (file : List Nat) (off n : Nat) (h : n ≤ file.length - off) : Small.bytes file off n = (file.drop off).take n := by
  rw [Small.bytes, List.take_append_of_le_length (by rw [List.length_drop]; exact h)]

theorem padded_bytes (file : List Nat) (hb : IsBytes file) (off : Nat) : IsBytes (file.drop off ++ List.replicate 16 0) := by
  intro b hm
  rcases List.mem_append.mp hm with h | h
  · exact hb b (List.mem_of_mem_drop h)
  · rw [(List.mem_replicate.mp h).2]; decide

theorem padded_length (file : List Nat) (off : Nat) : (file.drop off ++ List.replicate 16 0).length = file.length - off + 16 := by simp

/-- The image of an ARRI file, little endian -/
theorem ari_le (file : List Nat) (hb : IsBytes file) (off w h : Nat) (h0 : 0 < w) (hw : w % 2 = 0) :
    if h * w * 12 / 8 ≤ file.length - off + 16 then ∃ img, dec12le (file.drop off ++ List.replicate 16 0) w h = .ok img ∧
      Holds img w h (fun r c => fieldLSB 12 (Small.bytes file off (h * w * 12 / 8)) (r * w + c))
    else dec12le (file.drop off ++ List.replicate 16 0) w h = fail' := by
  have h8 : 8 * (h * w * 12 / 8) = h * w * 12 := by
    obtain ⟨q, rfl⟩ : ∃ q, w = 2 * q := ⟨w / 2, by omega⟩
    have : h * (2 * q) * 12 = 8 * (h * q * 3) := by rw [Nat.mul_left_comm h 2 q]; omega
    omega
  by_cases hl : h * w * 12 / 8 ≤ file.length - off + 16
  · rw [if_pos hl]
    obtain ⟨img, h1, h2⟩ := Props.C13_12le _ (padded_bytes file hb off) w h h0 hw (by rw [padded_length]; omega)
    refine ⟨img, h1, h2.1, fun r c hr hc => ?_⟩
    obtain ⟨rest, e, el⟩ := padded_split file off _ hl
    rw [h2.2 r c hr hc, e]
    exact congrArg some (fieldLSB_prefix 12 _ _ _ (by rw [el, h8]; exact Nat.mul_le_mul_right _ (Verif.mul_add_lt hr hc)))
  · rw [if_neg hl, dec12le, rowsAt, if_pos (by rw [padded_length]; omega)]

/-- The image of an ARRI file, words of 32 bits -/
theorem ari_be (file : List Nat) (hb : IsBytes file) (off w h : Nat) (hw : w * h % 8 = 0) :
    if h * w * 12 / 8 ≤ file.length - off + 16 then ∃ img, dec12beMsb32 (file.drop off ++ List.replicate 16 0) w h = .ok img ∧
      Holds img w h (fun r c => fieldMSB 12 (swapWords (Small.bytes file off (h * w * 12 / 8))) (r * w + c))
    else dec12beMsb32 (file.drop off ++ List.replicate 16 0) w h = fail' := by
  have hc := Nat.mul_comm w h
  have h8 : 8 * (h * w * 12 / 8) = h * w * 12 := by omega
  by_cases hl : h * w * 12 / 8 ≤ file.length - off + 16
  · rw [if_pos hl]
    obtain ⟨img, h1, h2⟩ := Props.C13_12be_msb32 _ (padded_bytes file hb off) w h hw (by rw [padded_length]; omega)
    refine ⟨img, h1, h2.1, fun r c hr hc => ?_⟩
    obtain ⟨rest, e, el⟩ := padded_split file off _ hl
    have e4 : (Small.bytes file off (h * w * 12 / 8)).length = 4 * (h * w * 12 / 32) := by rw [el]; omega
    rw [h2.2 r c hr hc, e, swapWords_append _ _ _ e4]
    exact congrArg some (fieldMSB_prefix 12 _ _ _ (by
      rw [length_swapWords _ _ e4, ← e4, el, h8]; exact Nat.mul_le_mul_right _ (Verif.mul_add_lt hr hc)))
  · rw [if_neg hl, dec12beMsb32, wholeImage, if_pos (by rw [padded_length]; omega)]

end Verif.Small
