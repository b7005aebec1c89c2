import Verif.Spec.Tiff
import Verif.Props.Float
/-! # TIFF: bytes, values and entries -/

namespace Verif.Tiff
open Verif Verif.Spec Verif.Props

theorem le_length (n v : Nat) : (le n v).length = n := by
  induction n generalizing v with
  | zero => rfl
  | succ n ih => simp [le, ih]

theorem le_bytes (n v : Nat) : IsBytes (le n v) := by
  induction n generalizing v with
  | zero => intro x hx; simp [le] at hx
  | succ n ih =>
    intro x hx
    simp only [le, List.mem_cons] at hx
    rcases hx with rfl | hx
    · exact Nat.mod_lt _ (by decide)
    · exact ih _ x hx

theorem numLE_le (n v : Nat) : numLE (le n v) = v % 256 ^ n := by
  induction n generalizing v with
  | zero => simp [le, numLE, Nat.mod_one]
  | succ n ih =>
    rw [le, numLE, ih, Nat.pow_succ', Nat.mod_mul]

theorem num_le (n v : Nat) (h : v < 256 ^ n) : num .little (le n v) = v := by
  rw [num, numLE_le, Nat.mod_eq_of_lt h]

/-! ## Finding bytes -/

theorem At.rd {F : List Nat} {o : Nat} {b : List Nat} (h : At F o b) {n : Nat} (hn : n = b.length) : rd F o n = some b := by
  subst hn
  rw [Tiff.rd, if_pos h.1, h.2]

theorem At.left {F : List Nat} {o : Nat} {a b : List Nat} (h : At F o (a ++ b)) : At F o a := by
  obtain ⟨h1, h2⟩ := h
  rw [List.length_append] at h1 h2
  refine ⟨by omega, ?_⟩
  have := congrArg (List.take a.length) h2
  rw [List.take_take, Nat.min_eq_left (by omega), List.take_left] at this
  exact this

theorem At.right {F : List Nat} {o : Nat} {a b : List Nat} (h : At F o (a ++ b)) : At F (o + a.length) b := by
  obtain ⟨h1, h2⟩ := h
  rw [List.length_append] at h1 h2
  refine ⟨by omega, ?_⟩
  have := congrArg (List.drop a.length) h2
  rw [List.drop_take, List.drop_drop, List.drop_left, Nat.add_sub_cancel_left] at this
  exact this

theorem At.take {F : List Nat} {o : Nat} {b : List Nat} (h : At F o b) (n : Nat) : At F o (b.take n) := by
  have : At F o (b.take n ++ b.drop n) := by rw [List.take_append_drop]; exact h
  exact At.left this

/-! ## Values -/

theorem groups_flatMap (n : Nat) (hn : 0 < n) (v : List Nat) (hv : ∀ x ∈ v, x < 256 ^ n) : groups .little n (v.flatMap (le n)) = v := by
  have hrow : ∀ r ∈ v.map (le n), r.length = n := by
    intro r hr
    obtain ⟨x, _, rfl⟩ := List.mem_map.mp hr
    exact le_length n x
  have hlen : (v.flatMap (le n)).length = v.length * n := by
    rw [List.flatMap_def, flatten_length n _ hrow, List.length_map]
  rw [groups, hlen, Nat.mul_div_cancel _ hn]
  apply List.ext_getElem
  · simp
  · intro i h1 h2
    simp only [List.getElem_map, List.getElem_range]
    rw [List.flatMap_def, flatten_chunk n _ hrow i (by simpa using h2), List.getElem_map, num_le n _ (hv _ (List.getElem_mem _))]

theorem pairUp_flatten (v : List (Nat × Nat)) : pairUp (v.flatMap fun x => [x.1, x.2]) = v := by
  induction v with
  | nil => rfl
  | cons x v ih => simp [pairUp, ih]

theorem pair_bytes (v : List (Nat × Nat)) : (v.flatMap fun x => le 4 x.1 ++ le 4 x.2) = (v.flatMap fun x => [x.1, x.2]).flatMap (le 4) := by
  induction v with
  | nil => rfl
  | cons x v ih => simp [ih]

theorem flatMap_le_length (n : Nat) (v : List Nat) : (v.flatMap (le n)).length = v.length * n := by
  rw [List.flatMap_def, flatten_length n, List.length_map]
  intro r hr
  obtain ⟨x, _, rfl⟩ := List.mem_map.mp hr
  exact le_length n x

theorem findIdx_append_zero (s : List Nat) (h : ∀ x ∈ s, 0 < x) (rest : List Nat) : (s ++ 0 :: rest).findIdx? (· == 0) = some s.length := by
  induction s with
  | nil => rw [List.nil_append, List.findIdx?_cons]; rfl
  | cons x s ih =>
    have hx := h x List.mem_cons_self
    rw [List.cons_append, List.findIdx?_cons, if_neg (by simpa using Nat.ne_of_gt hx), ih (fun y hy => h y (List.mem_cons_of_mem _ hy))]
    rfl

theorem withNul_one (a : Ascii) (s : List Nat) (h : a.strings = [s]) (h0 : 0 ∉ s) : a.withNul = .ok (s ++ [0]) := by
  rw [Ascii.withNul, h]
  simp [h0, bind, Except.bind, pure, Except.pure]

theorem pairs_length (v : List (Nat × Nat)) : (v.flatMap fun x => [x.1, x.2]).length = v.length * 2 := by
  induction v with
  | nil => rfl
  | cons x v ih => rw [List.flatMap_cons, List.length_append, ih, List.length_cons]; simp; omega

/-- Written bytes have the announced size and decode to the value. -/
theorem write_decode (utf8 : List Nat → Bool) (v : Value) (ht : Typed utf8 v) (hs : Storable v) :
    ∃ b, v.write = .ok b ∧ b.length = v.byteSize ∧ v.byteSize = v.count * elemSize v.type ∧ v.type < 2 ^ 16 ∧
      content (decodeValue utf8 .little v.type b) = content v := by
  cases v with
  | byte v => exact ⟨v, rfl, rfl, by simp [Value.byteSize, Value.count, elemSize, Value.type], by rw [Value.type]; decide, rfl⟩
  | sbyte v => exact ⟨v, rfl, rfl, by simp [Value.byteSize, Value.count, elemSize, Value.type], by rw [Value.type]; decide, rfl⟩
  | undefined v => exact ⟨v, rfl, rfl, by simp [Value.byteSize, Value.count, elemSize, Value.type], by rw [Value.type]; decide, rfl⟩
  | unknown t v =>
    refine ⟨v, rfl, rfl, ?_, ht.2.1, ?_⟩
    · have : elemSize t = 1 := by
        rcases ht.1 with rfl | h
        · rfl
        · rw [elemSize, List.getD_eq_getElem?_getD, List.getElem?_eq_none (by simp; omega)]; rfl
      simp [Value.byteSize, Value.count, Value.type, this]
    · have := ht.1
      rw [Value.type, decodeValue, if_neg (by omega), if_neg (by omega), if_neg (by omega), if_neg (by omega), if_neg (by omega), if_neg (by omega),
        if_neg (by omega), if_neg (by omega), if_neg (by omega), if_neg (by omega), if_neg (by omega), if_neg (by omega)]
  | short v =>
    exact ⟨_, rfl, flatMap_le_length 2 v, rfl, by rw [Value.type]; decide, by rw [Value.type, decodeValue]; simp [groups_flatMap 2 (by decide) v ht]⟩
  | sshort v =>
    exact ⟨_, rfl, flatMap_le_length 2 v, rfl, by rw [Value.type]; decide, by rw [Value.type, decodeValue]; simp [groups_flatMap 2 (by decide) v ht]⟩
  | long v =>
    exact ⟨_, rfl, flatMap_le_length 4 v, rfl, by rw [Value.type]; decide, by rw [Value.type, decodeValue]; simp [groups_flatMap 4 (by decide) v ht]⟩
  | slong v =>
    exact ⟨_, rfl, flatMap_le_length 4 v, rfl, by rw [Value.type]; decide, by rw [Value.type, decodeValue]; simp [groups_flatMap 4 (by decide) v ht]⟩
  | float v =>
    exact ⟨_, rfl, flatMap_le_length 4 v, rfl, by rw [Value.type]; decide, by rw [Value.type, decodeValue]; simp [groups_flatMap 4 (by decide) v ht]⟩
  | double v =>
    exact ⟨_, rfl, flatMap_le_length 8 v, rfl, by rw [Value.type]; decide, by rw [Value.type, decodeValue]; simp [groups_flatMap 8 (by decide) v ht]⟩
  | rational v =>
    have hv : ∀ x ∈ (v.flatMap fun x => [x.1, x.2]), x < 256 ^ 4 := by
      intro x hx
      simp only [List.mem_flatMap, List.mem_cons, List.not_mem_nil, or_false] at hx
      obtain ⟨p, hp, rfl | rfl⟩ := hx
      · exact (ht p hp).1
      · exact (ht p hp).2
    refine ⟨_, rfl, ?_, rfl, by rw [Value.type]; decide, ?_⟩
    · rw [pair_bytes, flatMap_le_length, Value.byteSize, pairs_length]; omega
    · rw [Value.type, decodeValue, pair_bytes, groups_flatMap 4 (by decide) _ hv, pairUp_flatten]; simp
  | srational v =>
    have hv : ∀ x ∈ (v.flatMap fun x => [x.1, x.2]), x < 256 ^ 4 := by
      intro x hx
      simp only [List.mem_flatMap, List.mem_cons, List.not_mem_nil, or_false] at hx
      obtain ⟨p, hp, rfl | rfl⟩ := hx
      · exact (ht p hp).1
      · exact (ht p hp).2
    refine ⟨_, rfl, ?_, rfl, by rw [Value.type]; decide, ?_⟩
    · rw [pair_bytes, flatMap_le_length, Value.byteSize, pairs_length]; omega
    · rw [Value.type, decodeValue, pair_bytes, groups_flatMap 4 (by decide) _ hv, pairUp_flatten]; simp
  | ascii a =>
    obtain ⟨s, hstr⟩ := List.length_eq_one_iff.mp hs
    have hts := ht s (by rw [hstr]; exact List.mem_singleton_self s)
    have h0 : 0 ∉ s := fun h => by have := (hts.1 0 h).1; omega
    refine ⟨s ++ [0], withNul_one a s hstr h0, ?_, ?_, by rw [Value.type]; decide, ?_⟩
    · simp [Value.byteSize, Ascii.count, hstr]
    · simp [Value.byteSize, Value.count, elemSize, Value.type]
    · rw [Value.type, decodeValue]
      simp [Ascii.fromRaw, findIdx_append_zero s (fun x hx => (hts.1 x hx).1) [], hts.2, content, hstr]

end Verif.Tiff
