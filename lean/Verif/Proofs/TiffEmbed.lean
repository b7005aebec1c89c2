import Verif.Proofs.Tiff
/-! # TIFF: values stored inside their entry -/

namespace Verif.Tiff
open Verif Verif.Spec Verif.Props

theorem or_mul (k a m : Nat) (h : a < 2 ^ k) : a ||| m * 2 ^ k = a + m * 2 ^ k := by
  have := Nat.shiftLeft_add_eq_or_of_lt h m
  rw [Nat.shiftLeft_eq] at this
  rw [Nat.or_comm, ← this, Nat.add_comm]

theorem or_shift_mod (k a x : Nat) (hk : k ≤ 32) (h : a < 2 ^ k) : a ||| (x <<< k) % 2 ^ 32 = a + (x % 2 ^ (32 - k)) * 2 ^ k := by
  have : (x <<< k) % 2 ^ 32 = (x % 2 ^ (32 - k)) * 2 ^ k := by
    have h32 : (2 : Nat) ^ 32 = 2 ^ (32 - k) * 2 ^ k := by rw [← Nat.pow_add, Nat.sub_add_cancel hk]
    rw [Nat.shiftLeft_eq, h32, Nat.mul_mod_mul_right]
  rw [this, or_mul k a _ h]

theorem zero_shift (k : Nat) : (0 <<< k) % 2 ^ 32 = 0 := by simp

/-- The first bytes of `embed4 w`, when all but the last number are bytes, are the low bytes of the numbers. -/
theorem embed4_take (w : List Nat) (h4 : w.length ≤ 4) (hd : ∀ x ∈ w.dropLast, x < 256) :
    (le 4 (embed4 w)).take w.length = w.map (· % 256) := by
  match w, h4, hd with
  | [], _, _ => rfl
  | [a], _, _ =>
    simp only [embed4, List.getD_cons_zero, List.getD_cons_succ, List.getD_nil, zero_shift, Nat.or_zero]
    simp [le]
  | [a, b], _, hd =>
    have ha : a < 256 := hd a (by simp)
    simp only [embed4, List.getD_cons_zero, List.getD_cons_succ, List.getD_nil, zero_shift, Nat.or_zero]
    rw [or_shift_mod 8 a b (by decide) ha]
    simp [le]
    omega
  | [a, b, c], _, hd =>
    have ha : a < 256 := hd a (by simp)
    have hb : b < 256 := hd b (by simp)
    simp only [embed4, List.getD_cons_zero, List.getD_cons_succ, List.getD_nil, zero_shift, Nat.or_zero]
    rw [or_shift_mod 8 a b (by decide) ha, or_shift_mod 16 _ c (by decide) (by omega)]
    simp [le]
    omega
  | [a, b, c, d], _, hd =>
    have ha : a < 256 := hd a (by simp)
    have hb : b < 256 := hd b (by simp)
    have hc : c < 256 := hd c (by simp)
    simp only [embed4, List.getD_cons_zero, List.getD_cons_succ]
    rw [or_shift_mod 8 a b (by decide) ha, or_shift_mod 16 _ c (by decide) (by omega), or_shift_mod 24 _ d (by decide) (by omega)]
    simp [le]
    omega

theorem embed4_bytes (w : List Nat) (h4 : w.length ≤ 4) (hw : ∀ x ∈ w, x < 256) : (le 4 (embed4 w)).take w.length = w := by
  rw [embed4_take w h4 fun x hx => hw x ((List.dropLast_sublist _).subset hx)]
  conv => rhs; rw [← List.map_id w]
  exact List.map_congr_left fun x hx => Nat.mod_eq_of_lt (hw x hx)

theorem embed2_take (w : List Nat) (h0 : w ≠ []) (h2 : w.length ≤ 2) (hd : ∀ x ∈ w.dropLast, x < 2 ^ 16) :
    ∃ e, embed2 w = .ok e ∧ (le 4 e).take (w.length * 2) = w.flatMap (le 2) := by
  match w, h0, h2, hd with
  | [a], _, _, _ =>
    refine ⟨_, rfl, ?_⟩
    simp only [List.getD_cons_succ, List.getD_nil, zero_shift, Nat.or_zero]
    simp [le]
  | [a, b], _, _, hd =>
    have ha : a < 2 ^ 16 := hd a (by simp)
    refine ⟨_, rfl, ?_⟩
    simp only [List.getD_cons_succ, List.getD_cons_zero]
    rw [or_shift_mod 16 a b (by decide) ha]
    simp [le]
    omega

theorem sext8_mod (x : Nat) (h : x < 2 ^ 8) : sext 8 x % 256 = x := by
  unfold sext; split <;> omega

theorem sext16_le (x : Nat) (h : x < 2 ^ 16) : le 2 (sext 16 x) = le 2 x := by
  unfold sext; split
  · rfl
  · simp [le]; omega

/-- The entry field of a storable value begins with the bytes that `write` produces. -/
theorem embedded_bytes (utf8 : List Nat → Bool) (v : Value) (ht : Typed utf8 v) (hs : Storable v) (h4 : v.byteSize ≤ 4) :
    0 < v.count ∧ ∃ e b, v.asEmbedded = .ok e ∧ v.write = .ok b ∧ (le 4 e).take v.byteSize = b := by
  cases v with
  | byte v =>
    have hs : 0 < v.length := hs
    refine ⟨hs, embed4 v, v, ?_, rfl, embed4_bytes v h4 ht⟩
    rw [Value.asEmbedded, Value.count, Value.byteSize, if_neg (Nat.ne_of_gt hs), if_neg (Nat.not_lt.mpr (show v.length ≤ 4 from h4))]
  | undefined v =>
    have hs : 0 < v.length := hs
    refine ⟨hs, embed4 v, v, ?_, rfl, embed4_bytes v h4 ht⟩
    rw [Value.asEmbedded, Value.count, Value.byteSize, if_neg (Nat.ne_of_gt hs), if_neg (Nat.not_lt.mpr (show v.length ≤ 4 from h4))]
  | unknown t v =>
    have hs : 0 < v.length := hs
    refine ⟨hs, embed4 v, v, ?_, rfl, embed4_bytes v h4 ht.2.2⟩
    rw [Value.asEmbedded, Value.count, Value.byteSize, if_neg (Nat.ne_of_gt hs), if_neg (Nat.not_lt.mpr (show v.length ≤ 4 from h4))]
  | sbyte v =>
    have hpos : 0 < v.length := List.length_pos_iff.mpr hs.1
    refine ⟨hpos, embed4 (v.map (sext 8)), v, ?_, rfl, ?_⟩
    · rw [Value.asEmbedded, Value.count, Value.byteSize, if_neg (Nat.ne_of_gt hpos), if_neg (Nat.not_lt.mpr (show v.length ≤ 4 from h4))]
    · have := embed4_take (v.map (sext 8)) (by rw [List.length_map]; exact h4) ?_
      · rw [List.length_map] at this
        rw [Value.byteSize, this, List.map_map]
        conv => rhs; rw [← List.map_id v]
        exact List.map_congr_left fun x hx => sext8_mod x (ht x hx)
      · intro x hx
        rw [← List.map_dropLast, List.mem_map] at hx
        obtain ⟨y, hy, rfl⟩ := hx
        have := hs.2 h4 y hy
        rw [sext, if_pos (by simpa using this)]; omega
  | short v =>
    have hs : 0 < v.length := hs
    have h4 : v.length * 2 ≤ 4 := h4
    obtain ⟨e, he, hb⟩ := embed2_take v (List.length_pos_iff.mp hs) (by omega) fun x hx => ht x ((List.dropLast_sublist _).subset hx)
    refine ⟨hs, e, _, ?_, rfl, hb⟩
    rw [Value.asEmbedded, Value.count, Value.byteSize, if_neg (Nat.ne_of_gt hs), if_neg (Nat.not_lt.mpr h4)]; exact he
  | sshort v =>
    have hpos : 0 < v.length := List.length_pos_iff.mpr hs.1
    have h4 : v.length * 2 ≤ 4 := h4
    obtain ⟨e, he, hb⟩ := embed2_take (v.map (sext 16)) (by simpa using hs.1) (by simp; omega) (by
      intro x hx
      rw [← List.map_dropLast, List.mem_map] at hx
      obtain ⟨y, hy, rfl⟩ := hx
      have := hs.2 (by omega) y hy
      rw [sext, if_pos (by simpa using this)]; omega)
    refine ⟨hpos, e, _, ?_, rfl, ?_⟩
    · rw [Value.asEmbedded, Value.count, Value.byteSize, if_neg (Nat.ne_of_gt hpos), if_neg (Nat.not_lt.mpr h4)]; exact he
    · rw [List.length_map] at hb
      rw [Value.byteSize, hb, List.flatMap_def, List.flatMap_def, List.map_map]
      exact congrArg _ (List.map_congr_left fun x hx => sext16_le x (ht x hx))
  | long v =>
    have hs : 0 < v.length := hs
    have h4 : v.length * 4 ≤ 4 := h4
    obtain ⟨x, rfl⟩ := List.length_eq_one_iff.mp (by omega : v.length = 1)
    exact ⟨hs, x, _, rfl, rfl, by simp [le, Value.byteSize]⟩
  | slong v =>
    have hs : 0 < v.length := hs
    have h4 : v.length * 4 ≤ 4 := h4
    obtain ⟨x, rfl⟩ := List.length_eq_one_iff.mp (by omega : v.length = 1)
    exact ⟨hs, x, _, rfl, rfl, by simp [le, Value.byteSize]⟩
  | float v =>
    have h4 : v.length * 4 ≤ 4 := h4
    have h1 := List.length_pos_iff.mpr hs.1
    have h2 := hs.2
    omega
  | double v =>
    have hs : 0 < v.length := hs
    have h4 : v.length * 8 ≤ 4 := h4
    omega
  | rational v =>
    have hs : 0 < v.length := hs
    have h4 : v.length * 8 ≤ 4 := h4
    omega
  | srational v =>
    have hs : 0 < v.length := hs
    have h4 : v.length * 8 ≤ 4 := h4
    omega
  | ascii a =>
    obtain ⟨s, hstr⟩ := List.length_eq_one_iff.mp hs
    have hts := ht s (by rw [hstr]; exact List.mem_singleton_self s)
    have h0 : 0 ∉ s := fun h => by have := (hts.1 0 h).1; omega
    have hcount : a.count = s.length + 1 := by simp [Ascii.count, hstr]
    have h4' : a.count ≤ 4 := h4
    refine ⟨by show 0 < a.count; omega, embed4 (s ++ [0]), s ++ [0], ?_, withNul_one a s hstr h0, ?_⟩
    · rw [Value.asEmbedded, if_neg (by show ¬ a.count = 0; omega), if_neg (Nat.not_lt.mpr h4)]
      simp only [withNul_one a s hstr h0]
      rfl
    · have := embed4_bytes (s ++ [0]) (by simp; omega) (by
        intro x hx
        rcases List.mem_append.mp hx with h | h
        · exact (hts.1 x h).2
        · simp at h; omega)
      rw [List.length_append, List.length_singleton, ← hcount] at this
      exact this

/-- Where the bytes of a value are after its entry field was filled. -/
def Stored (F : List Nat) (v : Value) (e : Nat) : Prop :=
  if v.byteSize > 4 then ∃ b, v.write = .ok b ∧ At F e b else v.asEmbedded = .ok e

/-- Reading an entry gives the value. -/
theorem parse_stored (utf8 : List Nat → Bool) (F : List Nat) (p tag e : Nat) (v : Value) (ht : Typed utf8 v) (hs : Storable v) (hc : v.count < 2 ^ 32)
    (hF : F.length < 2 ^ 32) (hat : At F p (entryBytes (tag, v, e))) (hst : Stored F v e) :
    ∃ v' e', parseEntry utf8 F .little 0 0 (p + 2) = .ok v' e' ∧ content v' = content v ∧ (v.byteSize > 4 → e' = e) := by
  obtain ⟨b, hw, hlen, hsize, htype, hdec⟩ := write_decode utf8 v ht hs
  have hel : (entryBytes (tag, v, e)).length = 12 := by simp [entryBytes, le_length]
  have hb12 : p + 12 ≤ F.length := by have := hat.1; omega
  rw [entryBytes] at hat
  have a1 : At F (p + 2) (le 2 v.type) := by
    have := At.right (At.left (At.left hat)); rwa [le_length] at this
  have a2 : At F (p + 4) (le 4 (v.count % 2 ^ 32)) := by
    have := At.right (At.left hat); rwa [List.length_append, le_length, le_length] at this
  have a3 : At F (p + 8) (le 4 e) := by
    have := At.right hat; rwa [List.length_append, List.length_append, le_length, le_length, le_length] at this
  have n1 : num .little (le 2 v.type) = v.type := num_le 2 _ (by simpa using htype)
  have n2 : num .little (le 4 (v.count % 2 ^ 32)) = v.count := by
    rw [Nat.mod_eq_of_lt hc]; exact num_le 4 _ (by simpa using hc)
  rw [parseEntry, if_neg (by omega), At.rd a1 (le_length _ _).symm]
  simp only []
  rw [show p + 2 + 2 = p + 4 by omega, At.rd a2 (le_length _ _).symm]
  simp only []
  rw [n1, n2, parseOffset, show p + 2 + 6 = p + 8 by omega, ← hsize]
  by_cases h4 : v.byteSize ≤ 4
  · obtain ⟨_, e', b', he', hw', htake⟩ := embedded_bytes utf8 v ht hs h4
    rw [Stored, if_neg (by omega), he'] at hst
    cases hst
    rw [hw] at hw'
    cases hw'
    have a4 : At F (p + 8) b := by rw [← htake]; exact At.take a3 _
    rw [if_pos h4, if_pos (Nat.zero_le _), parseAt, if_neg (by omega), ← hsize, Nat.mod_eq_of_lt (by omega : p + 8 < 2 ^ 32), Nat.sub_zero, Nat.zero_add,
      At.rd a4 hlen.symm]
    simp only []
    rw [if_pos (by omega)]
    exact ⟨_, _, rfl, hdec, fun h => absurd h (by omega)⟩
  · rw [Stored, if_pos (by omega)] at hst
    obtain ⟨b', hw', hatv⟩ := hst
    rw [hw] at hw'
    cases hw'
    have hbound := hatv.1
    have n3 : num .little (le 4 e) = e := num_le 4 _ (Nat.lt_of_lt_of_eq (by omega : e < 2 ^ 32) (by decide))
    rw [if_neg h4, At.rd a3 (le_length _ _).symm]
    simp only []
    have hcorr : applyCorr e 0 = e := by rw [applyCorr]; omega
    rw [n3, hcorr, parseAt, if_neg (by omega), ← hsize, Nat.zero_add, At.rd hatv hlen.symm]
    simp only []
    rw [if_pos (by omega)]
    exact ⟨_, _, rfl, hdec, fun _ => rfl⟩

end Verif.Tiff
