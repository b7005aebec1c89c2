import Verif.Base
/-! Lemmas about the base vocabulary. -/

namespace Verif

@[simp] theorem idx_lt {α} (l : List α) (i : Nat) (h : i < l.length) : idx l i = .ok l[i] := by
  simp [idx, h]

theorem idx_ge {α} (l : List α) (i : Nat) (h : l.length ≤ i) : idx l i = panic' := by
  simp [idx, h]

theorem upd_lt {α} (l : List α) (i : Nat) (v : α) (h : i < l.length) : upd l i v = .ok (l.set i v) := by
  simp [upd, h]

theorem forN_zero {σ} (f : Nat → σ → R σ) (s : σ) : forN 0 f s = .ok s := rfl

theorem forN_succ {σ} (n : Nat) (f : Nat → σ → R σ) (s : σ) :
    forN (n + 1) f s = (forN n f s).bind (f n) := by
  simp only [forN, List.range_succ, List.foldlM_append, List.foldlM_cons, List.foldlM_nil]
  cases h : List.foldlM (fun s i => f i s) s (List.range n) <;> simp [bind, Except.bind, pure, Except.pure]
  cases f n _ <;> rfl

/-- Loop invariant rule. -/
theorem forN_inv {σ} (n : Nat) (f : Nat → σ → R σ) (Inv : Nat → σ → Prop) (s : σ) (h0 : Inv 0 s)
    (hstep : ∀ i s, i < n → Inv i s → ∃ s', f i s = .ok s' ∧ Inv (i + 1) s') :
    ∃ s', forN n f s = .ok s' ∧ Inv n s' := by
  induction n with
  | zero => exact ⟨s, rfl, h0⟩
  | succ n ih =>
    obtain ⟨s1, h1, i1⟩ := ih (fun i s hi => hstep i s (by omega))
    obtain ⟨s2, h2, i2⟩ := hstep n s1 (by omega) i1
    exact ⟨s2, by rw [forN_succ, h1]; exact h2, i2⟩

theorem forN_congr {σ} (n : Nat) (f g : Nat → σ → R σ) (s : σ) (h : ∀ i s, i < n → f i s = g i s) :
    forN n f s = forN n g s := by
  induction n with
  | zero => rfl
  | succ n ih =>
    rw [forN_succ, forN_succ, ih (fun i s hi => h i s (by omega))]
    cases forN n g s with
    | error e => rfl
    | ok a => exact h n a (by omega)

/-! ## Bit strings -/

@[simp] theorem length_bitsMSB (n v : Nat) : (bitsMSB n v).length = n := by
  induction n with
  | zero => rfl
  | succ n ih => simp [bitsMSB, ih]

theorem foldl_natMSB (l : List Bool) (a : Nat) :
    l.foldl (fun a b => 2 * a + b.toNat) a = a * 2 ^ l.length + natMSB l := by
  induction l generalizing a with
  | nil => simp [natMSB]
  | cons b l ih =>
    simp only [List.foldl_cons, List.length_cons, natMSB]
    rw [ih, ih (2 * 0 + b.toNat), Nat.pow_succ]
    rw [show (2 * a + b.toNat) * 2 ^ l.length = a * (2 ^ l.length * 2) + b.toNat * 2 ^ l.length by
      rw [Nat.add_mul, Nat.mul_comm 2 a, Nat.mul_assoc, Nat.mul_comm 2]]
    simp [Nat.add_assoc]

@[simp] theorem natMSB_nil : natMSB [] = 0 := rfl

theorem natMSB_cons (b : Bool) (l : List Bool) : natMSB (b :: l) = b.toNat * 2 ^ l.length + natMSB l := by
  simp only [natMSB, List.foldl_cons]
  rw [foldl_natMSB]; simp [natMSB]

theorem natMSB_append (l m : List Bool) : natMSB (l ++ m) = natMSB l * 2 ^ m.length + natMSB m := by
  simp only [natMSB, List.foldl_append]
  rw [foldl_natMSB]; simp [natMSB]

theorem natMSB_lt (l : List Bool) : natMSB l < 2 ^ l.length := by
  induction l with
  | nil => simp
  | cons b l ih =>
    rw [natMSB_cons, List.length_cons, Nat.pow_succ]
    cases b <;> simp <;> omega

theorem natMSB_bitsMSB (n v : Nat) : natMSB (bitsMSB n v) = v % 2 ^ n := by
  induction n with
  | zero => simp [bitsMSB, Nat.mod_one]
  | succ n ih =>
    rw [bitsMSB, natMSB_cons, length_bitsMSB, ih, Nat.testBit_eq_decide_div_mod_eq, Nat.pow_succ, Nat.mod_mul]
    have : v / 2 ^ n % 2 < 2 := Nat.mod_lt _ (by omega)
    rcases Nat.lt_or_ge (v / 2 ^ n % 2) 1 with h | h
    · have h0 : v / 2 ^ n % 2 = 0 := by omega
      simp [h0]
    · have h1 : v / 2 ^ n % 2 = 1 := by omega
      simp [h1]; omega

theorem bitsMSB_mod (n v : Nat) : bitsMSB n (v % 2 ^ n) = bitsMSB n v := by
  have key : ∀ m, m ≤ n → bitsMSB m (v % 2 ^ n) = bitsMSB m v := by
    intro m
    induction m with
    | zero => intro; rfl
    | succ m ih =>
      intro h
      simp only [bitsMSB, ih (by omega), Nat.testBit_mod_two_pow]
      simp; omega
  exact key n (Nat.le_refl n)

theorem bitsMSB_natMSB (l : List Bool) : bitsMSB l.length (natMSB l) = l := by
  induction l with
  | nil => rfl
  | cons b l ih =>
    simp only [List.length_cons, bitsMSB]
    have hlt := natMSB_lt l
    congr 1
    · rw [natMSB_cons, Nat.testBit_eq_decide_div_mod_eq, Nat.mul_comm, Nat.mul_add_div (Nat.two_pow_pos _), Nat.div_eq_of_lt hlt]
      cases b <;> simp
    · rw [← bitsMSB_mod, natMSB_cons, Nat.mul_comm, Nat.mul_add_mod, bitsMSB_mod]; exact ih

theorem natMSB_inj {l m : List Bool} (h : l.length = m.length) (e : natMSB l = natMSB m) : l = m := by
  rw [← bitsMSB_natMSB l, ← bitsMSB_natMSB m, h, e]

theorem bitsMSB_add (m n v : Nat) : bitsMSB (m + n) v = bitsMSB m (v / 2 ^ n) ++ bitsMSB n v := by
  induction m with
  | zero => simp [bitsMSB]
  | succ m ih =>
    rw [show m + 1 + n = (m + n) + 1 by omega]
    simp only [bitsMSB, ih, List.cons_append, Nat.testBit_div_two_pow]
    

theorem bitsMSB_append (m n a b : Nat) (h : b < 2 ^ n) : bitsMSB (m + n) (a * 2 ^ n + b) = bitsMSB m a ++ bitsMSB n b := by
  rw [bitsMSB_add, Nat.mul_comm, Nat.mul_add_div (Nat.two_pow_pos _), Nat.div_eq_of_lt h, Nat.add_zero]
  congr 1
  rw [← bitsMSB_mod, Nat.mul_add_mod, bitsMSB_mod]

theorem bitsMSB_zero_val (n : Nat) : bitsMSB n 0 = List.replicate n false := by
  induction n with
  | zero => rfl
  | succ n ih => simp [bitsMSB, ih, List.replicate_succ]

theorem natMSB_replicate_false (n : Nat) : natMSB (List.replicate n false) = 0 := by
  rw [← bitsMSB_zero_val, natMSB_bitsMSB]; simp

theorem take_bitsMSB (n k v : Nat) (h : k ≤ n) : (bitsMSB n v).take k = bitsMSB k (v / 2 ^ (n - k)) := by
  obtain ⟨d, rfl⟩ : ∃ d, n = k + d := ⟨n - k, by omega⟩
  rw [bitsMSB_add, List.take_append_of_le_length (by simp)]
  simp [List.take_of_length_le]

theorem drop_bitsMSB (n k v : Nat) (h : k ≤ n) : (bitsMSB n v).drop k = bitsMSB (n - k) v := by
  obtain ⟨d, rfl⟩ : ∃ d, n = k + d := ⟨n - k, by omega⟩
  rw [bitsMSB_add, List.drop_append_of_le_length (by simp)]
  simp [List.drop_of_length_le]

@[simp] theorem bytesMSB_nil : bytesMSB [] = [] := rfl
@[simp] theorem bytesMSB_cons (b : Nat) (l : List Nat) : bytesMSB (b :: l) = bitsMSB 8 b ++ bytesMSB l := rfl
@[simp] theorem bytesMSB_append (l m : List Nat) : bytesMSB (l ++ m) = bytesMSB l ++ bytesMSB m := by
  simp [bytesMSB]

theorem length_bytesMSB (l : List Nat) : (bytesMSB l).length = 8 * l.length := by
  induction l with
  | nil => rfl
  | cons b l ih => simp [ih]; omega

end Verif
