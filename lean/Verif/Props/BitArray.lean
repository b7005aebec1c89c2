import Verif.Model.BitArray
import Verif.Proofs.Base
/-! # Bit arrays are lists of bits (C45) -/

namespace Verif.Props
open Verif Verif.BitArr

/-- Specification: a stack of at most `B` bits, newest last. `none`: the call is refused. -/
def bitSpec (B : Nat) : List Op → List Bool → Option (List Bool × List Bool)
  | [], l => some (l, [])
  | .push b :: ops, l => if l.length < B then bitSpec B ops (l ++ [b]) else none
  | .pop :: ops, l =>
    match l.getLast? with
    | none => none
    | some b => (bitSpec B ops l.dropLast).map fun r => (r.1, b :: r.2)

/-- the storage of a list of bits: left aligned -/
def Rep (B : Nat) (a : BitArray) (l : List Bool) : Prop :=
  a.nbits = l.length ∧ l.length ≤ B ∧ a.storage = natMSB l * 2 ^ (B - l.length)

theorem natMSB_snoc (l : List Bool) (b : Bool) : natMSB (l ++ [b]) = 2 * natMSB l + b.toNat := by
  rw [natMSB_append, natMSB_cons, natMSB_nil]; simp; omega

theorem rep_new (B : Nat) : Rep B BitArr.new [] := ⟨rfl, Nat.zero_le _, by simp [BitArr.new]⟩

theorem rep_push {B : Nat} {a : BitArray} {l : List Bool} (h : Rep B a l) (b : Bool) (hl : l.length < B) :
    ∃ a', BitArr.push B a b = .ok a' ∧ Rep B a' (l ++ [b]) := by
  obtain ⟨h1, h2, h3⟩ := h
  refine ⟨_, by rw [BitArr.push, if_neg (by omega)], ?_⟩
  refine ⟨by simp [h1], by simp; omega, ?_⟩
  dsimp only
  rw [h3, h1, natMSB_snoc, List.length_append, List.length_singleton, Nat.shiftLeft_eq]
  obtain ⟨k, hk⟩ : ∃ k, B - l.length = k + 1 := ⟨B - l.length - 1, by omega⟩
  have hk' : B - (l.length + 1) = k := by omega
  rw [hk, hk', Nat.mul_comm (natMSB l), ← Nat.two_pow_add_eq_or_of_lt, Nat.add_mul, Nat.pow_succ]
  · congr 1
    rw [Nat.mul_comm (2 ^ k) 2, Nat.mul_assoc, Nat.mul_assoc, Nat.mul_comm (2 ^ k)]
  · rw [Nat.pow_succ]
    have : 0 < 2 ^ k := Nat.two_pow_pos k
    cases b <;> simp <;> omega

theorem testBit_scaled (m k i : Nat) : (m * 2 ^ k).testBit i = (decide (k ≤ i) && m.testBit (i - k)) := by
  rw [← Nat.shiftLeft_eq, Nat.testBit_shiftLeft]

theorem rep_pop {B : Nat} {a : BitArray} {l : List Bool} {b : Bool} (h : Rep B a (l ++ [b])) :
    ∃ a', BitArr.pop B a = .ok (a', b) ∧ Rep B a' l := by
  obtain ⟨h1, h2, h3⟩ := h
  rw [List.length_append, List.length_singleton] at h1 h2 h3
  have hne : ¬ (a.nbits = 0 ∨ B < a.nbits) := by omega
  rw [natMSB_snoc] at h3
  obtain ⟨k, hk⟩ : ∃ k, B - (l.length + 1) = k := ⟨_, rfl⟩
  have hk' : B - l.length = k + 1 := by omega
  have hbit : (a.storage &&& 1 <<< k != 0) = b := by
    have ht : a.storage.testBit k = b := by
      rw [h3, hk, testBit_scaled, decide_eq_true (Nat.le_refl k), Nat.sub_self, Bool.true_and, Nat.testBit_zero]
      cases b <;> simp <;> omega
    have : a.storage &&& 1 <<< k = b.toNat <<< k := by
      rw [Nat.shiftLeft_eq, Nat.one_mul]
      apply Nat.eq_of_testBit_eq
      intro i
      rw [Nat.testBit_and, Nat.testBit_two_pow, Nat.testBit_shiftLeft]
      by_cases hi : k = i
      · subst hi
        rw [ht]; cases b <;> simp
      · rw [decide_eq_false hi, Bool.and_false]
        by_cases hi2 : k ≤ i
        · have hb : b.toNat.testBit (i - k) = false := Nat.testBit_lt_two_pow (by
            have : 2 ^ 1 ≤ 2 ^ (i - k) := Nat.pow_le_pow_right (by omega) (by omega)
            have := Bool.toNat_lt b; omega)
          rw [hb, Bool.and_false]
        · simp [hi2]
    rw [this, Nat.shiftLeft_eq]
    have := Nat.two_pow_pos k
    cases b
    · simp
    · simp
  refine ⟨⟨a.storage &&& (2 ^ B - 1 - 1 <<< k), l.length⟩, ?_, rfl, by omega, ?_⟩
  · rw [BitArr.pop, if_neg hne]
    simp only []
    rw [h1, hk, hbit, Nat.add_sub_cancel]
  · dsimp only
    rw [Nat.sub_sub, Nat.add_comm 1, Nat.shiftLeft_eq, Nat.one_mul]
    have hlt : 2 ^ k < 2 ^ B := Nat.pow_lt_pow_right (by omega) (by omega)
    apply Nat.eq_of_testBit_eq
    intro i
    rw [Nat.testBit_and, Nat.testBit_two_pow_sub_succ hlt, Nat.testBit_two_pow, hk', h3, hk, testBit_scaled, testBit_scaled]
    by_cases hi : k + 1 ≤ i
    · have hi2 : k ≤ i := by omega
      have hi3 : ¬ k = i := by omega
      rw [decide_eq_true hi, decide_eq_true hi2, decide_eq_false hi3]
      obtain ⟨j, hj⟩ : ∃ j, i - k = j + 1 := ⟨i - k - 1, by omega⟩
      have hj' : i - (k + 1) = j := by omega
      rw [hj, hj', Nat.testBit_succ]
      have hdiv : (2 * natMSB l + b.toNat) / 2 = natMSB l := by
        have := Bool.toNat_lt b; omega
      rw [hdiv]
      by_cases hB : i < B
      · simp [hB]
      · have : (natMSB l).testBit j = false := Nat.testBit_lt_two_pow (Nat.lt_of_lt_of_le (natMSB_lt l) (Nat.pow_le_pow_right (by omega) (by omega)))
        simp [this]
    · rw [decide_eq_false hi]
      by_cases hi2 : k = i
      · subst hi2; simp
      · have : ¬ k ≤ i := by omega
        rw [decide_eq_false this]; simp

/-- reading a represented array -/
theorem rep_lsb {B : Nat} {a : BitArray} {l : List Bool} (h : Rep B a l) (hl : l ≠ []) : getLsb B a = .ok (natMSB l) := by
  obtain ⟨h1, h2, h3⟩ := h
  have : 0 < l.length := List.length_pos_iff.mpr hl
  rw [getLsb, if_pos (by omega), h3, h1, Nat.shiftRight_eq_div_pow, Nat.mul_div_cancel _ (Nat.two_pow_pos _)]

theorem rep_msb {B : Nat} {a : BitArray} {l : List Bool} (h : Rep B a l) : getMsb a = natMSB (l ++ List.replicate (B - l.length) false) := by
  rw [getMsb, h.2.2, natMSB_append, natMSB_replicate_false, List.length_replicate, Nat.add_zero]

theorem rep_drain {B : Nat} (n : Nat) : ∀ {a : BitArray} {l : List Bool}, Rep B a l → l.length = n →
    drain B n a = .ok ((l.map fun b => if b then '1' else '0').reverse) := by
  induction n with
  | zero =>
    intro a l h hl
    rw [List.length_eq_zero_iff] at hl
    subst hl
    have h0 : a.nbits = 0 := h.1
    rw [drain, if_pos h0]; rfl
  | succ n ih =>
    intro a l h hl
    obtain ⟨l', b, rfl⟩ : ∃ l' b, l = l' ++ [b] := by
      rcases List.eq_nil_or_concat l with rfl | ⟨l', b, rfl⟩
      · simp at hl
      · exact ⟨l', b, by simp⟩
    obtain ⟨a', e, h'⟩ := rep_pop h
    rw [drain, if_neg (by rw [h.1]; simp), e]
    simp only [bind, Except.bind]
    rw [ih h' (by simpa using hl)]
    simp

theorem rep_display {B : Nat} {a : BitArray} {l : List Bool} (h : Rep B a l) : display B a = .ok (l.map fun b => if b then '1' else '0') := by
  rw [display, h.1, rep_drain l.length h rfl]
  simp only [bind, Except.bind]
  rw [List.reverse_reverse]

theorem run_spec (B : Nat) (ops : List Op) : ∀ (a : BitArray) (l : List Bool), Rep B a l →
    (bitSpec B ops l = none → BitArr.run B ops a = panic') ∧
    ∀ l' out, bitSpec B ops l = some (l', out) → ∃ a', BitArr.run B ops a = .ok (a', out) ∧ Rep B a' l' := by
  induction ops with
  | nil =>
    intro a l h
    refine ⟨fun h' => by simp [bitSpec] at h', fun l' out h' => ?_⟩
    simp only [bitSpec, Option.some.injEq, Prod.mk.injEq] at h'
    obtain ⟨rfl, rfl⟩ := h'
    exact ⟨a, rfl, h⟩
  | cons op ops ih =>
    intro a l h
    cases op with
    | push b =>
      rw [bitSpec, BitArr.run]
      by_cases hl : l.length < B
      · obtain ⟨a', e, h'⟩ := rep_push h b hl
        rw [if_pos hl, e]
        exact ih a' _ h'
      · rw [if_neg hl]
        refine ⟨fun _ => ?_, fun l' out h' => by simp at h'⟩
        rw [BitArr.push, if_pos (by rw [h.1]; omega)]; rfl
    | pop =>
      rw [bitSpec, BitArr.run]
      rcases List.eq_nil_or_concat l with rfl | ⟨l0, b, rfl⟩
      · simp only [List.getLast?_nil]
        refine ⟨fun _ => ?_, fun l' out h' => by simp at h'⟩
        rw [BitArr.pop, if_pos (Or.inl (by rw [h.1]; rfl))]; rfl
      · rw [List.concat_eq_append] at h ⊢
        obtain ⟨a', e, h'⟩ := rep_pop h
        rw [e]
        simp only [List.getLast?_append, List.getLast?_singleton, Option.some_or, List.dropLast_concat, bind, Except.bind]
        obtain ⟨i1, i2⟩ := ih a' l0 h'
        constructor
        · intro hn
          rw [Option.map_eq_none_iff] at hn
          rw [i1 hn]
        · intro l' out hs
          rw [Option.map_eq_some_iff] at hs
          obtain ⟨⟨l2, o2⟩, hs, he⟩ := hs
          obtain ⟨a2, e2, h2⟩ := i2 l2 o2 hs
          simp only [Prod.mk.injEq] at he
          obtain ⟨rfl, rfl⟩ := he
          exact ⟨a2, by rw [e2], h2⟩

/-- **C45**: for every storage width and every history of pushes and pops on a new bit array: calls panic exactly when the stack of bits refuses them,
the bits popped are those of the stack, and afterwards length, left- and right-aligned value and text are those of the list of bits. -/
theorem C45_history (B : Nat) (ops : List Op) :
    (bitSpec B ops [] = none → BitArr.run B ops BitArr.new = panic') ∧
    ∀ l out, bitSpec B ops [] = some (l, out) → ∃ a, BitArr.run B ops BitArr.new = .ok (a, out) ∧ a.nbits = l.length ∧
      getMsb a = natMSB (l ++ List.replicate (B - l.length) false) ∧ (l ≠ [] → getLsb B a = .ok (natMSB l)) ∧
      display B a = .ok (l.map fun b => if b then '1' else '0') := by
  obtain ⟨h1, h2⟩ := run_spec B ops BitArr.new [] (rep_new B)
  refine ⟨h1, fun l out h => ?_⟩
  obtain ⟨a, e, h⟩ := h2 l out h
  exact ⟨a, e, h.1, rep_msb h, rep_lsb h, rep_display h⟩

theorem rep_fromLsb {B n v : Nat} (hn : 0 < n) (hB : n ≤ B) (hv : v < 2 ^ n) :
    ∃ a, fromLsb B n v = .ok a ∧ Rep B a (bitsMSB n v) := by
  have hlt : v * 2 ^ (B - n) < 2 ^ B := by
    rw [show B = n + (B - n) by omega, Nat.add_sub_cancel_left, Nat.pow_add]
    exact Nat.mul_lt_mul_of_pos_right hv (Nat.two_pow_pos _)
  refine ⟨⟨v <<< (B - n), n⟩, ?_, by simp, by simpa using hB, ?_⟩
  · rw [fromLsb, usub, if_pos hB]
    simp only [bind, Except.bind]
    rw [if_pos (by omega), Nat.shiftLeft_eq, Nat.mod_eq_of_lt hlt]
  · dsimp only
    rw [natMSB_bitsMSB, Nat.mod_eq_of_lt hv, length_bitsMSB, Nat.shiftLeft_eq]

/-- **C45**: a code built from a number is the code built by pushing the bits of the number, most significant first. -/
theorem C45_from_lsb (B n v : Nat) (hn : 0 < n) (hB : n ≤ B) (hv : v < 2 ^ n) :
    ∃ a, fromLsb B n v = .ok a ∧ BitArr.run B ((bitsMSB n v).map .push) BitArr.new = .ok (a, []) ∧ getLsb B a = .ok v := by
  obtain ⟨a, e, h⟩ := rep_fromLsb hn hB hv
  have key : ∀ (l pre : List Bool), pre.length + l.length ≤ B → bitSpec B (l.map .push) pre = some (pre ++ l, []) := by
    intro l
    induction l with
    | nil => intro pre _; simp [bitSpec]
    | cons b l ih =>
      intro pre hp
      rw [List.length_cons] at hp
      rw [List.map_cons, bitSpec, if_pos (by omega), ih _ (by simp; omega)]
      simp
  obtain ⟨a', e', h'⟩ := (run_spec B _ BitArr.new [] (rep_new B)).2 _ _ (key (bitsMSB n v) [] (by simpa using hB))
  rw [List.nil_append] at h'
  have : a' = a := by
    have h1 : a'.storage = a.storage := by rw [h'.2.2, h.2.2]
    have h2 : a'.nbits = a.nbits := by rw [h'.1, h.1]
    cases a; cases a'
    simp only [BitArray.mk.injEq]
    exact ⟨h1, h2⟩
  subst this
  have hne : bitsMSB n v ≠ [] := by
    intro h0
    have := congrArg List.length h0
    rw [length_bitsMSB] at this
    exact absurd this (by simp; omega)
  exact ⟨a', e, e', by rw [rep_lsb h hne, natMSB_bitsMSB, Nat.mod_eq_of_lt hv]⟩

/-- **C45**: two arrays built from numbers are ordered by length first and then by value; in particular they are equal only if both agree. -/
theorem C45_order (B n m v w : Nat) (hn : 0 < n) (hm : 0 < m) (hB : n ≤ B) (hB' : m ≤ B) (hv : v < 2 ^ n) (hw : w < 2 ^ m) :
    ∃ a b, fromLsb B n v = .ok a ∧ fromLsb B m w = .ok b ∧ (BitArr.cmp a b = .lt ↔ n < m ∨ (n = m ∧ v < w)) ∧
      (BitArr.cmp a b = .eq ↔ n = m ∧ v = w) := by
  obtain ⟨a, e, h⟩ := rep_fromLsb hn hB hv
  obtain ⟨b, e', h'⟩ := rep_fromLsb hm hB' hw
  refine ⟨a, b, e, e', ?_⟩
  have ha := h.2.2
  have hb := h'.2.2
  rw [natMSB_bitsMSB, Nat.mod_eq_of_lt hv, length_bitsMSB] at ha
  rw [natMSB_bitsMSB, Nat.mod_eq_of_lt hw, length_bitsMSB] at hb
  have hna := h.1
  have hnb := h'.1
  rw [length_bitsMSB] at hna hnb
  unfold BitArr.cmp
  rw [hna, hnb, ha, hb]
  rcases Nat.lt_trichotomy n m with hlt | rfl | hgt
  · rw [Nat.compare_eq_lt.mpr hlt]
    constructor
    · simp [hlt]
    · simp; omega
  · rw [Nat.compare_eq_eq.mpr rfl]
    have hp := Nat.two_pow_pos (B - n)
    constructor
    · simp only [Nat.compare_eq_lt]
      rw [Nat.mul_lt_mul_right hp]; simp
    · simp only [Nat.compare_eq_eq]
      rw [Nat.mul_left_inj (by omega)]; simp
  · rw [Nat.compare_eq_gt.mpr hgt]
    constructor
    · simp; omega
    · simp; omega

/-- The right-aligned value of an empty array cannot be read: the shift by the full width panics. -/
theorem C45_empty_get_lsb_panics (B : Nat) : getLsb B BitArr.new = panic' := by
  rw [getLsb, if_neg (by simp [BitArr.new])]

example : bitSpec 16 [.push true, .push false, .pop, .push true, .push true] [] = some ([true, true, true], [false]) := by decide
example : bitSpec 2 [.push true, .push false, .push true] [] = none := by decide
example : bitSpec 8 [.push true, .pop, .pop] [] = none := by decide

end Verif.Props
