import Verif.Model.CrxLine
import Verif.Spec.Crx
import Verif.Proofs.Base

/-! Codes of single values and runs: decoding undoes the specified code. -/

namespace Verif.Crx
open CrxSpec

theorem i32_ok (v : Int) (h : -2147483648 ≤ v) (h' : v ≤ 2147483647) : i32 v = .ok v := by
  simp [i32, h, h']

theorem unary_replicate (n : Nat) (r : List Bool) : unary (List.replicate n false ++ true :: r) = .ok (n, r) := by
  induction n with
  | zero => rfl
  | succ n ih => simp [List.replicate_succ, unary, ih, bind, Except.bind]

theorem getBits_ok (n v : Nat) (r : List Bool) (h : n ≤ 32) :
    getBits n (bitsMSB n v ++ r) = .ok (v % 2 ^ n, r) := by
  unfold getBits
  rw [if_neg (by omega), if_neg (by simp)]
  rw [List.take_append_of_le_length (by simp), List.drop_append_of_le_length (by simp)]
  rw [List.take_of_length_le (by simp), List.drop_of_length_le (by simp), natMSB_bitsMSB]
  simp

theorem riceDecode_ok (k n : Nat) (r : List Bool) (hk : k ≤ 17) (hn : n < 2 ^ 21) :
    riceDecode k (riceCode k n ++ r) = .ok (n, r) := by
  unfold riceCode
  by_cases h : n / 2 ^ k < 41
  · rw [if_pos h, List.append_assoc, List.cons_append, riceDecode, unary_replicate]
    simp only [bind, Except.bind]
    rw [if_neg (show ¬ 41 ≤ n / 2 ^ k by omega)]
    by_cases h0 : 0 < k
    · rw [if_pos h0, assert', if_pos (by simp; omega)]
      dsimp only
      rw [getBits_ok _ _ _ (by omega)]
      dsimp only
      have e : (n / 2 ^ k) <<< k = n / 2 ^ k * 2 ^ k := Nat.shiftLeft_eq _ _
      have hl : n / 2 ^ k * 2 ^ k ≤ n := Nat.div_mul_le_self n (2 ^ k)
      have hlt : n % 2 ^ k < 2 ^ k := Nat.mod_lt _ (Nat.two_pow_pos k)
      rw [Nat.mod_eq_of_lt (by rw [e]; omega), ← Nat.shiftLeft_add_eq_or_of_lt hlt, e,
        Nat.mul_comm, Nat.div_add_mod]
    · have : k = 0 := by omega
      subst this
      simp [bitsMSB]
  · rw [if_neg h, List.append_assoc, List.cons_append, riceDecode, unary_replicate]
    simp only [bind, Except.bind]
    rw [if_pos (show 41 ≤ 41 by omega), getBits_ok 21 _ _ (by omega), Nat.mod_eq_of_lt hn]

theorem predictK_adapt (k n : Nat) (hk : k < 32) : predictK k n 0 = .ok (adapt k n) := by
  unfold predictK adapt
  have e1 : n >>> k = n / 2 ^ k := Nat.shiftRight_eq_div_pow _ _
  have e2 : (1 <<< k) >>> 1 = 2 ^ k / 2 := by rw [Nat.shiftLeft_eq, Nat.one_mul, Nat.shiftRight_eq_div_pow]
  rw [e1, e2, assert', if_pos (by simpa using hk)]
  simp only [bind, Except.bind, Nat.lt_irrefl, if_false]
  by_cases h : n < 2 ^ k / 2
  · have : n / 2 ^ k = 0 := Nat.div_eq_of_lt (by omega)
    rw [if_pos h, if_pos h, this]
    have hk0 : k ≠ 0 := by intro h0; subst h0; simp at h
    rw [if_neg (by omega), if_neg (by omega), usub, if_pos (by omega)]
    rfl
  · rw [if_neg h, if_neg h]
    by_cases h6 : 6 ≤ n / 2 ^ k
    · rw [if_pos h6, if_pos (by omega), if_pos (by omega)]; simp [usub]
    · rw [if_neg h6, if_neg (by omega : ¬ 5 < n / 2 ^ k)]
      by_cases h3 : 3 ≤ n / 2 ^ k
      · rw [if_pos h3, if_pos (by omega)]; simp [usub]
      · rw [if_neg h3, if_neg (by omega)]; simp [usub]

theorem predictK_15 (k n : Nat) (hk : k < 32) : predictK k n 15 = .ok (adapt15 k n) := by
  have h := predictK_adapt k n hk
  unfold predictK at h ⊢
  unfold adapt15
  cases ha : assert' (decide (k < 32)) with
  | error e => rw [ha] at h; simp [bind, Except.bind] at h
  | ok u =>
    rw [ha] at h
    simp only [bind, Except.bind] at h ⊢
    revert h
    generalize usub _ _ = m
    intro h
    cases m with
    | error e => simp at h
    | ok v =>
      simp only [Nat.lt_irrefl, if_false, Except.ok.injEq] at h
      simp [h]

theorem adapt15_le (k n : Nat) : adapt15 k n ≤ 15 := Nat.min_le_right _ _

theorem adapt_le (k n : Nat) : adapt k n ≤ k + 2 := by
  unfold adapt; split
  · omega
  · split
    · omega
    · split <;> omega

theorem errSigned_zigzag (e : Int) : errSigned (zigzag e) = e := by
  unfold errSigned zigzag
  by_cases h : 0 ≤ e
  · rw [if_pos h, if_neg (by omega)]
    omega
  · rw [if_neg h, if_pos (by omega)]
    omega

theorem zigzag_lt (e : Int) (m : Nat) (h1 : -(m : Int) ≤ e) (h2 : e < m) : zigzag e < 2 * m := by
  unfold zigzag; split <;> omega

theorem zigzag_pos (e : Int) (h : e ≠ 0) : 0 < zigzag e := by unfold zigzag; split <;> omega

theorem med_ok (a b c : Int) (ha : a.natAbs ≤ 131072) (hb : b.natAbs ≤ 131072) (hc : c.natAbs ≤ 131072) :
    med a b c = .ok (median a b c) := by
  unfold med median
  by_cases h1 : max a b ≤ c
  · rw [if_pos h1]; congr 1; omega
  · rw [if_neg h1]
    by_cases h2 : c ≤ min a b
    · rw [if_pos h2]; congr 1; omega
    · rw [if_neg h2, i32_ok _ (by omega) (by omega)]
      simp only [bind, Except.bind]
      rw [i32_ok _ (by omega) (by omega)]
      congr 1; omega

theorem median_le (a b c : Int) (m : Nat) (ha : a.natAbs ≤ m) (hb : b.natAbs ≤ m) : (median a b c).natAbs ≤ m := by
  unfold median; omega

/-! ## Runs -/

theorem idx_jTable (s : Nat) (h : s ≤ 31) : idx jTable s = .ok (runOrder s) := by
  have : ∀ s, s < 32 → idx jTable s = .ok (runOrder s) := by decide
  exact this s (by omega)

theorem runOrder_le (s : Nat) (h : s ≤ 31) : runOrder s ≤ 15 := by
  have : ∀ s, s < 32 → runOrder s ≤ 15 := by decide
  exact this s (by omega)

theorem takeBits_ok (n v : Nat) (p : Band) (r : List Bool) (h : n ≤ 32) (e : p.bits = bitsMSB n v ++ r) :
    takeBits n p = .ok (v % 2 ^ n, { p with bits := r }) := by
  rw [takeBits, e, getBits_ok _ _ _ h]; rfl

theorem takeBit_true (p : Band) (r : List Bool) (e : p.bits = true :: r) :
    takeBits 1 p = .ok (1, { p with bits := r }) := takeBits_ok 1 1 p r (by omega) e

theorem takeBit_false (p : Band) (r : List Bool) (e : p.bits = false :: r) :
    takeBits 1 p = .ok (0, { p with bits := r }) := takeBits_ok 1 0 p r (by omega) e

theorem runLoop_ok : ∀ (fuelS fuel remaining n r s : Nat) (p : Band) (rest : List Bool),
    1 ≤ r → r ≤ n → n ≤ remaining → remaining - r < fuel → n - r < fuelS → s ≤ 31 → p.s = s →
    p.bits = (runCode fuelS remaining n r s).1 ++ rest →
    ((do
      let (run, p) ← runLoop fuel remaining r p
      runTail remaining run p) : R (Nat × Band)) =
      .ok (n, { p with s := (runCode fuelS remaining n r s).2, bits := rest })
  | 0, _, _, _, _, _, _, _, _, _, _, _, h, _, _, _ => absurd h (by omega)
  | fuelS + 1, 0, _, _, _, _, _, _, _, _, _, h, _, _, _, _ => absurd h (by omega)
  | fuelS + 1, fuel + 1, remaining, n, r, s, p, rest, h1, hrn, hn, hf, hfs, hs, hps, hb => by
    unfold runCode at hb ⊢
    rw [runLoop]
    by_cases he : r = remaining
    · rw [if_pos he] at hb ⊢
      simp only [if_pos he, bind, Except.bind, runTail]
      rw [if_neg (by omega)]
      have : r = n := by omega
      subst this
      simp only [List.nil_append] at hb
      rw [← hb, ← hps]
    · rw [if_neg he] at hb ⊢
      simp only [if_neg he]
      have hpow := Nat.two_pow_pos (runOrder s)
      by_cases h2 : r + 2 ^ runOrder s ≤ n
      · rw [if_pos h2] at hb ⊢
        dsimp only at hb ⊢
        rw [takeBit_true p _ hb]
        simp only [bind, Except.bind, if_pos, hps]
        rw [idx_jTable s hs]
        simp only
        rw [if_neg (by omega)]
        have ih := runLoop_ok fuelS fuel remaining n (r + 2 ^ runOrder s) (min (s + 1) 31)
          { p with bits := (runCode fuelS remaining n (r + 2 ^ runOrder s) (min (s + 1) 31)).1 ++ rest, s := min (s + 1) 31 } rest
          (by omega) h2 hn (by omega) (by omega) (by omega) rfl rfl
        simp only [bind, Except.bind] at ih
        exact ih
      · rw [if_neg h2] at hb ⊢
        by_cases h3 : n = remaining
        · rw [if_pos h3] at hb ⊢
          rw [takeBit_true p _ hb]
          simp only [bind, Except.bind, if_pos, hps]
          rw [idx_jTable s hs]
          simp only
          rw [if_pos (by omega)]
          simp only [runTail, Nat.lt_irrefl, if_false]
          subst h3
          rw [← hps]
          rfl
        · rw [if_neg h3] at hb ⊢
          rw [takeBit_false p _ hb]
          simp only [bind, Except.bind, Nat.zero_ne_one, if_false, runTail]
          rw [if_pos (by omega)]
          simp only [hps]
          rw [idx_jTable s hs]
          simp only
          rw [takeBits_ok (runOrder s) (n - r) _ rest (by have := runOrder_le s hs; omega) rfl]
          simp only
          rw [Nat.mod_eq_of_lt (by omega), if_neg (by omega)]
          rw [show r + (n - r) = n by omega]

theorem runCode_s : ∀ (fuelS remaining n r s : Nat), s ≤ 31 → (runCode fuelS remaining n r s).2 ≤ 31
  | 0, _, _, _, _, h => h
  | fuelS + 1, remaining, n, r, s, h => by
    unfold runCode
    split
    · exact h
    · split
      · exact runCode_s fuelS _ _ _ _ (by omega)
      · split
        · exact h
        · dsimp only; omega

theorem runBits_s (remaining n s : Nat) (h : s ≤ 31) : (runBits remaining n s).2 ≤ 31 := by
  unfold runBits
  split
  · exact h
  · exact runCode_s _ _ _ _ _ h

theorem runCount_ok (p : Band) (remaining n : Nat) (rest : List Bool) (h1 : 1 ≤ n) (hn : n ≤ remaining)
    (hr : 1 < remaining) (hs : p.s ≤ 31) (hb : p.bits = (runCode (n + 1) remaining n 1 p.s).1 ++ rest) :
    runCount p remaining = .ok (n, { p with s := (runCode (n + 1) remaining n 1 p.s).2, bits := rest }) := by
  unfold runCount
  rw [assert', if_pos (by simpa using hr)]
  exact runLoop_ok (n + 1) remaining remaining n 1 p.s p rest (by omega) h1 hn (by omega) (by omega) hs rfl hb

end Verif.Crx
