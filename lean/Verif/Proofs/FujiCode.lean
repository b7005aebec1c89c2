import Verif.Model.Fuji
import Verif.Spec.Fuji
import Verif.Props.PumpsMore
import Verif.Proofs.BitRun
import Verif.Proofs.Orf
import Mathlib.Tactic.Ring
/-! # Fuji: tables, codes and values -/

namespace Verif.Fuji
open Verif Verif.Pumps Verif.Spec.Fuji
open Verif.Orf (ok_bind)

theorem pow_bits {b : Nat} (hb : b = 12 ∨ b = 14 ∨ b = 16) : 4096 ≤ 2 ^ b ∧ 2 ^ b ≤ 65536 := by
  rcases hb with rfl | rfl | rfl <;> decide

theorem steps_pos (b q : Nat) (hb : b = 12 ∨ b = 14 ∨ b = 16) (hq : q < 256) : 2 ≤ steps b q ∧ steps b q ≤ 2 ^ b ∧
    2 ^ b + 2 * q ≤ steps b q * (2 * q + 1) := by
  obtain ⟨h1, h2⟩ := pow_bits hb
  have hd : 0 < 2 * q + 1 := by omega
  have a1 : 1 ≤ (2 ^ b - 1 + 2 * q) / (2 * q + 1) := by rw [Nat.le_div_iff_mul_le hd]; omega
  have a2 : (2 ^ b - 1 + 2 * q) / (2 * q + 1) ≤ 2 ^ b - 1 := by
    apply Nat.le_of_lt_succ
    rw [Nat.div_lt_iff_lt_mul hd]
    have : (2 ^ b - 1 + 1) * (2 * q + 1) = 2 ^ b * (2 * q) + 2 ^ b := by rw [show 2 ^ b - 1 + 1 = 2 ^ b by omega]; ring
    rw [Nat.succ_eq_add_one, this]
    have : 1 * (2 * q) ≤ 2 ^ b * (2 * q) := Nat.mul_le_mul_right _ (by omega)
    omega
  refine ⟨by rw [steps]; omega, by rw [steps]; omega, ?_⟩
  have := Nat.lt_mul_div_succ (2 ^ b - 1 + 2 * q) hd
  have e : steps b q * (2 * q + 1) = (2 * q + 1) * ((2 ^ b - 1 + 2 * q) / (2 * q + 1) + 1) := Nat.mul_comm _ _
  rw [e]
  omega

theorem log2ceil_eq (n : Nat) (h : 2 ≤ n) : log2ceil n = digits n := by
  rw [log2ceil, if_neg (by omega), digits]
  split
  · rw [show n = 2 by omega]; rfl
  · rfl

theorem le_digits (n : Nat) (h : 2 ≤ n) : n ≤ 2 ^ digits n := by
  have := Nat.lt_log2_self (n := n - 1)
  rw [digits]; omega

theorem digits_le (n k : Nat) (h : 2 ≤ n) (hk : n ≤ 2 ^ k) : digits n ≤ k := by
  rw [digits]
  have := (Nat.log2_lt (n := n - 1) (k := k) (by omega)).2 (by omega)
  omega

theorem digits_pow (b : Nat) (hb : b = 12 ∨ b = 14 ∨ b = 16) : digits (2 ^ b) = b := by
  rcases hb with rfl | rfl | rfl <;> decide

/-- The tables. -/
def tab (b q multi maxGrad : Nat) : QTable where
  qBase := q
  table := buildTable b q (3 * q + 18) (5 * q + 67) (7 * q + 276) (2 ^ b - 1)
  maxGrad := maxGrad
  multi := multi
  rawBits := digits (steps b q)
  total := steps b q

theorem total_eq (b q : Nat) (hb : b = 12 ∨ b = 14 ∨ b = 16) : ((2 : Int) ^ b - 1 + 2 * q) / (2 * q + 1) + 1 = (steps b q : Int) := by
  obtain ⟨h1, _⟩ := pow_bits hb
  rw [steps]
  push_cast [Nat.cast_sub (show 1 ≤ 2 ^ b by omega)]
  rfl

theorem mainQTable_eq (b q : Nat) (hb : b = 12 ∨ b = 14 ∨ b = 16) (hq : q < 256) : mainQTable b (2 ^ b - 1) q = tab b q 9 0 := by
  obtain ⟨h1, _⟩ := pow_bits hb
  have h1' : (4096 : Int) ≤ 2 ^ b := by exact_mod_cast h1
  have hs := steps_pos b q hb hq
  unfold mainQTable tab
  simp only
  rw [if_neg (show ¬ ((3 * (q : Int) + 18 ≥ 2 ^ b - 1 + 1) ∨ 3 * (q : Int) + 18 < q + 1) by omega),
    if_neg (show ¬ ((5 * (q : Int) + 67 < 3 * q + 18) ∨ 5 * (q : Int) + 67 ≥ 2 ^ b - 1 + 1) by omega),
    if_neg (show ¬ ((7 * (q : Int) + 276 < 5 * q + 67) ∨ 7 * (q : Int) + 276 ≥ 2 ^ b - 1 + 1) by omega), total_eq b q hb, Int.toNat_natCast,
    log2ceil_eq _ hs.1]
  rfl

theorem lossyQTable_eq (b q g : Nat) (hb : b = 12 ∨ b = 14 ∨ b = 16) (hq : q < 3) (total : Int) (ht : total = ((2 : Int) ^ b - 1 + 2 * q) / (2 * q + 1) + 1) :
    lossyQTable b (2 ^ b - 1) q g total (3 * q + 18 : Nat) (5 * q + 67 : Nat) (7 * q + 276 : Nat) = tab b q 3 g := by
  obtain ⟨h1, _⟩ := pow_bits hb
  have h1' : (4096 : Int) ≤ 2 ^ b := by exact_mod_cast h1
  have hs := steps_pos b q hb (by omega)
  unfold lossyQTable tab
  simp only
  rw [if_pos (by omega), if_pos (by omega), if_pos (by omega), ht, total_eq b q hb, Int.toNat_natCast, log2ceil_eq _ hs.1]
  push_cast
  rfl

theorem quantOf_eq (q : Nat) (m x : Int) (h : x ≤ m) : quantOf q (3 * q + 18) (5 * q + 67) (7 * q + 276) m x = level q x := by
  unfold quantOf level
  rw [if_neg (by omega)]
  simp only
  split_ifs <;> omega

theorem table_get (b q multi g : Nat) (v : Int) (h1 : -(2 ^ b - 1) ≤ v) (h2 : v ≤ 2 ^ b - 1) :
    idxI (tab b q multi g).table (2 ^ b - 1 + v) = .ok (level q v) := by
  have hp : (0 : Int) < 2 ^ b := by positivity
  rw [idxI, if_neg (by omega), idx]
  have hl : (2 ^ b - 1 + v).toNat < 2 * 2 ^ b := by
    rw [Int.toNat_lt (by omega)]; push_cast; omega
  simp only [tab, buildTable]
  rw [List.getElem?_map, List.getElem?_range hl]
  simp only [Option.map_some]
  rw [Int.toNat_of_nonneg (by omega), show -((2 : Int) ^ b - 1) + (2 ^ b - 1 + v) = v by omega, quantOf_eq _ _ _ h2]

/-- The tables of a reader. -/
def tabs (b : Nat) (lossless : Bool) (q : Nat) : List QTable :=
  if lossless then [tab b 0 9 0] else [tab b q 9 0, tab b 0 3 5, tab b 1 3 6, tab b 2 3 7]

theorem pick_eq (b : Nat) (lossless : Bool) (q act : Nat) (hl : lossless = true → q = 0) :
    pickFrom (tabs b lossless q) act 3 1 = .ok (tableOf q act) := by
  cases lossless with
  | true =>
    rw [hl rfl]
    rfl
  | false =>
    simp only [tabs, pickFrom, idx, tableOf, tab, Bool.false_eq_true, if_false, List.getElem?_cons_zero, List.getElem?_cons_succ, ok_bind]
    norm_cast
    split_ifs <;> first | rfl | omega

theorem tabs_get (b : Nat) (lossless : Bool) (q act : Nat) (hl : lossless = true → q = 0) :
    ∃ g, idx (tabs b lossless q) (tableOf q act) = .ok (tab b (errorOf q (tableOf q act)) (if tableOf q act = 0 then 9 else 3) g) := by
  cases lossless with
  | true =>
    rw [hl rfl]
    exact ⟨0, rfl⟩
  | false =>
    have h : tableOf q act = 0 ∨ tableOf q act = 1 ∨ tableOf q act = 2 ∨ tableOf q act = 3 := by unfold tableOf; split_ifs <;> omega
    rcases h with h | h | h | h <;> rw [h]
    · exact ⟨0, rfl⟩
    · exact ⟨5, rfl⟩
    · exact ⟨6, rfl⟩
    · exact ⟨7, rfl⟩

theorem errorOf_le (q act : Nat) : errorOf q (tableOf q act) ≤ q := by
  unfold errorOf tableOf
  split_ifs <;> omega

theorem bitDiff_eq (s : Stat) : bitDiff (s.1 : Int) (s.2 : Int) = s.low := by
  have e : ∀ k : Nat, decide ((s.2 : Int) * 2 ^ k ≥ (s.1 : Int)) = decide (s.1 ≤ s.2 * 2 ^ k) := by
    intro k
    rw [decide_eq_decide]
    constructor
    · intro h; exact_mod_cast h
    · intro h; exact_mod_cast h
  unfold bitDiff Stat.low
  by_cases h0 : (s.2 : Int) ≥ s.1
  · rw [if_pos h0, show List.range 15 = 0 :: List.range' 1 14 from rfl, List.find?_cons_of_pos (by simp; omega)]
    rfl
  · rw [if_neg h0]
    simp only [e]
    have n0 : ¬ decide (s.1 ≤ s.2 * 2 ^ 0) = true := by rw [decide_eq_true_iff, Nat.pow_zero]; omega
    have r1 : ((List.range 15).find? fun k => decide (s.1 ≤ s.2 * 2 ^ k)) =
        ((List.range 14).find? fun k => decide (s.1 ≤ s.2 * 2 ^ (k + 1))).map (· + 1) := by
      rw [show List.range 15 = 0 :: (List.range 14).map (· + 1) from rfl, List.find?_cons_of_neg (p := fun k => decide (s.1 ≤ s.2 * 2 ^ k)) n0, List.find?_map]
      rfl
    rw [r1, show List.range 15 = List.range 14 ++ [14] from rfl, List.find?_append]
    cases (List.range 14).find? fun k => decide (s.1 ≤ s.2 * 2 ^ (k + 1)) with
    | some k => rfl
    | none =>
      simp only [Option.map_none, Option.getD_none, Option.none_or, List.find?_singleton]
      split <;> rfl

theorem low_le (s : Stat) : s.low ≤ 15 := by
  unfold Stat.low
  cases h : (List.range 15).find? fun k => decide (s.1 ≤ s.2 * 2 ^ k) with
  | none => simp
  | some k =>
    have := List.mem_of_find?_eq_some h
    rw [List.mem_range] at this
    simp; omega

theorem zerobits_ok (p : PumpMSB) (z : Nat) (rest : List Bool) (h : p.Rep (List.replicate z false ++ true :: rest)) (hr : 30 ≤ rest.length) :
    ∃ p', zerobits p = .ok (z, p') ∧ p'.Rep rest := by
  have hlen : (List.replicate z false ++ true :: rest).length ≤ p.nbits + 8 * p.rest.length ∧ p.nbits ≤ 64 := by
    obtain ⟨h1, h2, h3, h4⟩ := h
    rw [h4]
    constructor
    · simp [length_bytesMSB]
    · omega
  simp at hlen
  obtain ⟨p1, e1, r1⟩ := Verif.Props.zerobits_lawful PumpMSB.lawful (p.rest.length + 3) z 0 p rest h (by omega)
    (by intro i _; simp; omega)
  obtain ⟨p2, e2, r2, a2⟩ := PumpMSB.peek_field p1 _ 1 r1 (by omega) (by simp)
  obtain ⟨p3, e3, r3, -⟩ := PumpMSB.lawful.consume_ok p2 _ 1 r2 a2
  refine ⟨p3, ?_, by simpa using r3⟩
  unfold zerobits
  rw [e1, ok_bind]
  simp only
  rw [e2, ok_bind]
  simp only [List.take_succ_cons, List.take_zero]
  rw [show natMSB [true] = 1 from rfl]
  simp only [assert', beq_self_eq_true, if_true]
  rw [ok_bind, e3, ok_bind, Nat.zero_add]

/-- The difference that a number stands for. -/
def val (sym : Nat) : Int := if sym % 2 ≠ 0 then -1 - (sym / 2 : Nat) else (sym / 2 : Nat)

theorem val_symbol (n : Nat) (hn : 2 ≤ n) (d : Int) : val (symbol n d) = Int.bmod d n ∧ symbol n d < n := by
  have h1 := Int.le_bmod (x := d) (m := n) (by omega)
  have h2 := Int.bmod_lt (x := d) (m := n) (by omega)
  unfold val symbol
  generalize Int.bmod d n = v at *
  split_ifs <;> omega

theorem natAbs_val (sym : Nat) : (val sym).natAbs = (sym + 1) / 2 := by
  unfold val
  split_ifs <;> omega

/-- What every statistic satisfies. -/
def StatOk (s : Stat) : Prop := 1 ≤ s.2 ∧ s.2 ≤ 64 ∧ s.1 ≤ 32768 * s.2

theorem StatOk.add {s : Stat} (h : StatOk s) {d : Nat} (hd : d ≤ 32768) : StatOk (s.add d) := by
  obtain ⟨h1, h2, h3⟩ := h
  unfold Stat.add
  split
  · refine ⟨by omega, by omega, ?_⟩
    simp only
    omega
  · refine ⟨by simp, by simp; omega, ?_⟩
    simp only
    omega

def toGrad (s : Stat) : Grad := ((s.1 : Int), (s.2 : Int))

theorem readCode_ok (pr : Params) (b n : Nat) (hb : b = 12 ∨ b = 14 ∨ b = 16) (hn2 : 2 ≤ n) (hn : n ≤ 2 ^ b) (qt : QTable)
    (hm : pr.maxBits = 4 * b) (hmin : pr.minValue = 64) (hqb : qt.rawBits = digits n) (hqt : qt.total = n) (s : Stat) (hs : StatOk s)
    (sym : Nat) (hsym : sym < n) (p : PumpMSB) (r : List Bool) (hr : 30 ≤ r.length) (h : p.Rep (codeBits b n s sym ++ r)) :
    ∃ p', readCode pr p (toGrad s) qt = .ok (val sym, toGrad (s.add ((sym + 1) / 2)), p') ∧ p'.Rep r := by
  have hd := digits_le n b hn2 hn
  have hp := pow_bits hb
  have hld := low_le s
  have hb12 : 12 ≤ b ∧ b ≤ 16 := by omega
  -- the number is read
  have key : ∃ p1 z, (zerobits p = .ok (z, p1)) ∧ ∃ p', ((if z < 4 * b - digits n - 1 then do
        let (x, p) ← getBits p1 (bitDiff (toGrad s).1 (toGrad s).2)
        .ok (z * 2 ^ bitDiff (toGrad s).1 (toGrad s).2 + x, p)
      else do
        let (x, p) ← getBits p1 qt.rawBits
        .ok (1 + x, p) : R (Nat × PumpMSB)) = .ok (sym, p')) ∧ p'.Rep r := by
    have hbd : bitDiff (toGrad s).1 (toGrad s).2 = s.low := bitDiff_eq s
    unfold codeBits at h
    by_cases hc : sym / 2 ^ s.low < 4 * b - digits n - 1
    · rw [if_pos hc, List.append_assoc, List.cons_append] at h
      obtain ⟨p1, e1, r1⟩ := zerobits_ok p _ _ h (by simp; omega)
      obtain ⟨p2, e2, r2⟩ := PumpMSB.get_field p1 _ _ r r1 (Nat.mod_lt _ (Nat.two_pow_pos _)) (by omega)
      refine ⟨p1, _, e1, p2, ?_, r2⟩
      rw [if_pos hc, hbd, e2, ok_bind]
      simp only
      rw [Nat.mul_comm, Nat.div_add_mod]
    · rw [if_neg hc, List.append_assoc, List.cons_append] at h
      have hpos : 1 ≤ sym := by
        rcases Nat.eq_zero_or_pos sym with h0 | h0
        · rw [h0, Nat.zero_div] at hc; omega
        · exact h0
      obtain ⟨p1, e1, r1⟩ := zerobits_ok p _ _ h (by simp; omega)
      obtain ⟨p2, e2, r2⟩ := PumpMSB.get_field p1 _ _ r r1 (by have := le_digits n hn2; omega) (by omega)
      refine ⟨p1, _, e1, p2, ?_, r2⟩
      rw [if_neg (by omega), hqb, e2, ok_bind]
      simp only
      rw [show 1 + (sym - 1) = sym by omega]
  obtain ⟨p1, z, e1, p2, e2, r2⟩ := key
  refine ⟨p2, ?_, r2⟩
  unfold readCode
  rw [e1, ok_bind]
  simp only
  rw [hm, hqb, usub, if_pos (by omega), ok_bind, usub, if_pos (by omega), ok_bind]
  rw [hqb] at e2
  rw [e2, ok_bind]
  simp only
  rw [hqt, if_neg (by omega)]
  obtain ⟨h1, h2, h3⟩ := hs
  have hv : (if sym % 2 ≠ 0 then -1 - ((sym / 2 : Nat) : Int) else ((sym / 2 : Nat) : Int)) = val sym := rfl
  rw [hv]
  have hchk : chkI32 ((toGrad s).1 + ((val sym).natAbs : Int)) = .ok ((s.1 : Int) + ((sym + 1) / 2 : Nat)) := by
    rw [natAbs_val, chkI32, if_pos (by simp only [toGrad]; omega)]
    rfl
  rw [hchk, ok_bind, hmin]
  unfold Stat.add
  by_cases h64 : s.2 = 64
  · rw [if_pos (show (toGrad s).2 = 64 by simp only [toGrad]; omega), if_pos h64]
    simp [toGrad, h64]
  · rw [if_neg (show ¬ (toGrad s).2 = 64 by simp only [toGrad]; omega), if_neg h64]
    simp [toGrad]

/-- The value read. -/
theorem recon_ok (b e multi g : Nat) (hb : b = 12 ∨ b = 14 ∨ b = 16) (he : e < 256) (pred : Int) (hp0 : 0 ≤ pred) (hp1 : pred ≤ 2 ^ b - 1)
    (x : Nat) (hx : x < 2 ^ b) (grad : Int) :
    recon (tab b e multi g) (2 ^ b - 1) pred grad (val (symbol (steps b e) ((if grad < 0 then -1 else 1) * delta e pred x))) = near b e pred x := by
  obtain ⟨s1, -, s3⟩ := steps_pos b e hb he
  have hpb := pow_bits hb
  rw [(val_symbol _ s1 _).1]
  have hx' : (x : Int) < 2 ^ b := by exact_mod_cast hx
  have s3' : (2 : Int) ^ b + 2 * e ≤ steps b e * (2 * e + 1) := by exact_mod_cast s3
  -- the wanted value before clamping
  obtain ⟨y, hy⟩ : ∃ y, y = pred + delta e pred x * (2 * e + 1) := ⟨_, rfl⟩
  have hy1 : (x : Int) - e ≤ y ∧ y ≤ x + e := by
    have a1 := Int.emod_add_mul_ediv ((x : Int) - pred + e) (2 * e + 1)
    have a2 := Int.emod_nonneg ((x : Int) - pred + e) (show (2 * (e : Int) + 1) ≠ 0 by omega)
    have a3 := Int.emod_lt_of_pos ((x : Int) - pred + e) (show 0 < (2 * (e : Int) + 1) by omega)
    rw [hy, delta, Int.mul_comm]
    omega
  obtain ⟨T, hT⟩ : ∃ T : Int, T = steps b e * (2 * e + 1) := ⟨_, rfl⟩
  -- the value reached, before the wrap
  obtain ⟨v, hv, k, hk, hv1, hv2⟩ : ∃ v, v = (if grad < 0 then pred - Int.bmod ((if grad < 0 then -1 else 1) * delta e pred x) (steps b e) * (2 * e + 1)
      else pred + Int.bmod ((if grad < 0 then -1 else 1) * delta e pred x) (steps b e) * (2 * e + 1)) ∧
      ∃ k, v = y + k * T ∧ 2 * (pred - v) ≤ T ∧ 2 * (v - pred) ≤ T := by
    refine ⟨_, rfl, ?_⟩
    obtain ⟨k, hk⟩ := Int.dvd_bmod_sub_self (x := (if grad < 0 then -1 else 1) * delta e pred x) (m := steps b e)
    have b1 := Int.le_bmod (x := (if grad < 0 then -1 else 1) * delta e pred x) (m := steps b e) (by omega)
    have b2 := Int.bmod_lt (x := (if grad < 0 then -1 else 1) * delta e pred x) (m := steps b e) (by omega)
    generalize hbm : Int.bmod ((if grad < 0 then -1 else 1) * delta e pred x) (steps b e) = d at *
    have hm : (0 : Int) ≤ 2 * e + 1 := by omega
    have c1 : -(steps b e : Int) * (2 * e + 1) ≤ 2 * d * (2 * e + 1) := Int.mul_le_mul_of_nonneg_right (by omega) hm
    have c2 : 2 * d * (2 * e + 1) ≤ (steps b e : Int) * (2 * e + 1) := Int.mul_le_mul_of_nonneg_right (by omega) hm
    have c3 : 2 * d * (2 * e + 1) = 2 * (d * (2 * e + 1)) := by ring
    have c4 : -(steps b e : Int) * (2 * e + 1) = -T := by rw [hT]; ring
    rw [c3, c4] at c1
    rw [c3, ← hT] at c2
    by_cases hg : grad < 0
    · rw [if_pos hg] at hk ⊢
      refine ⟨-k, ?_, by omega, by omega⟩
      rw [hy, hT, show d = -1 * delta e pred x + steps b e * k by omega]
      ring
    · rw [if_neg hg] at hk ⊢
      refine ⟨k, ?_, by omega, by omega⟩
      rw [hy, hT, show d = 1 * delta e pred x + steps b e * k by omega]
      ring
  -- the wrap
  have hw : (if v < -(e : Int) then v + T else if v > e + (2 ^ b - 1) then v - T else v) = y := by
    have hpos : 0 < T := by omega
    have k2 : k ≤ -2 → k * T ≤ -2 * T := fun h => Int.mul_le_mul_of_nonneg_right h (by omega)
    have k3 : 2 ≤ k → 2 * T ≤ k * T := fun h => Int.mul_le_mul_of_nonneg_right h (by omega)
    have kc : k ≤ -2 ∨ k = -1 ∨ k = 0 ∨ k = 1 ∨ 2 ≤ k := by omega
    rcases kc with h | rfl | rfl | rfl | h
    · have := k2 h; exfalso; omega
    · rw [if_pos (by omega)]; omega
    · rw [if_neg (by omega), if_neg (by omega)]; omega
    · rw [if_neg (by omega), if_pos (by omega)]; omega
    · have := k3 h; exfalso; omega
  unfold recon near
  simp only [tab]
  simp only [← hv, ← hT, hw, ← hy]
  split
  · rw [Int.max_eq_right (by omega), Int.min_comm]
  · rw [Int.max_eq_left (by omega)]; rfl

theorem near_le (b e : Nat) (pred : Int) (x : Nat) : near b e pred x ≤ 2 ^ b - 1 := by
  have : (0 : Int) < 2 ^ b := by positivity
  have h2 : ((2 ^ b - 1 : Nat) : Int) = 2 ^ b - 1 := by
    rw [Int.ofNat_sub (Nat.two_pow_pos b)]; push_cast; rfl
  unfold near
  omega

/-- The error is allowed. -/
theorem near_error (b e : Nat) (pred : Int) (x : Nat) (hx : x < 2 ^ b) : near b e pred x ≤ x + e ∧ x ≤ near b e pred x + e := by
  have hx' : (x : Int) < 2 ^ b := by exact_mod_cast hx
  have a1 := Int.emod_add_mul_ediv ((x : Int) - pred + e) (2 * e + 1)
  have a2 := Int.emod_nonneg ((x : Int) - pred + e) (show (2 * (e : Int) + 1) ≠ 0 by omega)
  have a3 := Int.emod_lt_of_pos ((x : Int) - pred + e) (show 0 < (2 * (e : Int) + 1) by omega)
  have : (x : Int) - e ≤ pred + delta e pred x * (2 * e + 1) ∧ pred + delta e pred x * (2 * e + 1) ≤ x + e := by
    rw [delta, Int.mul_comm]
    omega
  unfold near
  omega

end Verif.Fuji
