import Verif.Model.Float
import Verif.Spec.Float
import Verif.Proofs.Grid
/-! # C15: narrow floating point samples are widened exactly; C47: the floating point predictor is undone -/

namespace Verif.Props
open Verif Verif.Spec Verif.Float

theorem and_pow_eq_zero (f wf : Nat) (h : f < 2 ^ (wf + 1)) : f &&& 2 ^ wf = 0 ↔ f < 2 ^ wf := by
  constructor
  · intro h0
    rcases Nat.lt_or_ge f (2 ^ wf) with h1 | h1
    · exact h1
    · exfalso
      have ht : f.testBit wf = true := by
        rw [Nat.testBit_eq_decide_div_mod_eq]
        have : f / 2 ^ wf = 1 := by
          apply Nat.div_eq_of_lt_le
          · omega
          · rw [Nat.pow_succ] at h; omega
        simp [this]
      have : (f &&& 2 ^ wf).testBit wf = true := by rw [Nat.testBit_and, ht, Nat.testBit_two_pow_self]; rfl
      rw [h0] at this
      simp at this
  · intro h1
    apply Nat.eq_of_testBit_eq
    intro i
    rw [Nat.testBit_and, Nat.testBit_two_pow, Nat.zero_testBit]
    by_cases hi : wf = i
    · subst hi
      rw [Nat.testBit_lt_two_pow h1]; rfl
    · simp [hi]

/-- The loop doubles the fraction until its top bit is set and lowers the exponent as often. -/
theorem normalise_ok (wf : Nat) (hwf : wf ≤ 30) (j : Nat) : ∀ (fuel e f : Nat), j < fuel → 2 ^ wf ≤ f * 2 ^ j → f < 2 ^ (wf + 1) → j ≤ e →
    ∃ k, k ≤ j ∧ normalise wf fuel e f = .ok (e - k, f * 2 ^ k) ∧ 2 ^ wf ≤ f * 2 ^ k ∧ f * 2 ^ k < 2 ^ (wf + 1) := by
  have h31 : 2 ^ (wf + 1) ≤ 2 ^ 31 := Nat.pow_le_pow_right (by omega) (by omega)
  induction j with
  | zero =>
    intro fuel e f hf h1 h2 _
    match fuel, hf with
    | fuel + 1, _ =>
      refine ⟨0, by omega, ?_, by omega, by omega⟩
      rw [normalise, if_neg (by rw [and_pow_eq_zero f wf h2]; omega)]
      simp
  | succ j ih =>
    intro fuel e f hf h1 h2 he
    match fuel, hf with
    | fuel + 1, hf =>
      rw [normalise]
      by_cases h : f &&& 2 ^ wf = 0
      · rw [if_pos h, usub, if_pos (by omega)]
        have hlt := (and_pow_eq_zero f wf h2).mp h
        have hs : (f <<< 1) % 2 ^ 32 = f * 2 := by
          rw [Nat.shiftLeft_eq, Nat.mod_eq_of_lt (by rw [Nat.pow_succ] at h31; omega)]
        simp only [bind, Except.bind]
        rw [hs]
        obtain ⟨k, k1, k2, k3, k4⟩ := ih fuel (e - 1) (f * 2) (by omega)
          (by rw [Nat.mul_assoc, ← Nat.pow_succ']; exact h1) (by rw [Nat.pow_succ]; omega) (by omega)
        refine ⟨k + 1, by omega, ?_, ?_, ?_⟩
        · rw [k2, Nat.pow_succ', Nat.mul_assoc]; congr 2
          omega
        · rw [Nat.pow_succ', ← Nat.mul_assoc]; exact k3
        · rw [Nat.pow_succ', ← Nat.mul_assoc]; exact k4
      · rw [if_neg h]
        have hge := mt (and_pow_eq_zero f wf h2).mpr h
        exact ⟨0, by omega, by simp, by omega, by omega⟩

/-- The three fields of the wide number put together. -/
theorem pack32 (s e f : Nat) (hs : s < 2) (he : e < 256) (hf : f < 2 ^ 23) :
    ((s <<< 31) % 2 ^ 32) ||| ((e <<< 23) % 2 ^ 32) ||| f = s * 2 ^ 31 + e * 2 ^ 23 + f := by
  have h1 : (s <<< 31) % 2 ^ 32 = s <<< 31 := Nat.mod_eq_of_lt (by rw [Nat.shiftLeft_eq]; omega)
  have h2 : (e <<< 23) % 2 ^ 32 = e <<< 23 := Nat.mod_eq_of_lt (by rw [Nat.shiftLeft_eq]; omega)
  rw [h1, h2, Nat.or_assoc, ← Nat.shiftLeft_add_eq_or_of_lt hf, ← Nat.shiftLeft_add_eq_or_of_lt (by rw [Nat.shiftLeft_eq]; omega),
    Nat.shiftLeft_eq, Nat.shiftLeft_eq]
  omega

/-- Widening of the fields, for a narrow format with `nf` fraction and `ne` exponent bits. -/
theorem wideFields_ok (n : Fmt) (hf : n.frac ≤ 22) (he1 : 2 ≤ n.exp) (he : n.exp ≤ 7) (hb : n.bias + n.frac ≤ 127) (s e f : Nat)
    (hle : e < 2 ^ n.exp) (hlf : f < 2 ^ n.frac) :
    ∃ e' f', wideFields n binary32 e f = .ok (e', f') ∧ e' < 256 ∧ f' < 2 ^ 23 ∧
      fvalOf 23 8 s e' f' = fvalOf n.frac n.exp s e f := by
  have hbias : binary32.bias = 127 := by decide
  have hp23 : 2 ^ n.frac * 2 ^ (23 - n.frac) = 2 ^ 23 := by rw [← Nat.pow_add]; congr 1; omega
  have hpp := Nat.two_pow_pos (23 - n.frac)
  have hfw : f * 2 ^ (23 - n.frac) < 2 ^ 23 := by rw [← hp23]; exact (Nat.mul_lt_mul_right hpp).mpr hlf
  have hne7 : 2 ^ n.exp ≤ 2 ^ 7 := Nat.pow_le_pow_right (by omega) he
  have hexp2 : 2 ^ n.exp = 2 * 2 ^ (n.exp - 1) := by rw [← Nat.pow_succ']; congr 1; omega
  have hnb : n.bias = 2 ^ (n.exp - 1) - 1 := rfl
  have hne1 : 2 ^ 1 ≤ 2 ^ (n.exp - 1) := Nat.pow_le_pow_right (by omega) (by omega)
  rw [wideFields]
  simp only [show binary32.frac = 23 from rfl, show binary32.exp = 8 from rfl, hbias, Nat.shiftLeft_eq]
  by_cases h1 : e = 2 ^ n.exp - 1
  · rw [if_pos h1]
    refine ⟨_, _, rfl, by omega, hfw, ?_⟩
    rw [fvalOf, fvalOf, if_pos rfl, if_pos h1]
    congr 1
    rw [Nat.mul_eq_zero]
    simp only [eq_iff_iff]
    constructor
    · intro h; rcases h with h | h <;> omega
    · intro h; exact Or.inl h
  rw [if_neg h1]
  by_cases h2 : e = 0
  · rw [if_pos h2]
    by_cases h3 : f = 0
    · rw [if_pos h3]
      refine ⟨0, 0, rfl, by omega, by omega, ?_⟩
      rw [fvalOf, fvalOf, if_neg h1, if_pos h2, h3]
      simp
    · rw [if_neg h3]
      obtain ⟨k, k1, k2, k3, k4⟩ := normalise_ok 23 (by omega) n.frac 33 (1 + 127 - n.bias) (f * 2 ^ (23 - n.frac)) (by omega)
        (by rw [Nat.mul_assoc, ← Nat.pow_add, show 23 - n.frac + n.frac = 23 by omega]
            exact Nat.le_mul_of_pos_left _ (by omega))
        (by omega) (by omega)
      rw [k2]
      simp only [bind, Except.bind]
      refine ⟨_, _, rfl, by omega, ?_, ?_⟩
      · rw [Nat.and_two_pow_sub_one_eq_mod]; exact Nat.mod_lt _ (by decide)
      · rw [Nat.and_two_pow_sub_one_eq_mod]
        have hmod : 2 ^ 23 + f * 2 ^ (23 - n.frac) * 2 ^ k % 2 ^ 23 = f * 2 ^ (23 - n.frac) * 2 ^ k := by omega
        rw [fvalOf, fvalOf, if_neg (by omega), if_neg (by omega), if_neg h1, if_pos h2, hmod, ← hnb]
        refine congrArg _ ?_
        rw [Nat.mul_assoc, Nat.mul_assoc, ← Nat.pow_add, ← Nat.pow_add]
        have hx : 23 - n.frac + (k + (149 + (1 + 127 - n.bias - k) - (2 ^ (8 - 1) - 1 + 23))) = 150 - (n.bias + n.frac) := by omega
        rw [hx]
  · rw [if_neg h2]
    refine ⟨_, _, rfl, by omega, hfw, ?_⟩
    rw [fvalOf, fvalOf, if_neg (by omega), if_neg (by omega), if_neg h1, if_neg h2, ← hnb]
    refine congrArg _ ?_
    rw [← hp23, ← Nat.add_mul, Nat.mul_assoc, ← Nat.pow_add]
    have hx : 23 - n.frac + (149 + (e + 127 - n.bias) - (2 ^ (8 - 1) - 1 + 23)) = 149 + e - (n.bias + n.frac) := by omega
    rw [hx]

/-- **C15.** Widening a half precision or 24 bit float to single precision keeps its value: the same number (also for
subnormal numbers and signed zeros), the same infinity, or not a number. -/
theorem C15_float_widened_exactly (n : Fmt) (hn : n = binary16 ∨ n = binary24) (v : Nat) (hv : v < 2 ^ n.storage) :
    ∃ r, extend n binary32 v = .ok r ∧ r < 2 ^ 32 ∧ fval 23 8 r = fval n.frac n.exp v := by
  have hst : n.storage = n.frac + n.exp + 1 := by rcases hn with rfl | rfl <;> rfl
  have h1 : n.frac ≤ 22 := by rcases hn with rfl | rfl <;> decide
  have h2 : 2 ≤ n.exp ∧ n.exp ≤ 7 := by rcases hn with rfl | rfl <;> decide
  have h3 : n.bias + n.frac ≤ 127 := by rcases hn with rfl | rfl <;> decide
  obtain ⟨e', f', e1, e2, e3, e4⟩ := wideFields_ok n h1 h2.1 h2.2 h3 (v / 2 ^ (n.frac + n.exp) % 2) (v / 2 ^ n.frac % 2 ^ n.exp)
    (v % 2 ^ n.frac) (Nat.mod_lt _ (Nat.two_pow_pos _)) (Nat.mod_lt _ (Nat.two_pow_pos _))
  refine ⟨v / 2 ^ (n.frac + n.exp) % 2 * 2 ^ 31 + e' * 2 ^ 23 + f', ?_, ?_, ?_⟩
  · rw [extend]
    simp only [Nat.shiftRight_eq_div_pow, Nat.and_two_pow_sub_one_eq_mod, Nat.and_one_is_mod, hst, Nat.add_sub_cancel]
    rw [e1]
    simp only [bind, Except.bind]
    rw [show binary32.storage - 1 = 31 from rfl, show binary32.frac = 23 from rfl, pack32 _ _ _ (Nat.mod_lt _ (by decide)) e2 e3]
  · have : v / 2 ^ (n.frac + n.exp) % 2 < 2 := Nat.mod_lt _ (by decide)
    generalize v / 2 ^ (n.frac + n.exp) % 2 = s at *
    omega
  · rw [fval, fval, ← e4]
    have : v / 2 ^ (n.frac + n.exp) % 2 < 2 := Nat.mod_lt _ (by decide)
    generalize v / 2 ^ (n.frac + n.exp) % 2 = s at *
    congr 1 <;> omega

/-- the smallest half precision subnormal, minus zero, minus infinity, and 1.5 as a 24 bit float -/
example : extend binary16 binary32 1 = .ok 0x33800000 ∧ extend binary16 binary32 0x8000 = .ok 0x80000000 ∧
    extend binary16 binary32 0xfc00 = .ok 0xff800000 ∧ extend binary24 binary32 0x3f8000 = .ok 0x3fc00000 := by decide +kernel

/-! ## The floating point predictor -/

theorem getD_lt' {α : Type} (l : List α) (d : α) {i : Nat} (h : i < l.length) : l.getD i d = l[i] := by
  simp [h]

theorem differences_length (factor : Nat) (l : List Nat) : (differences factor l).length = l.length := by
  rw [differences, List.length_map, List.length_range]

theorem differences_get (factor : Nat) (l : List Nat) (i : Nat) (h : i < (differences factor l).length) :
    (differences factor l)[i] = if i < factor then l.getD i 0 else (l.getD i 0 + 256 - l.getD (i - factor) 0) % 256 := by
  simp [differences]

/-- The running sum undoes the differences. -/
theorem decodeDelta_ok (factor : Nat) (hf : 0 < factor) (l : List Nat) (hl : IsBytes l) :
    decodeDelta factor (differences factor l) = .ok l := by
  have hlen := differences_length factor l
  rw [decodeDelta, hlen]
  obtain ⟨s, h1, h2, h3⟩ := forN_inv (l.length - factor) (fun i s => do
      let a ← idx s (factor + i)
      let b ← idx s (factor + i - factor)
      upd s (factor + i) ((a + b) % 256))
    (fun i (s : List Nat) => s.length = l.length ∧ ∀ (k : Nat), (hk : k < s.length) → s[k] = if k < factor + i then l.getD k 0 else (differences factor l).getD k 0)
    (differences factor l)
    ⟨hlen, fun k hk => by
      rw [getD_lt' _ _ hk]
      split
      · rename_i h
        rw [differences_get, if_pos (by omega)]
      · rfl⟩
    (by
      rintro i s hi ⟨a1, a2⟩
      have e1 : idx s (factor + i) = .ok s[factor + i] := idx_lt _ _ (by omega)
      have e2 : idx s (factor + i - factor) = .ok s[factor + i - factor] := idx_lt _ _ (by omega)
      have hsum : (s[factor + i] + s[factor + i - factor]) % 256 = l.getD (factor + i) 0 := by
        rw [a2, a2, if_neg (by omega), if_pos (by omega), getD_lt' _ _ (by omega : factor + i < (differences factor l).length),
          differences_get, if_neg (by omega)]
        have b1 : l.getD (factor + i) 0 < 256 := by
          rw [getD_lt' _ _ (by omega)]; exact hl _ (List.getElem_mem _)
        have b2 : l.getD (factor + i - factor) 0 < 256 := by
          rw [getD_lt' _ _ (by omega)]; exact hl _ (List.getElem_mem _)
        omega
      refine ⟨s.set (factor + i) (l.getD (factor + i) 0), ?_, by rw [List.length_set]; exact a1, ?_⟩
      · rw [e1, e2]
        simp only [bind, Except.bind]
        rw [upd_lt _ _ _ (by omega), hsum]
      · intro k hk
        rw [List.length_set] at hk
        rw [List.getElem_set]
        by_cases h : factor + i = k
        · subst h
          rw [if_pos rfl, if_pos (by omega)]
        · rw [if_neg h, a2 k hk]
          by_cases h' : k < factor + i
          · rw [if_pos h', if_pos (by omega)]
          · rw [if_neg h', if_neg (by omega)])
  rw [h1]
  congr 1
  apply List.ext_getElem h2
  intro k hk hk'
  rw [h3 k hk]
  by_cases h : k < factor + (l.length - factor)
  · rw [if_pos h, getD_lt' _ _ hk']
  · omega

theorem isBytes_planes (b : Nat) (samples : List Nat) : IsBytes (planes b samples) := by
  intro x hx
  simp only [planes, List.mem_flatMap, List.mem_map] at hx
  obtain ⟨_, _, v, _, rfl⟩ := hx
  exact Nat.mod_lt _ (by decide)

theorem planes_length (b : Nat) (samples : List Nat) : (planes b samples).length = b * samples.length := by
  rw [planes, flatMap_len b samples.length]
  intro r _; simp

theorem planes_get (b : Nat) (samples : List Nat) (c col : Nat) (hc : c < b) (hcol : col < samples.length) :
    idx (planes b samples) (col + c * samples.length) = .ok (samples[col] / 256 ^ (b - 1 - c) % 256) := by
  have hlt : c * samples.length + col < (planes b samples).length := by rw [planes_length]; exact mul_add_lt hc hcol
  rw [Nat.add_comm, idx_lt _ _ hlt]
  congr 1
  have := flatMap_get b samples.length (fun c => samples.map fun v => v / 256 ^ (b - 1 - c) % 256) (by intro r _; simp) c col hc hcol
  rw [← planes, List.getElem?_eq_getElem hlt] at this
  simpa [hcol] using this

theorem planeValue_ok (n : Fmt) (hn : n = binary16 ∨ n = binary24 ∨ n = binary32) (samples : List Nat) (col : Nat) (hcol : col < samples.length)
    (hv : samples[col] < 2 ^ n.storage) :
    planeValue n (planes (n.storage / 8) samples) samples.length col = .ok samples[col] := by
  rw [planeValue, mapM_ok_of _ (fun c => samples[col] / 256 ^ (n.storage / 8 - 1 - c) % 256) _
    (fun c hc => planes_get _ _ _ _ (List.mem_range.mp hc) hcol)]
  simp only [bind, Except.bind]
  congr 1
  generalize samples[col] = v at hv ⊢
  rcases hn with rfl | rfl | rfl
  · simp only [binary16] at hv ⊢
    simp [List.range_succ, List.replicate_succ, Nat.shiftRight_eq_div_pow]
    omega
  · simp only [binary24] at hv ⊢
    simp [List.range_succ, List.replicate_succ, Nat.shiftRight_eq_div_pow]
    omega
  · simp only [binary32] at hv ⊢
    simp [List.range_succ, List.replicate_succ, Nat.shiftRight_eq_div_pow]
    omega

theorem deflateRow_ok (n : Fmt) (hn : n = binary16 ∨ n = binary24 ∨ n = binary32) (factor : Nat) (hf : 0 < factor) (samples : List Nat)
    (hs : ∀ v ∈ samples, v < 2 ^ n.storage) :
    deflateRow n factor (differences factor (planes (n.storage / 8) samples)) samples.length = samples.mapM (extend n binary32) := by
  rw [deflateRow, decodeDelta_ok factor hf _ (isBytes_planes _ _)]
  simp only [bind, Except.bind]
  rw [decodeFpRow]
  have h1 : ∀ (l : List Nat), (∀ i ∈ l, i < samples.length) →
      l.mapM (fun col => do
        let v ← planeValue n (planes (n.storage / 8) samples) samples.length col
        extend n binary32 v) = l.mapM (fun i => extend n binary32 (samples.getD i 0)) := by
    intro l
    induction l with
    | nil => intro _; rfl
    | cons i l ih =>
      intro hl
      have hi := hl i List.mem_cons_self
      rw [List.mapM_cons, List.mapM_cons, ih (fun j hj => hl j (List.mem_cons_of_mem _ hj)),
        planeValue_ok n hn samples i hi (hs _ (List.getElem_mem _)), getD_lt' _ _ hi]
      rfl
  have h2 : samples.mapM (extend n binary32) = (List.range samples.length).mapM (fun i => extend n binary32 (samples.getD i 0)) := by
    have : samples = (List.range samples.length).map (fun i => samples.getD i 0) := by
      apply List.ext_getElem
      · simp
      · intro i h1 h2; simp [h1]
    conv => lhs; rw [this]
    rw [List.mapM_map]
    rfl
  rw [h2]
  exact h1 _ (fun i hi => List.mem_range.mp hi)

theorem flatten_chunk (n : Nat) (rows : List (List Nat)) (h : ∀ r ∈ rows, r.length = n) : ∀ (i : Nat) (hi : i < rows.length),
    (rows.flatten.drop (i * n)).take n = rows[i] := by
  induction rows with
  | nil => intro i hi; simp at hi
  | cons r rows ih =>
    have hr := h r List.mem_cons_self
    intro i hi
    cases i with
    | zero => simp [← hr]
    | succ i =>
      rw [List.flatten_cons, Nat.succ_mul, Nat.add_comm, ← List.drop_drop, List.drop_append_of_le_length (by omega), ← hr, List.drop_length,
        List.nil_append, hr]
      exact ih (fun x hx => h x (List.mem_cons_of_mem _ hx)) i (by simpa using hi)

theorem flatten_length (n : Nat) (rows : List (List Nat)) (h : ∀ r ∈ rows, r.length = n) : rows.flatten.length = rows.length * n := by
  induction rows with
  | nil => simp
  | cons r rows ih =>
    rw [List.flatten_cons, List.length_append, ih (fun x hx => h x (List.mem_cons_of_mem _ hx)), h r List.mem_cons_self, List.length_cons,
      Nat.succ_mul, Nat.add_comm]

theorem chunksExact_flatten (n : Nat) (hn : 0 < n) (rows : List (List Nat)) (h : ∀ r ∈ rows, r.length = n) :
    chunksExact rows.flatten n = .ok rows := by
  rw [chunksExact, if_neg (by omega), flatten_length n rows h, Nat.mul_div_cancel _ hn]
  congr 1
  apply List.ext_getElem
  · simp
  · intro i h1 h2
    simp only [List.getElem_map, List.getElem_range]
    exact flatten_chunk n rows h i h2

/-- A tile of rows, in the order differencing undone, planes joined, samples widened. -/
theorem deflate_ok (inflate : List Nat → Option (List Nat)) (factor bps : Nat) (n : Fmt) (hn : deflateFmt bps = .ok n) (hf : 0 < factor)
    (width : Nat) (hw : 0 < width) (rows lines : List (List Nat)) (hr : ∀ r ∈ rows, r.length = width ∧ ∀ v ∈ r, v < 2 ^ bps)
    (hl : lines.length = rows.length) (src : List Nat)
    (hsrc : inflate src = some (rows.flatMap fun r => differences factor (planes (bps / 8) r))) :
    deflate inflate factor bps src 0 lines width = rows.mapM fun r => r.mapM (extend n binary32) := by
  have hcase : (bps = 16 ∧ n = binary16) ∨ (bps = 24 ∧ n = binary24) ∨ (bps = 32 ∧ n = binary32) := by
    rw [deflateFmt] at hn
    split at hn
    · cases hn; left; exact ⟨by assumption, rfl⟩
    · split at hn
      · cases hn; right; left; exact ⟨by assumption, rfl⟩
      · split at hn
        · cases hn; right; right; exact ⟨by assumption, rfl⟩
        · cases hn
  have hst : n.storage = bps := by rcases hcase with ⟨rfl, rfl⟩ | ⟨rfl, rfl⟩ | ⟨rfl, rfl⟩ <;> rfl
  have hn3 : n = binary16 ∨ n = binary24 ∨ n = binary32 := by
    rcases hcase with h | h | h
    · exact Or.inl h.2
    · exact Or.inr (Or.inl h.2)
    · exact Or.inr (Or.inr h.2)
  have hb : 2 ≤ bps / 8 ∧ bps / 8 ≤ 4 := by rcases hcase with ⟨rfl, _⟩ | ⟨rfl, _⟩ | ⟨rfl, _⟩ <;> decide
  have hrow : ∀ x ∈ rows.map (fun r => differences factor (planes (bps / 8) r)), x.length = bps / 8 * width := by
    intro x hx
    obtain ⟨r, h1, rfl⟩ := List.mem_map.mp hx
    rw [differences_length, planes_length, (hr r h1).1]
  have hlen := flatten_length _ _ hrow
  rw [List.flatMap_def] at hsrc
  rw [deflate, hsrc]
  simp only [assert', decide_eq_true hb, if_true, bind, Except.bind]
  rw [if_neg (by rw [hlen, hl, List.length_map, Nat.mul_comm]; simp), chunksExact_flatten _ (Nat.mul_pos (by omega) hw) _ hrow]
  simp only [List.drop_zero, List.take_zero, List.nil_append, hn]
  have key : ∀ (rows lines : List (List Nat)), (∀ r ∈ rows, r.length = width ∧ ∀ v ∈ r, v < 2 ^ bps) → lines.length = rows.length →
      (lines.zip (rows.map fun r => differences factor (planes (bps / 8) r))).mapM (fun (x : List Nat × List Nat) =>
        deflateRow n factor x.2 width) = rows.mapM fun r => r.mapM (extend n binary32) := by
    intro rows
    induction rows with
    | nil => intro lines _ h; rw [List.map_nil, List.zip_nil_right]; rfl
    | cons r rows ih =>
      intro lines h h'
      match lines, h' with
      | l :: lines, h' =>
        have hr := h r List.mem_cons_self
        rw [List.map_cons, List.zip_cons_cons, List.mapM_cons, List.mapM_cons,
          ih lines (fun x hx => h x (List.mem_cons_of_mem _ hx)) (by simpa using h')]
        have := deflateRow_ok n hn3 factor hf r (by rw [hst]; exact hr.2)
        rw [hst, hr.1] at this
        rw [this]
  rw [key rows lines hr hl]
  cases (rows.mapM fun r => r.mapM (extend n binary32)) <;> rfl

theorem mapM_maps {α β γ : Type} (f : α → R β) (p : α → γ) (q : β → γ) (l : List α) (h : ∀ x ∈ l, ∃ y, f x = .ok y ∧ q y = p x) :
    ∃ out, l.mapM f = .ok out ∧ out.map q = l.map p := by
  induction l with
  | nil => exact ⟨[], rfl, rfl⟩
  | cons x l ih =>
    obtain ⟨y, h1, h2⟩ := h x List.mem_cons_self
    obtain ⟨ys, h3, h4⟩ := ih (fun z hz => h z (List.mem_cons_of_mem _ hz))
    refine ⟨y :: ys, ?_, by rw [List.map_cons, List.map_cons, h2, h4]⟩
    rw [List.mapM_cons, h1, h3]; rfl

/-- **C47.** A tile of half precision or 24 bit floats, stored as DNG prescribes (byte planes, differenced at the distance the
predictor tag selects), comes out of the Deflate decoder with every sample's value unchanged. -/
theorem C47_float_predictor_round_trip (inflate : List Nat → Option (List Nat)) (cpp predictor factor bps : Nat)
    (hp : predFactor cpp predictor = .ok factor) (hcpp : 0 < cpp) (n : Fmt) (hn : bps = 16 ∧ n = binary16 ∨ bps = 24 ∧ n = binary24)
    (width : Nat) (hw : 0 < width) (rows lines : List (List Nat)) (hr : ∀ r ∈ rows, r.length = width ∧ ∀ v ∈ r, v < 2 ^ bps)
    (hl : lines.length = rows.length) (src : List Nat)
    (hsrc : inflate src = some (rows.flatMap fun r => differences factor (planes (bps / 8) r))) :
    ∃ out, deflate inflate factor bps src 0 lines width = .ok out ∧
      out.map (·.map (fval 23 8)) = rows.map (·.map (fval n.frac n.exp)) := by
  have hf : 0 < factor := by
    rw [predFactor] at hp
    split at hp
    · cases hp; omega
    · split at hp
      · cases hp; omega
      · split at hp
        · cases hp; omega
        · cases hp
  have hfmt : deflateFmt bps = .ok n := by rcases hn with ⟨rfl, rfl⟩ | ⟨rfl, rfl⟩ <;> rfl
  have hst : n.storage = bps := by rcases hn with ⟨rfl, rfl⟩ | ⟨rfl, rfl⟩ <;> rfl
  have hn2 : n = binary16 ∨ n = binary24 := by rcases hn with h | h; exact Or.inl h.2; exact Or.inr h.2
  rw [deflate_ok inflate factor bps n hfmt hf width hw rows lines hr hl src hsrc]
  refine mapM_maps _ _ _ _ ?_
  intro r hmem
  refine mapM_maps _ _ _ _ ?_
  intro v hv
  obtain ⟨x, h1, _, h2⟩ := C15_float_widened_exactly n hn2 v (by rw [hst]; exact (hr r hmem).2 v hv)
  exact ⟨x, h1, h2⟩

theorem extend32_normal (v : Nat) (hv : v < 2 ^ 32) (h : v / 2 ^ 23 % 2 ^ 8 ≠ 0 ∨ v % 2 ^ 23 = 0) : extend binary32 binary32 v = .ok v := by
  have hs : v / 2 ^ 31 % 2 < 2 := Nat.mod_lt _ (by decide)
  have he : v / 2 ^ 23 % 2 ^ 8 < 256 := Nat.mod_lt _ (by decide)
  have hf : v % 2 ^ 23 < 2 ^ 23 := Nat.mod_lt _ (by decide)
  have hw : wideFields binary32 binary32 (v / 2 ^ 23 % 2 ^ 8) (v % 2 ^ 23) = .ok (v / 2 ^ 23 % 2 ^ 8, v % 2 ^ 23) := by
    rw [wideFields]
    simp only [show binary32.frac = 23 from rfl, show binary32.exp = 8 from rfl, Nat.sub_self, Nat.shiftLeft_zero]
    by_cases h1 : v / 2 ^ 23 % 2 ^ 8 = 2 ^ 8 - 1
    · rw [if_pos h1, h1]
    · rw [if_neg h1]
      by_cases h2 : v / 2 ^ 23 % 2 ^ 8 = 0
      · have h3 : v % 2 ^ 23 = 0 := by rcases h with h | h; exact absurd h2 h; exact h
        rw [if_pos h2, if_pos h3, h2, h3]
      · rw [if_neg h2, Nat.add_sub_cancel]
  rw [extend]
  simp only [Nat.shiftRight_eq_div_pow, Nat.and_two_pow_sub_one_eq_mod, Nat.and_one_is_mod]
  simp only [show binary32.frac = 23 from rfl, show binary32.exp = 8 from rfl, show binary32.storage - 1 = 31 from rfl, hw, bind, Except.bind]
  rw [pack32 _ _ _ hs he hf]
  congr 1
  omega

/-- **C47, 32 bit samples.** Single precision tiles come back bit for bit when no sample is subnormal. Missing: subnormal samples,
see `C47_single_subnormal_lost`. -/
theorem C47_single_precision_partial (inflate : List Nat → Option (List Nat)) (factor : Nat) (hf : 0 < factor)
    (width : Nat) (hw : 0 < width) (rows lines : List (List Nat))
    (hr : ∀ r ∈ rows, r.length = width ∧ ∀ v ∈ r, v < 2 ^ 32 ∧ (v / 2 ^ 23 % 2 ^ 8 ≠ 0 ∨ v % 2 ^ 23 = 0))
    (hl : lines.length = rows.length) (src : List Nat)
    (hsrc : inflate src = some (rows.flatMap fun r => differences factor (planes 4 r))) :
    deflate inflate factor 32 src 0 lines width = .ok rows := by
  rw [deflate_ok inflate factor 32 binary32 rfl hf width hw rows lines (fun r h => ⟨(hr r h).1, fun v hv => ((hr r h).2 v hv).1⟩) hl src hsrc]
  have := mapM_ok_of (fun r : List Nat => r.mapM (extend binary32 binary32)) id rows (fun r h => by
    have := mapM_ok_of (extend binary32 binary32) id r (fun v hv => extend32_normal v ((hr r h).2 v hv).1 ((hr r h).2 v hv).2)
    simpa using this)
  simpa using this

/-- A single precision subnormal loses its value (here `2^-127` becomes 0) or panics (the smallest subnormal). -/
theorem C47_single_subnormal_lost : extend binary32 binary32 0x400000 = .ok 0 ∧ fval 23 8 0x400000 = .num false (2 ^ 22) ∧
    fval 23 8 0 = .num false 0 ∧ extend binary32 binary32 1 = panic' := by decide +kernel

/-- a two row tile of half floats, predictor 34894 on one component -/
example : predFactor 1 34894 = .ok 2 ∧ differences 2 (planes 2 [0x3c00, 0x0001, 0xfc00]) = [0x3c, 0, 0xc0, 0, 5, 0] ∧
    deflate (fun x => some x) 2 16 [0x3c, 0, 0xc0, 0, 5, 0, 0, 0, 0, 0, 0, 0] 0 [[0, 0, 0], [0, 0, 0]] 3
      = .ok [[0x3f800000, 0x33800000, 0xff800000], [0, 0, 0]] := by decide +kernel
example : deflate (fun x => some x) 1 32 (differences 1 (planes 4 [0x3f800000, 0x80000000])) 0 [[0, 0]] 2
    = .ok [[0x3f800000, 0x80000000]] := by decide +kernel

theorem mapM_drop {α β : Type} (f : α → R β) (l : List α) (out : List β) (h : l.mapM f = .ok out) (k : Nat) : (l.drop k).mapM f = .ok (out.drop k) := by
  induction l generalizing out k with
  | nil => cases h; simp [pure, Except.pure]
  | cons a l ih =>
    rw [List.mapM_cons] at h
    cases ha : f a with
    | error e => rw [ha] at h; cases h
    | ok b =>
      cases hl : l.mapM f with
      | error e => rw [ha, hl] at h; cases h
      | ok bs =>
        rw [ha, hl] at h
        cases h
        cases k with
        | zero => rw [List.drop_zero, List.drop_zero, List.mapM_cons, ha, hl]; rfl
        | succ k => exact ih bs hl k

/-- **C47**, rows left out: with `skip` rows to be skipped the tile is the same, except that these rows are left as they were. -/
theorem C47_skipped_rows_kept (inflate : List Nat → Option (List Nat)) (factor bps width : Nat) (src : List Nat) (lines out : List (List Nat))
    (h : deflate inflate factor bps src 0 lines width = .ok out) (skip : Nat) :
    deflate inflate factor bps src skip lines width = .ok (lines.take skip ++ out.drop skip) := by
  rw [deflate] at h ⊢
  cases hi : inflate src with
  | none => rw [hi] at h; cases h
  | some data =>
    rw [hi] at h
    simp only [] at h ⊢
    cases ha : assert' (2 ≤ bps / 8 ∧ bps / 8 ≤ 4) with
    | error e => rw [ha] at h; cases h
    | ok u =>
      rw [ha] at h
      simp only [bind, Except.bind] at h ⊢
      by_cases hd : data.length ≠ bps / 8 * width * lines.length
      · rw [if_pos hd] at h; cases h
      · rw [if_neg hd] at h ⊢
        cases hr : chunksExact data (bps / 8 * width) with
        | error e => rw [hr] at h; cases h
        | ok rows =>
          rw [hr] at h
          dsimp only at h ⊢
          rw [List.drop_zero, List.take_zero] at h
          split at h
          · cases h
          · rename_i o hm
            cases h
            rw [mapM_drop _ _ _ hm skip]
            rfl

example : deflate (fun x => some x) 2 16 [0x3c, 0, 0xc0, 0, 5, 0, 0, 0, 0, 0, 0, 0] 1 [[7, 8, 9], [0, 0, 0]] 3 = .ok [[7, 8, 9], [0, 0, 0]] := by decide +kernel

end Verif.Props
