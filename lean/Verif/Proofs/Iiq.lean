import Verif.Proofs.Hassel
import Verif.Proofs.Srw
import Verif.Proofs.Ciff
import Verif.Proofs.Packed
import Verif.Model.Iiq
import Verif.Spec.Iiq
import Mathlib.Tactic.IntervalCases
/-! # Phase One IIQ -/

namespace Verif.Iiq
open Verif Verif.Pumps Verif.Spec Verif.Spec.Iiq
open Verif.Spec.Srw (BitsAt)
open Verif.Orf (ok_bind)

theorem rep_at {buf : List Nat} (hb : IsBytes buf) {off : Nat} {bits : List Bool} (h : BitsAt buf off bits) :
    ∃ src pad, Packed.from' buf off = .ok src ∧ (PumpMSB32.new src).RepT (bits ++ pad) := by
  obtain ⟨ho, n, pad, hn, e⟩ := h
  refine ⟨buf.drop off, pad, by rw [Packed.from', if_pos ho], ?_⟩
  have := PumpMSB32.repT_new ((buf.drop off).take (4 * n)) ((buf.drop off).drop (4 * n))
    (fun b hb' => hb b (List.mem_of_mem_drop (List.mem_of_mem_take hb'))) (by simp; omega)
  rw [e, List.take_append_drop] at this
  exact this

theorem get_field {p : PumpMSB32} {n v : Nat} {r : List Bool} (h : p.RepT (bitsMSB n v ++ r)) (hv : v < 2 ^ n) (hn : n ≤ 32) :
    ∃ p', getBits p n = .ok (v, p') ∧ p'.RepT r :=
  getBits_field PumpMSB32.lawfulT p n v r h hv hn (by simp)

theorem get_one {p : PumpMSB32} {r : List Bool} (h : p.RepT (true :: r)) : ∃ p', getBits p 1 = .ok (1, p') ∧ p'.RepT r :=
  get_field (n := 1) (v := 1) h (by omega) (by omega)

theorem get_zero {p : PumpMSB32} {r : List Bool} (h : p.RepT (false :: r)) : ∃ p', getBits p 1 = .ok (0, p') ∧ p'.RepT r :=
  get_field (n := 1) (v := 0) h (by omega) (by omega)

theorem zeros_ok (k : Nat) : ∀ (n j : Nat) (p : PumpMSB32) (r : List Bool), k < n → p.RepT (List.replicate k false ++ true :: r) →
    ∃ p', zeros n j p = .ok (j + k, p') ∧ p'.RepT r := by
  induction k with
  | zero =>
    intro n j p r hk h
    obtain ⟨n, rfl⟩ : ∃ m, n = m + 1 := ⟨n - 1, by omega⟩
    obtain ⟨p', e, h'⟩ := get_one h
    refine ⟨p', ?_, h'⟩
    rw [zeros, e, ok_bind]
    simp only
    rw [if_neg (by omega), Nat.add_zero]
  | succ k ih =>
    intro n j p r hk h
    obtain ⟨n, rfl⟩ : ∃ m, n = m + 1 := ⟨n - 1, by omega⟩
    obtain ⟨p1, e, h'⟩ := get_zero h
    obtain ⟨p2, e2, h2⟩ := ih n (j + 1) p1 r (by omega) h'
    refine ⟨p2, ?_, h2⟩
    rw [zeros, e, ok_bind]
    simp only
    rw [if_pos trivial, e2, show j + 1 + k = j + (k + 1) by omega]

theorem zeros_all (n : Nat) : ∀ (j : Nat) (p : PumpMSB32) (r : List Bool), p.RepT (List.replicate n false ++ r) →
    ∃ p', zeros n j p = .ok (j + n, p') ∧ p'.RepT r := by
  induction n with
  | zero => exact fun j p r h => ⟨p, rfl, h⟩
  | succ n ih =>
    intro j p r h
    obtain ⟨p1, e, h'⟩ := get_zero h
    obtain ⟨p2, e2, h2⟩ := ih (j + 1) p1 r h'
    refine ⟨p2, ?_, h2⟩
    rw [zeros, e, ok_bind]
    simp only
    rw [if_pos trivial, e2, show j + 1 + n = j + (n + 1) by omega]

/-- Some zeros, less than five, a one, and a digit. -/
theorem newLen_short (l k b : Nat) (p : PumpMSB32) (r : List Bool) (h1 : 0 < k) (h5 : k < 5) (hb : b < 2) (v : Nat)
    (hv : lens[(k - 1) * 2 + b]? = some v) (h : p.RepT (List.replicate k false ++ true :: (bitsMSB 1 b ++ r))) :
    ∃ p', newLen l p = .ok (v, p') ∧ p'.RepT r := by
  obtain ⟨p1, e1, h1'⟩ := zeros_ok k 5 0 p _ h5 h
  obtain ⟨p2, e2, h2⟩ := get_field h1' hb (by omega)
  refine ⟨p2, ?_, h2⟩
  rw [newLen, e1, ok_bind]
  simp only
  rw [if_pos (by omega), e2, ok_bind]
  simp only
  rw [Nat.zero_add, idx, hv]
  rfl

theorem newLen_long (l b : Nat) (p : PumpMSB32) (r : List Bool) (hb : b < 2) (v : Nat)
    (hv : lens[8 + b]? = some v) (h : p.RepT (List.replicate 5 false ++ (bitsMSB 1 b ++ r))) :
    ∃ p', newLen l p = .ok (v, p') ∧ p'.RepT r := by
  obtain ⟨p1, e1, h1'⟩ := zeros_all 5 0 p _ h
  obtain ⟨p2, e2, h2⟩ := get_field h1' hb (by omega)
  refine ⟨p2, ?_, h2⟩
  rw [newLen, e1, ok_bind]
  simp only
  rw [if_pos (by omega), e2, ok_bind]
  simp only
  rw [idx, show (0 + 5 - 1) * 2 + b = 8 + b by omega, hv]
  rfl

theorem newLen_word (l n : Nat) (p : PumpMSB32) (r : List Bool) (h5 : 5 ≤ n) (h14 : n ≤ 14)
    (h : p.RepT (bitsMSB (lenWord n).1 (lenWord n).2 ++ r)) : ∃ p', newLen l p = .ok (n, p') ∧ p'.RepT r := by
  interval_cases n
  · exact newLen_short l 4 0 p r (by omega) (by omega) (by omega) 5 rfl h
  · exact newLen_short l 2 0 p r (by omega) (by omega) (by omega) 6 rfl h
  · exact newLen_short l 1 1 p r (by omega) (by omega) (by omega) 7 rfl h
  · exact newLen_short l 1 0 p r (by omega) (by omega) (by omega) 8 rfl h
  · exact newLen_short l 2 1 p r (by omega) (by omega) (by omega) 9 rfl h
  · exact newLen_short l 3 1 p r (by omega) (by omega) (by omega) 10 rfl h
  · exact newLen_short l 3 0 p r (by omega) (by omega) (by omega) 11 rfl h
  · exact newLen_short l 4 1 p r (by omega) (by omega) (by omega) 12 rfl h
  · exact newLen_long l 1 p r (by omega) 13 rfl h
  · exact newLen_long l 0 p r (by omega) 14 rfl h

theorem newLen_keep (l : Nat) (p : PumpMSB32) (r : List Bool) (h : p.RepT (true :: r)) : ∃ p', newLen l p = .ok (l, p') ∧ p'.RepT r := by
  obtain ⟨p1, e1, h1⟩ := zeros_ok 0 5 0 p r (by omega) h
  refine ⟨p1, ?_, h1⟩
  rw [newLen, e1, ok_bind]
  simp only
  rw [if_neg (by omega)]

theorem newLen_row {R : Row} (hR : R.Ok) (k q l : Nat) (p : PumpMSB32) (r : List Bool) (hl : 0 < k → l = R.len (k - 1) q)
    (h : p.RepT (R.lenBits k q ++ r)) : ∃ p', newLen l p = .ok (R.len k q, p') ∧ p'.RepT r := by
  obtain ⟨h5, h14, hk⟩ := hR k q
  unfold Row.lenBits at h
  split at h
  · rename_i hkeep
    obtain ⟨h0, e⟩ := hk hkeep
    obtain ⟨p', e', h'⟩ := newLen_keep l p r h
    exact ⟨p', by rw [e', hl h0, e], h'⟩
  · exact newLen_word l _ p r h5 h14 h

theorem valueL_ok (n pred v : Nat) (p : PumpMSB32) (r : List Bool) (hv : v < 65536) (h5 : 5 ≤ n) (h14 : n ≤ 14) (hp : pred < 65536)
    (hf : n ≠ 14 → pred ≤ v + (2 ^ (n - 1) - 1) ∧ v ≤ pred + 2 ^ (n - 1))
    (h : p.RepT ((if n = 14 then bitsMSB 16 v else bitsMSB n (v + (2 ^ (n - 1) - 1) - pred)) ++ r)) :
    ∃ p', valueL n pred p = .ok (v, p') ∧ p'.RepT r := by
  unfold valueL
  by_cases c : n = 14
  · rw [if_pos c] at h ⊢
    exact get_field h (by omega) (by omega)
  · rw [if_neg c] at h ⊢
    obtain ⟨h1, h2⟩ := hf c
    have e2 : 2 ^ n = 2 * 2 ^ (n - 1) := by rw [← Nat.pow_succ']; congr 1; omega
    have hle : 2 ^ (n - 1) ≤ 2 ^ 13 := Nat.pow_le_pow_right (by omega) (by omega)
    have hpos : 0 < 2 ^ (n - 1) := Nat.pos_of_ne_zero (by simp)
    obtain ⟨p', e, h'⟩ := get_field h (by omega) (by omega)
    refine ⟨p', ?_, h'⟩
    rw [e, ok_bind]
    simp only
    rw [if_pos (by omega), usub, if_pos (by omega), ok_bind, usub, Nat.one_shiftLeft, if_pos (by omega), ok_bind]
    congr 2
    omega

theorem mask8 {w : Nat} (hw : w < 2 ^ 32) : w &&& 0xfffffff8 = w / 8 * 8 := by
  rw [show (0xfffffff8 : Nat) = 0x1fffffff <<< 3 by decide]
  apply Nat.eq_of_testBit_eq
  intro i
  rw [show w / 8 * 8 = (w >>> 3) <<< 3 by rw [Nat.shiftRight_eq_div_pow, Nat.shiftLeft_eq]]
  rw [Nat.testBit_and, Nat.testBit_shiftLeft, Nat.testBit_shiftLeft, Nat.testBit_shiftRight]
  by_cases c : 3 ≤ i
  · simp only [ge_iff_le, c, decide_true, Bool.true_and]
    rw [show (0x1fffffff : Nat) = 2 ^ 29 - 1 by norm_num, Nat.testBit_two_pow_sub_one]
    by_cases d : i - 3 < 29
    · simp [d, show 3 + (i - 3) = i by omega]
    · rw [show 3 + (i - 3) = i by omega, Nat.testBit_lt_two_pow (lt_of_lt_of_le hw (Nat.pow_le_pow_right (by omega) (by omega)))]
      simp
  · simp [c]

theorem and7 (c : Nat) : c &&& 7 = c % 8 := Nat.and_two_pow_sub_one_eq_mod c 3

theorem and1 (c : Nat) : c &&& 1 = c % 2 := Nat.and_two_pow_sub_one_eq_mod c 1

/-- What holds before column `c`. -/
def InvL (R : Row) (px : Nat → Nat) (w s c : Nat) (st : StL) : Prop :=
  st.pred0 = (if c = 0 then 0 else px ((c - 1) / 2 * 2)) ∧ st.pred1 = (if c < 2 then 0 else px (c / 2 * 2 - 1)) ∧
    (0 < c → c ≤ w / 8 * 8 → st.len0 = R.len ((c - 1) / 8) 0 ∧ st.len1 = R.len ((c - 1) / 8) 1) ∧ st.line.length = w ∧
    ∀ i, i < c → st.line[i]? = some (shl16 (px i) s)

theorem lensAt_ok {R : Row} (hR : R.Ok) {px : Nat → Nat} {w s c : Nat} (hw : w < 2 ^ 32) {p : PumpMSB32} {st : StL} {r : List Bool}
    (hi : InvL R px w s c st)
    (h : p.RepT ((if c % 8 = 0 ∧ c < w / 8 * 8 then R.lenBits (c / 8) 0 ++ R.lenBits (c / 8) 1 else []) ++ r)) :
    ∃ p' l0 l1, lensAt w c p st.len0 st.len1 = .ok (p', l0, l1) ∧ p'.RepT r ∧ R.lenAt w c = (if c % 2 = 0 then l0 else l1) ∧
      (c < w / 8 * 8 → l0 = R.len (c / 8) 0 ∧ l1 = R.len (c / 8) 1) := by
  obtain ⟨-, -, hlen, -, -⟩ := hi
  unfold lensAt
  rw [mask8 hw, and7]
  unfold Row.lenAt
  by_cases c1 : w / 8 * 8 ≤ c
  · rw [if_pos c1]
    rw [if_neg (by omega), List.nil_append] at h
    exact ⟨p, 14, 14, rfl, h, by rw [if_neg (by omega), ite_self], fun _ => by omega⟩
  · rw [if_neg c1]
    by_cases c2 : c % 8 = 0
    · rw [if_pos c2]
      rw [if_pos ⟨c2, by omega⟩, List.append_assoc] at h
      obtain ⟨p1, e1, h1⟩ := newLen_row hR (c / 8) 0 st.len0 p _ (fun h0 => by
        rw [(hlen (by omega) (by omega)).1]; congr 1; omega) h
      obtain ⟨p2, e2, h2⟩ := newLen_row hR (c / 8) 1 st.len1 p1 _ (fun h0 => by
        rw [(hlen (by omega) (by omega)).2]; congr 1; omega) h1
      refine ⟨p2, R.len (c / 8) 0, R.len (c / 8) 1, ?_, h2, ?_, fun _ => ⟨rfl, rfl⟩⟩
      · rw [e1, ok_bind]
        simp only
        rw [e2, ok_bind]
      · rw [if_pos (by omega)]
        rcases Nat.mod_two_eq_zero_or_one c with e | e <;> simp [e]
    · rw [if_neg c2]
      rw [if_neg (by omega), List.nil_append] at h
      obtain ⟨a, b⟩ := hlen (by omega) (by omega)
      rw [show (c - 1) / 8 = c / 8 by omega] at a b
      refine ⟨p, _, _, rfl, h, ?_, fun _ => ⟨a, b⟩⟩
      rw [if_pos (by omega), a, b]
      rcases Nat.mod_two_eq_zero_or_one c with e | e <;> simp [e]

theorem colL_ok {R : Row} (hR : R.Ok) {px : Nat → Nat} {w s c : Nat} (hw : w < 2 ^ 32) (hpx : ∀ c, c < w → px c < 65536)
    (hF : R.Fits w px) (hc : c < w) {p : PumpMSB32} {st : StL} {r : List Bool} (hi : InvL R px w s c st)
    (h : p.RepT ((if c % 8 = 0 ∧ c < w / 8 * 8 then R.lenBits (c / 8) 0 ++ R.lenBits (c / 8) 1 else []) ++ R.pixel w px c ++ r)) :
    ∃ p' st', colL w s c (p, st) = .ok (p', st') ∧ p'.RepT r ∧ InvL R px w s (c + 1) st' := by
  rw [List.append_assoc] at h
  obtain ⟨p1, l0, l1, e1, h1, hlen, hkeep⟩ := lensAt_ok hR hw hi h
  obtain ⟨i0, i1, -, hl, hline⟩ := hi
  have h5 : 5 ≤ R.lenAt w c ∧ R.lenAt w c ≤ 14 := by
    unfold Row.lenAt
    split
    · exact ⟨(hR _ _).1, (hR _ _).2.1⟩
    · omega
  have hprev : prev px c < 65536 := by
    unfold prev
    split
    · omega
    · exact hpx _ (by omega)
  obtain ⟨p2, e2, h2⟩ := valueL_ok _ (prev px c) (px c) p1 r (hpx c hc) h5.1 h5.2 hprev (hF c hc) h1
  have hnew : ∀ i, i < c + 1 → (st.line.set c (shl16 (px c) s))[i]? = some (shl16 (px i) s) := by
    intro i hi
    by_cases ci : i = c
    · rw [ci, List.getElem?_set_self (by omega)]
    · rw [List.getElem?_set_ne (by omega), hline i (by omega)]
  unfold colL
  simp only
  rw [e1, ok_bind]
  simp only
  rw [and1]
  by_cases c2 : c % 2 = 0
  · rw [if_pos c2] at hlen ⊢
    have : prev px c = st.pred0 := by
      rw [i0]; unfold prev
      by_cases c0 : c = 0
      · rw [if_pos c0, if_pos (by omega)]
      · rw [if_neg c0, if_neg (by omega)]; congr 1; omega
    rw [← this, ← hlen, e2, ok_bind]
    simp only
    rw [upd_lt _ _ _ (by omega), ok_bind]
    refine ⟨p2, _, rfl, h2, ?_, ?_, ?_, by simp [hl], hnew⟩
    · simp only
      rw [if_neg (by omega)]; congr 1; omega
    · simp only
      rw [i1]
      by_cases c0 : c < 2
      · rw [if_pos c0, if_pos (by omega)]
      · rw [if_neg c0, if_neg (by omega)]; congr 1; omega
    · intro _ h9
      simp only
      rw [Nat.add_sub_cancel]
      have := hkeep (by omega)
      rw [hlen]; exact this
  · rw [if_neg c2] at hlen ⊢
    have : prev px c = st.pred1 := by
      rw [i1]; unfold prev
      by_cases c0 : c < 2
      · rw [if_pos c0, if_pos c0]
      · rw [if_neg c0, if_neg c0]; congr 1; omega
    rw [← this, ← hlen, e2, ok_bind]
    simp only
    rw [upd_lt _ _ _ (by omega), ok_bind]
    refine ⟨p2, _, rfl, h2, ?_, ?_, ?_, by simp [hl], hnew⟩
    · simp only
      rw [i0, if_neg (by omega), if_neg (by omega)]; congr 1; omega
    · simp only
      rw [if_neg (by omega)]; congr 1; omega
    · intro _ h9
      simp only
      rw [Nat.add_sub_cancel]
      have := hkeep (by omega)
      rw [hlen]; exact this

theorem line_eq {w : Nat} {line : List Nat} {g : Nat → Nat} (hl : line.length = w) (h : ∀ i, i < w → line[i]? = some (g i)) :
    line = (List.range w).map g := by
  apply List.ext_getElem?
  intro i
  by_cases c : i < w
  · rw [h i c]; simp [c]
  · rw [List.getElem?_eq_none (by omega), List.getElem?_eq_none (by simp; omega)]

theorem rowL_ok {R : Row} (hR : R.Ok) {px : Nat → Nat} {w s : Nat} (hw : w < 2 ^ 32) (hpx : ∀ c, c < w → px c < 65536)
    (hF : R.Fits w px) {buf strips : List Nat} (hb : IsBytes buf) {off row : Nat} (ho : off < 2 ^ 32)
    (hs : Ciff.At strips (4 * row) (Ciff.le 4 off)) (hbits : BitsAt buf off (R.bits w px)) :
    rowL buf strips w s (List.replicate w 0) row = .ok ((List.range w).map fun c => shl16 (px c) s) := by
  obtain ⟨src, pad, e1, h1⟩ := rep_at hb hbits
  unfold Row.bits at h1
  obtain ⟨p', st', e, hr, hi⟩ := forN_code PumpMSB32.RepT w (colL w s) _ (InvL R px w s) 0
    (fun i hi p st r hs h _ => colL_ok hR hw hpx hF hi hs h)
    (PumpMSB32.new src) ⟨0, 0, 0, 0, List.replicate w 0⟩ pad ⟨rfl, rfl, fun h => by omega, by simp, fun i hi => by omega⟩ h1 (Nat.zero_le _)
  rw [rowL, Nat.mul_comm row 4, Verif.Ciff.leU32_at hs ho, ok_bind, e1, ok_bind, e, ok_bind]
  simp only
  rw [line_eq hi.2.2.2.1 hi.2.2.2.2]

theorem shl16_lt {v b : Nat} (hb : b ≤ 16) (hv : v < 2 ^ b) : shl16 v (16 - b) = v * 2 ^ (16 - b) := by
  have h16 : (2 : Nat) ^ b * 2 ^ (16 - b) = 65536 := by rw [← Nat.pow_add, show b + (16 - b) = 16 by omega]
  have hle : (2 : Nat) ^ b ≤ 2 ^ 16 := Nat.pow_le_pow_right (by omega) hb
  have hp : 0 < (2 : Nat) ^ (16 - b) := Nat.pow_pos (by omega)
  rw [shl16, Nat.mod_eq_of_lt (show v < 65536 by omega), Nat.shiftLeft_eq, Nat.mod_eq_of_lt]
  rw [← h16]
  exact Nat.mul_lt_mul_of_pos_right hv hp

end Verif.Iiq
