import Verif.Model.Arw
import Verif.Spec.Arw
import Verif.Proofs.BitRun
/-! # ARW1: one pixel, one column, the image -/

namespace Verif.Arw
open Verif Verif.Pumps Verif.Spec Verif.Spec.Arw

theorem chkI32_ok {x : Int} (h1 : -2 ^ 31 ≤ x) (h2 : x < 2 ^ 31) : chkI32 x = .ok x := if_pos ⟨h1, h2⟩

theorem bitLen_eq (n : Nat) : bitLen n = digits n := rfl

theorem lt_two_pow_digits (n : Nat) : n < 2 ^ digits n := by
  unfold digits
  split
  · omega
  · exact Nat.lt_log2_self

theorem two_pow_digits_le {n : Nat} (h : n ≠ 0) : 2 ^ (digits n - 1) ≤ n := by
  unfold digits
  rw [if_neg h, Nat.add_sub_cancel]
  exact Nat.log2_self_le h

theorem digits_eq {n k : Nat} (h1 : 2 ^ k ≤ n) (h2 : n < 2 ^ (k + 1)) : digits n = k + 1 := by
  have h0 : n ≠ 0 := by have := Nat.two_pow_pos k; omega
  unfold digits
  rw [if_neg h0, (Nat.log2_eq_iff h0).2 ⟨h1, h2⟩]

theorem digits_le {n k : Nat} (h : n < 2 ^ k) : digits n ≤ k := by
  unfold digits
  split
  · omega
  · rename_i h0
    have := (Nat.log2_lt h0).2 h
    omega

theorem bitsMSB_one (k : Nat) : bitsMSB (k + 1) 1 = List.replicate k false ++ [true] := by
  have := bitsMSB_append k 1 0 1 (by omega)
  rw [bitsMSB_zero_val, show bitsMSB 1 1 = [true] from rfl] at this
  simpa using this

/-- The length code is read back. -/
theorem length_ok (p : PumpMSB) (n : Nat) (r : List Bool) (hn : n ≤ 16) (h : p.Rep (lengthCode n ++ r)) (hr : 12 ≤ r.length) :
    ∃ p', (getBits p 2 >>= fun x => arw1Extend x.2 (4 - x.1)) = .ok (n, p') ∧ p'.Rep r := by
  match n, hn, h with
  | 0, _, h =>
    obtain ⟨p1, e1, r1⟩ := PumpMSB.get_field p 2 1 (true :: r) h (by omega) (by omega)
    obtain ⟨p2, e2, r2⟩ := PumpMSB.get_field p1 1 1 r r1 (by omega) (by omega)
    refine ⟨p2, ?_, r2⟩
    rw [e1]
    show arw1Extend p1 3 = _
    rw [arw1Extend, if_pos rfl, e2]; rfl
  | 1, _, h =>
    obtain ⟨p1, e1, r1⟩ := PumpMSB.get_field p 2 3 r h (by omega) (by omega)
    exact ⟨p1, by rw [e1]; rfl, r1⟩
  | 2, _, h =>
    obtain ⟨p1, e1, r1⟩ := PumpMSB.get_field p 2 2 r h (by omega) (by omega)
    exact ⟨p1, by rw [e1]; rfl, r1⟩
  | 3, _, h =>
    obtain ⟨p1, e1, r1⟩ := PumpMSB.get_field p 2 1 (false :: r) h (by omega) (by omega)
    obtain ⟨p2, e2, r2⟩ := PumpMSB.get_field p1 1 0 r r1 (by omega) (by omega)
    refine ⟨p2, ?_, r2⟩
    rw [e1]
    show arw1Extend p1 3 = _
    rw [arw1Extend, if_pos rfl, e2]; rfl
  | k + 4, hn, h =>
    have hsplit : lengthCode (k + 4) ++ r = bitsMSB 2 0 ++ (bitsMSB (k + 1) 1 ++ r) := by
      rw [bitsMSB_one, lengthCode, show bitsMSB 2 0 = [false, false] from rfl]; simp
    rw [hsplit] at h
    obtain ⟨p1, e1, r1⟩ := PumpMSB.get_field p 2 0 _ h (by omega) (by omega)
    obtain ⟨p2, e2, r2, _⟩ := PumpMSB.peek_field p1 _ 13 r1 (by omega) (by simp; omega)
    obtain ⟨p3, e3, r3⟩ := PumpMSB.get_field p2 (k + 1) 1 r r2 (by have := Nat.one_lt_two_pow (n := k + 1) (by omega); omega) (by omega)
    refine ⟨p3, ?_, r3⟩
    have hv : natMSB (List.take 13 (bitsMSB (k + 1) 1 ++ r)) = 2 ^ (12 - k) + natMSB (r.take (12 - k)) := by
      rw [List.take_append, length_bitsMSB, List.take_of_length_le (by simp; omega), natMSB_append, natMSB_bitsMSB,
        Nat.mod_eq_of_lt (by have := Nat.one_lt_two_pow (n := k + 1) (by omega); omega), Nat.one_mul, List.length_take,
        show 13 - (k + 1) = 12 - k by omega, Nat.min_eq_left (by omega)]
    have hlt := natMSB_lt (r.take (12 - k))
    rw [List.length_take, Nat.min_eq_left (by omega)] at hlt
    have hb : bitLen (natMSB (List.take 13 (bitsMSB (k + 1) 1 ++ r))) = 13 - k := by
      rw [bitLen_eq, hv, digits_eq (k := 12 - k) (by omega) (by rw [Nat.pow_succ]; omega)]; omega
    rw [e1]
    show arw1Extend p1 4 = _
    rw [arw1Extend, if_neg (by omega), if_pos rfl, e2]
    simp only [bind, Except.bind]
    rw [hb, show 13 - (13 - k) = k by omega, Nat.min_eq_right (by omega), e3]
    rw [Nat.add_comm]

/-- The field of digits for the difference `d`. -/
def field (d : Int) : Nat :=
  if 0 ≤ d then d.toNat else (d + (2 ^ digits d.natAbs - 1)).toNat

theorem field_lt (d : Int) : field d < 2 ^ digits d.natAbs := by
  have h := lt_two_pow_digits d.natAbs
  unfold field
  generalize digits d.natAbs = n at *
  have e : ((2 ^ n : Nat) : Int) = (2 : Int) ^ n := by push_cast; rfl
  split <;> omega

theorem sum_ok (sum d : Int) (h1 : 0 ≤ sum) (h2 : sum < 65536) (h3 : 0 ≤ sum + d) (h4 : sum + d < 65536) :
    arw1Sum sum (digits d.natAbs) (field d) = .ok (sum + d) := by
  have hd : digits d.natAbs ≤ 16 := digits_le (by omega)
  have hf := field_lt d
  have hlt := lt_two_pow_digits d.natAbs
  have hge := @two_pow_digits_le d.natAbs
  have hp : 2 ^ digits d.natAbs ≤ 2 ^ 16 := Nat.pow_le_pow_right (by omega) hd
  unfold arw1Sum
  generalize hn : digits d.natAbs = n at *
  have e : ((2 ^ n : Nat) : Int) = (2 : Int) ^ n := by push_cast; rfl
  rcases Nat.eq_zero_or_pos n with h0 | h0
  · subst h0
    have : d = 0 := by omega
    subst this
    simp only [bind, Except.bind]
    rw [show field 0 = 0 from rfl, chkI32_ok (by simp; omega) (by simp; omega)]
    simp
  · have hne : d.natAbs ≠ 0 := by
      intro h; rw [h] at hn; simp [digits] at hn; omega
    have hge := hge hne
    have e2 : 2 * 2 ^ (n - 1) = 2 ^ n := by
      rw [Nat.mul_comm, ← Nat.pow_succ, show (n - 1).succ = n by omega]
    have htb : (field d).testBit (n - 1) = decide (0 < d) := by
      rw [Nat.testBit_eq_decide_div_mod_eq]
      by_cases hd0 : 0 < d
      · have hdv : field d / 2 ^ (n - 1) = 1 := by
          have hfd : field d = d.natAbs := by unfold field; rw [if_pos (by omega)]; omega
          rw [hfd]
          exact Nat.div_eq_of_lt_le (by omega) (by omega)
        simp [hdv, hd0]
      · have hdv : field d / 2 ^ (n - 1) = 0 := by
          apply Nat.div_eq_of_lt
          unfold field; rw [if_neg (by omega), hn]
          omega
        simp [hdv, hd0]
    simp only [bind, Except.bind]
    rw [chkI32_ok (by omega) (by omega)]
    simp only []
    rw [htb]
    by_cases hd0 : 0 < d
    · rw [if_neg (by simp [hd0])]
      unfold field; rw [if_pos (by omega)]
      congr 1; omega
    · rw [if_pos (by simp [hd0]; omega)]
      have hf' : (field d : Int) = d + (2 ^ n - 1) := by
        unfold field; rw [if_neg (by omega), hn]; omega
      rw [hf', chkI32_ok (by omega) (by omega)]
      congr 1; omega

/-- One pixel. -/
theorem pixel_ok (w col row : Nat) (p : PumpMSB) (sum : Int) (out : List Nat) (v : Nat) (r : List Bool)
    (h : p.Rep (diffCode (v - sum) ++ r)) (hr : 12 ≤ r.length) (h1 : 0 ≤ sum) (h2 : sum < 65536) (hv : v < 65536)
    (hi : row * w + col < out.length) :
    ∃ p', arw1Pixel w col row (p, sum, out) = .ok (p', (v : Int), out.set (row * w + col) v) ∧ p'.Rep r := by
  obtain ⟨d, hd⟩ : ∃ d : Int, d = v - sum := ⟨_, rfl⟩
  rw [← hd] at h
  have hl : digits d.natAbs ≤ 16 := digits_le (by omega)
  have hc : diffCode d = lengthCode (digits d.natAbs) ++ bitsMSB (digits d.natAbs) (field d) := rfl
  rw [hc, List.append_assoc] at h
  obtain ⟨p1, e1, r1⟩ := length_ok p _ _ hl h (by simp; omega)
  obtain ⟨p2, e2, r2⟩ := PumpMSB.get_field p1 _ (field d) r r1 (field_lt d) (by omega)
  refine ⟨p2, ?_, r2⟩
  unfold arw1Pixel
  simp only [bind, Except.bind] at e1 ⊢
  cases hg : getBits p 2 with
  | error e => rw [hg] at e1; cases e1
  | ok x =>
    rw [hg] at e1
    simp only at e1 ⊢
    rw [e1]
    simp only []
    rw [e2]
    simp only []
    rw [sum_ok sum d h1 h2 (by omega) (by omega)]
    simp only []
    rw [upd, if_pos hi]
    have e3 : sum + d = v := by omega
    have e4 : asU16 v = v := by unfold asU16; omega
    simp only [e3, e4]

/-! ### the rows of a column -/

theorem evens_eq (m : Nat) : (List.range (2 * m)).filter (· % 2 = 0) = List.range' 0 m 2 := by
  induction m with
  | zero => rfl
  | succ m ih =>
    rw [show 2 * (m + 1) = 2 * m + 1 + 1 by omega, List.range_succ, List.range_succ, List.filter_append, List.filter_append, ih,
      List.range'_concat]
    have : (2 * m + 1) % 2 = 1 := by omega
    simp [Nat.mul_comm]

theorem odds_eq (m : Nat) : (List.range (2 * m)).filter (· % 2 = 1) = List.range' 1 m 2 := by
  induction m with
  | zero => rfl
  | succ m ih =>
    rw [show 2 * (m + 1) = 2 * m + 1 + 1 by omega, List.range_succ, List.range_succ, List.filter_append, List.filter_append, ih,
      List.range'_concat]
    have : (2 * m + 1) % 2 = 1 := by omega
    simp
    omega

/-- The order of the rows. -/
def rowOrder (h : Nat) : List Nat := ((List.range h).filter (· % 2 = 0)) ++ ((List.range h).filter (· % 2 = 1))

abbrev St := PumpMSB × Int × List Nat

theorem col_odd (w m col : Nat) (j : Nat) (hj : j ≤ m) (fuel : Nat) (hf : j < fuel) (st : St) :
    arw1Col w (2 * m) col fuel (2 * (m - j) + 1) st =
      (List.range' (2 * (m - j) + 1) j 2).foldlM (fun s r => arw1Pixel w col r s) st := by
  induction j generalizing fuel st with
  | zero =>
    obtain ⟨f, rfl⟩ : ∃ f, fuel = f + 1 := ⟨fuel - 1, by omega⟩
    rw [arw1Col, if_neg (by omega)]; rfl
  | succ j ih =>
    obtain ⟨f, rfl⟩ : ∃ f, fuel = f + 1 := ⟨fuel - 1, by omega⟩
    rw [arw1Col, if_pos (by omega), List.range'_succ, List.foldlM_cons]
    rw [if_neg (by omega)]
    congr 1
    funext s
    rw [show 2 * (m - (j + 1)) + 1 + 2 = 2 * (m - j) + 1 by omega]
    exact ih (by omega) f (by omega) s

theorem col_wrap (w m col : Nat) (hm : 0 < m) (fuel : Nat) (st : St) :
    arw1Col w (2 * m) col fuel (2 * m) st = arw1Col w (2 * m) col fuel 1 st := by
  cases fuel with
  | zero => rfl
  | succ f =>
    rw [arw1Col, arw1Col, if_pos (Nat.le_refl _), if_pos rfl, if_pos (by omega), if_neg (by omega)]

theorem col_even (w m col : Nat) (hm : 0 < m) (j : Nat) (hj : j ≤ m) (fuel : Nat) (hf : j + m < fuel) (st : St) :
    arw1Col w (2 * m) col fuel (2 * (m - j)) st =
      (List.range' (2 * (m - j)) j 2 ++ List.range' 1 m 2).foldlM (fun s r => arw1Pixel w col r s) st := by
  induction j generalizing fuel st with
  | zero =>
    rw [Nat.sub_zero, col_wrap w m col hm]
    have := col_odd w m col m (Nat.le_refl _) fuel (by omega) st
    rw [show 2 * (m - m) + 1 = 1 by omega] at this
    rw [this]; rfl
  | succ j ih =>
    obtain ⟨f, rfl⟩ : ∃ f, fuel = f + 1 := ⟨fuel - 1, by omega⟩
    rw [arw1Col, if_pos (by omega), List.range'_succ, List.cons_append, List.foldlM_cons]
    rw [if_neg (by omega)]
    congr 1
    funext s
    rw [show 2 * (m - (j + 1)) + 2 = 2 * (m - j) by omega]
    exact ih (by omega) f (by omega) s

theorem col_eq (w h col : Nat) (he : h % 2 = 0) (h0 : 0 < h) (st : St) :
    arw1Col w h col (h + 2) 0 st = (rowOrder h).foldlM (fun s r => arw1Pixel w col r s) st := by
  obtain ⟨m, rfl⟩ : ∃ m, h = 2 * m := ⟨h / 2, by omega⟩
  have := col_even w m col (by omega) m (Nat.le_refl _) (2 * m + 2) (by omega) st
  rw [Nat.sub_self, Nat.mul_zero] at this
  rw [this, rowOrder, evens_eq, odds_eq]

/-! ### the image -/

theorem foldlM_flatMap {α β σ : Type} (l : List α) (g : α → List β) (f : σ → β → R σ) (s : σ) :
    (l.flatMap g).foldlM f s = l.foldlM (fun s a => (g a).foldlM f s) s := by
  induction l generalizing s with
  | nil => rfl
  | cons a l ih =>
    rw [List.flatMap_cons, List.foldlM_append, List.foldlM_cons]
    congr 1
    funext s
    exact ih s

theorem foldlM_map' {α β σ : Type} (l : List α) (g : α → β) (f : σ → β → R σ) (s : σ) :
    (l.map g).foldlM f s = l.foldlM (fun s a => f s (g a)) s := by
  induction l generalizing s with
  | nil => rfl
  | cons a l ih => rw [List.map_cons, List.foldlM_cons, List.foldlM_cons]; congr 1; funext s; exact ih s

/-- The decoder visits the pixels in scan order. -/
theorem decode_scan (buf : List Nat) (w h : Nat) (he : h % 2 = 0) (h0 : 0 < h) :
    decodeArw1 buf w h = ((scan w h).foldlM (fun s (rc : Nat × Nat) => arw1Pixel w rc.2 rc.1 s)
      (PumpMSB.new buf, 0, List.replicate (w * h) 0) >>= fun st => .ok st.2.2) := by
  rw [decodeArw1, scan, foldlM_flatMap, forN]
  congr 2
  funext s x
  rw [foldlM_map']
  exact col_eq w h _ he h0 s

/-- One abstract step: the pixel's value becomes the new sum. -/
def stepPx (w : Nat) (px : Nat → Nat → Nat) (s : Int × List Nat) (rc : Nat × Nat) : Int × List Nat :=
  ((px rc.1 rc.2 : Int), s.2.set (rc.1 * w + rc.2) (px rc.1 rc.2))

theorem encRun_diffs (w : Nat) (px : Nat → Nat → Nat) (l : List (Nat × Nat)) (s : Int × List Nat) :
    encRun (fun s rc => diffCode (px rc.1 rc.2 - s.1)) (stepPx w px) s l =
      (diffs s.1 (l.map fun (r, c) => px r c)).flatMap diffCode := by
  induction l generalizing s with
  | nil => rfl
  | cons a l ih =>
    rw [encRun, ih, List.map_cons, diffs, List.flatMap_cons]
    rfl

theorem foldl_step_length (w : Nat) (px : Nat → Nat → Nat) (l : List (Nat × Nat)) (s : Int × List Nat) :
    (l.foldl (stepPx w px) s).2.length = s.2.length := by
  induction l generalizing s with
  | nil => rfl
  | cons a l ih => rw [List.foldl_cons, ih, stepPx, List.length_set]

theorem foldl_step_get (w h : Nat) (px : Nat → Nat → Nat) (l : List (Nat × Nat)) (hl : ∀ rc ∈ l, rc.1 < h ∧ rc.2 < w)
    (s : Int × List Nat) (hs : s.2.length = w * h) (r c : Nat) (hr : r < h) (hc : c < w) :
    (l.foldl (stepPx w px) s).2[r * w + c]? = if (r, c) ∈ l then some (px r c) else s.2[r * w + c]? := by
  induction l generalizing s with
  | nil => simp
  | cons a l ih =>
    rw [List.foldl_cons, ih (fun rc hm => hl rc (List.mem_cons_of_mem _ hm)) _ (by rw [stepPx, List.length_set, hs])]
    obtain ⟨ha1, ha2⟩ := hl a List.mem_cons_self
    have hlt : a.1 * w + a.2 < s.2.length := by
      rw [hs]
      calc a.1 * w + a.2 < a.1 * w + w := by omega
        _ = (a.1 + 1) * w := by rw [Nat.add_mul, Nat.one_mul]
        _ ≤ h * w := Nat.mul_le_mul_right _ ha1
        _ = w * h := Nat.mul_comm _ _
    by_cases hin : (r, c) ∈ l
    · rw [if_pos hin, if_pos (List.mem_cons_of_mem _ hin)]
    · rw [if_neg hin]
      by_cases heq : (r, c) = a
      · subst heq
        rw [if_pos List.mem_cons_self, stepPx, List.getElem?_set_self hlt]
      · rw [if_neg (by simp [heq, hin]), stepPx, List.getElem?_set_ne]
        intro he
        apply heq
        have h1 : a.1 = r := by
          have e1 : (a.1 * w + a.2) / w = a.1 := by
            rw [Nat.mul_comm, Nat.mul_add_div (by omega), Nat.div_eq_of_lt ha2, Nat.add_zero]
          have e2 : (r * w + c) / w = r := by
            rw [Nat.mul_comm, Nat.mul_add_div (by omega), Nat.div_eq_of_lt hc, Nat.add_zero]
          rw [← e1, ← e2, he]
        subst h1
        have h2 : c = a.2 := by omega
        subst h2
        rfl

theorem mem_scan (w h r c : Nat) : (r, c) ∈ scan w h ↔ r < h ∧ c < w := by
  simp only [scan, List.mem_flatMap, List.mem_range, List.mem_map, List.mem_append, List.mem_filter, Prod.mk.injEq, decide_eq_true_eq]
  constructor
  · rintro ⟨x, hx, r', hr', rfl, rfl⟩
    exact ⟨by rcases hr' with hr' | hr' <;> exact hr'.1, by omega⟩
  · rintro ⟨h1, h2⟩
    refine ⟨w - 1 - c, by omega, r, ?_, rfl, by omega⟩
    rcases Nat.mod_two_eq_zero_or_one r with h3 | h3
    · exact .inl ⟨h1, h3⟩
    · exact .inr ⟨h1, h3⟩

theorem arw1_ok (buf : List Nat) (hb : IsBytes buf) (w h : Nat) (he : h % 2 = 0) (h0 : 0 < h) (px : Nat → Nat → Nat)
    (hpx : ∀ r c, r < h → c < w → px r c < 65536) (pad : List Bool) (hp : 12 ≤ pad.length)
    (hcode : bytesMSB buf = encodeArw1 w h px ++ pad) :
    ∃ img, decodeArw1 buf w h = .ok img ∧ Holds img w h px := by
  have hrep := PumpMSB.rep_new buf hb
  rw [hcode, encodeArw1] at hrep
  rw [← encRun_diffs w px (scan w h) (0, List.replicate (w * h) 0)] at hrep
  have hidx : ∀ r c, r < h → c < w → r * w + c < w * h := by
    intro r c hr hc
    calc r * w + c < r * w + w := by omega
      _ = (r + 1) * w := by rw [Nat.add_mul, Nat.one_mul]
      _ ≤ h * w := Nat.mul_le_mul_right _ hr
      _ = w * h := Nat.mul_comm _ _
  obtain ⟨p', e, _, _⟩ := foldlM_code PumpMSB.Rep (fun (s : PumpMSB × Int × List Nat) (rc : Nat × Nat) => arw1Pixel w rc.2 rc.1 s) _
    (stepPx w px) (fun s => 0 ≤ s.1 ∧ s.1 < 65536 ∧ s.2.length = w * h) 12 (scan w h) (by
      rintro ⟨r, c⟩ hm p ⟨sum, out⟩ rest ⟨i1, i2, i3⟩ hr hl
      obtain ⟨hm1, hm2⟩ := (mem_scan w h r c).1 hm
      have hv := hpx r c hm1 hm2
      simp only at i1 i2 i3 hr
      obtain ⟨p', e, r'⟩ := pixel_ok w c r p sum out (px r c) rest hr hl i1 i2 hv (by rw [i3]; exact hidx r c hm1 hm2)
      refine ⟨p', e, r', ?_, ?_, ?_⟩
      · simp [stepPx]
      · simp only [stepPx]; omega
      · simp [stepPx, i3])
    (PumpMSB.new buf) (0, List.replicate (w * h) 0) pad ⟨by simp, by simp, by simp⟩ hrep hp
  refine ⟨((scan w h).foldl (stepPx w px) (0, List.replicate (w * h) 0)).2, ?_, ?_, ?_⟩
  · rw [decode_scan buf w h he h0, e]; rfl
  · rw [foldl_step_length, List.length_replicate, Nat.mul_comm]
  · intro r c hr hc
    rw [foldl_step_get w h px _ (fun rc hm => (mem_scan w h rc.1 rc.2).1 hm) _ (by simp) r c hr hc,
      if_pos ((mem_scan w h r c).2 ⟨hr, hc⟩)]

end Verif.Arw

namespace Verif.Arw
open Verif Verif.Pumps Verif.Spec

theorem div_row {w r c : Nat} (hc : c < w) : (r * w + c) / w = r := by
  rw [Nat.mul_comm, Nat.mul_add_div (by omega), Nat.div_eq_of_lt hc, Nat.add_zero]

/-- Rows with odd number have not been touched. -/
def OddZero (w h : Nat) (out : List Nat) : Prop := ∀ r c, r < h → c < w → r % 2 = 1 → out[r * w + c]? = some 0

theorem pixel_oddZero (w h col row : Nat) (hcol : col < w) (hrow : row % 2 = 0) (st st' : St) (e : arw1Pixel w col row st = .ok st')
    (hz : OddZero w h st.2.2) : OddZero w h st'.2.2 := by
  unfold arw1Pixel at e
  simp only [bind, Except.bind] at e
  repeat (split at e; · cases e)
  rename_i hu
  cases e
  intro r c hr hc ho
  rw [upd] at hu
  split at hu
  · cases hu
    rw [List.getElem?_set_ne]
    · exact hz r c hr hc ho
    · intro he
      have := congrArg (· / w) he
      simp only [div_row hcol, div_row hc] at this
      omega
  · cases hu

theorem col_oddZero (w h col : Nat) (hcol : col < w) (ho : h % 2 = 1) (fuel row : Nat) (hrow : row % 2 = 0) (st st' : St)
    (e : arw1Col w h col fuel row st = .ok st') (hz : OddZero w h st.2.2) : OddZero w h st'.2.2 := by
  induction fuel generalizing row st with
  | zero => cases e
  | succ f ih =>
    rw [arw1Col] at e
    split at e
    · rw [if_neg (show row ≠ h by omega)] at e
      cases h1 : arw1Pixel w col row st with
      | error x => rw [h1] at e; cases e
      | ok s1 =>
        rw [h1] at e
        exact ih (row + 2) (by omega) s1 e (pixel_oddZero w h col row hcol hrow st s1 h1 hz)
    · cases e; exact hz

theorem odd_height (buf : List Nat) (w h : Nat) (ho : h % 2 = 1) (img : List Nat) (e : decodeArw1 buf w h = .ok img) :
    OddZero w h img := by
  rcases Nat.eq_zero_or_pos w with rfl | hw
  · intro r c _ hc; omega
  · rw [decodeArw1] at e
    cases h1 : forN w (fun x st => arw1Col w h (w - 1 - x) (h + 2) 0 st) (PumpMSB.new buf, 0, List.replicate (w * h) 0) with
    | error x => rw [h1] at e; cases e
    | ok s1 =>
      rw [h1] at e
      cases e
      have : ∀ (l : List Nat) (s s' : St), l.foldlM (fun s x => arw1Col w h (w - 1 - x) (h + 2) 0 s) s = .ok s' →
          OddZero w h s.2.2 → OddZero w h s'.2.2 := by
        intro l
        induction l with
        | nil => intro s s' e hz; cases e; exact hz
        | cons a l ih =>
          intro s s' e hz
          rw [List.foldlM_cons] at e
          cases h2 : arw1Col w h (w - 1 - a) (h + 2) 0 s with
          | error x => rw [h2] at e; cases e
          | ok s2 =>
            rw [h2] at e
            exact ih s2 s' e (col_oddZero w h _ (by omega) ho _ 0 rfl s s2 h2 hz)
      refine this _ _ _ h1 ?_
      intro r c hr hc _
      rw [List.getElem?_replicate, if_pos]
      calc r * w + c < r * w + w := by omega
        _ = (r + 1) * w := by rw [Nat.add_mul, Nat.one_mul]
        _ ≤ h * w := Nat.mul_le_mul_right _ hr
        _ = w * h := Nat.mul_comm _ _

end Verif.Arw
