import Verif.Proofs.Pana
import Mathlib.Tactic.IntervalCases
/-! # Panasonic version 6 -/

namespace Verif.Pana
open Verif Verif.Pumps Verif.Packed Verif.Spec Verif.Spec.Pana

theorem bitsLSB_reverse (n v : Nat) : (bitsLSB n v).reverse = bitsMSB n v := by
  induction n with
  | zero => rfl
  | succ n ih => rw [bitsLSB, List.range_succ, List.map_append, List.reverse_append, bitsMSB, ← ih]; rfl

theorem bytesLSB_word (l : List Nat) : bytesLSB l = (word l).reverse := by
  induction l with
  | nil => rfl
  | cons b l ih =>
    rw [bytesLSB_cons, ih, word, word, List.reverse_cons, bytesMSB_append, List.reverse_append]
    simp only [bytesMSB, List.flatMap_cons, List.flatMap_nil, List.append_nil, ← bitsLSB_reverse 8 b, List.reverse_reverse]

/-- The bits of a sequence of fields `(size, value)`. -/
def fieldBits (F : List (Nat × Nat)) : List Bool := F.flatMap fun x => bitsMSB x.1 x.2

theorem fieldBits_reverse (F : List (Nat × Nat)) : (fieldBits F).reverse = F.reverse.flatMap fun x => bitsLSB x.1 x.2 := by
  induction F with
  | nil => rfl
  | cons x F ih =>
    rw [fieldBits, List.flatMap_cons, List.reverse_append, List.reverse_cons, List.flatMap_append, ← ih]
    simp only [List.flatMap_cons, List.flatMap_nil, List.append_nil, ← bitsLSB_reverse x.1 x.2, List.reverse_reverse, fieldBits]

theorem readFields_ok (F : List (Nat × Nat)) (hF : ∀ x ∈ F, x.1 ≤ 16 ∧ x.2 < 2 ^ x.1) (rest : List Bool) :
    ∀ p : PumpLSB, p.Rep (F.flatMap (fun x => bitsLSB x.1 x.2) ++ rest) → readFields (F.map Prod.fst) p = .ok (F.map Prod.snd) := by
  induction F with
  | nil => intro p _; rfl
  | cons x F ih =>
    intro p hp
    obtain ⟨h16, hlt⟩ := hF x (by simp)
    rw [List.flatMap_cons, List.append_assoc] at hp
    have hxl : (bitsLSB x.1 x.2).length = x.1 := by simp [bitsLSB]
    obtain ⟨p', e, r⟩ := reads_lsb x.1 h16 p _ hp (by rw [List.length_append, hxl]; omega)
    rw [List.take_left' hxl, natLSB_bitsLSB, Nat.mod_eq_of_lt hlt] at e
    rw [List.drop_left' hxl] at r
    rw [List.map_cons, readFields, e]
    simp only [bind, Except.bind]
    rw [ih (fun y hy => hF y (List.mem_cons_of_mem _ hy)) p' r]
    have : x.2 < 65536 := Nat.lt_of_lt_of_le hlt (Nat.pow_le_pow_right (by omega) h16)
    simp only [List.map_cons, Nat.mod_eq_of_lt this]

/-- The fields of a packet in the order in which they are laid out. -/
def fields14 (c : Code6) : List (Nat × Nat) :=
  [(14, c.code 0), (14, c.code 1), (2, c.sel 0), (10, c.code 2), (10, c.code 3), (10, c.code 4), (2, c.sel 1), (10, c.code 5), (10, c.code 6),
    (10, c.code 7), (2, c.sel 2), (10, c.code 8), (10, c.code 9), (10, c.code 10)]

def fields12 (c : Code6) : List (Nat × Nat) :=
  [(12, c.code 0), (12, c.code 1), (2, c.sel 0), (8, c.code 2), (8, c.code 3), (8, c.code 4), (2, c.sel 1), (8, c.code 5), (8, c.code 6),
    (8, c.code 7), (2, c.sel 2), (8, c.code 8), (8, c.code 9), (8, c.code 10), (2, c.sel 3), (8, c.code 11), (8, c.code 12), (8, c.code 13)]

theorem fields14_bits (c : Code6) : c.bits 14 10 3 = fieldBits (fields14 c) := by
  simp only [Code6.bits, fieldBits, fields14, List.range, List.range.loop, List.flatMap_cons, List.flatMap_nil, List.append_nil, List.append_assoc,
    Nat.mul_zero, Nat.zero_add, Nat.mul_one, Nat.reduceMul, Nat.reduceAdd]

theorem fields12_bits (c : Code6) : c.bits 12 8 4 = fieldBits (fields12 c) := by
  simp only [Code6.bits, fieldBits, fields12, List.range, List.range.loop, List.flatMap_cons, List.flatMap_nil, List.append_nil, List.append_assoc,
    Nat.mul_zero, Nat.zero_add, Nat.mul_one, Nat.reduceMul, Nat.reduceAdd]

theorem fields14_fit (c : Code6) (h : Fits c 14 10 11 3) : ∀ x ∈ fields14 c, x.1 ≤ 16 ∧ x.2 < 2 ^ x.1 := by
  obtain ⟨h0, h1, hc, hs⟩ := h
  intro x hx
  simp only [fields14, List.mem_cons, List.not_mem_nil, or_false] at hx
  rcases hx with rfl | rfl | rfl | rfl | rfl | rfl | rfl | rfl | rfl | rfl | rfl | rfl | rfl | rfl <;>
    first
      | exact ⟨by omega, h0⟩
      | exact ⟨by omega, h1⟩
      | exact ⟨by omega, hc _ (by omega) (by omega)⟩
      | exact ⟨by omega, hs _ (by omega)⟩

theorem fields12_fit (c : Code6) (h : Fits c 12 8 14 4) : ∀ x ∈ fields12 c, x.1 ≤ 16 ∧ x.2 < 2 ^ x.1 := by
  obtain ⟨h0, h1, hc, hs⟩ := h
  intro x hx
  simp only [fields12, List.mem_cons, List.not_mem_nil, or_false] at hx
  rcases hx with rfl | rfl | rfl | rfl | rfl | rfl | rfl | rfl | rfl | rfl | rfl | rfl | rfl | rfl | rfl | rfl | rfl | rfl <;>
    first
      | exact ⟨by omega, h0⟩
      | exact ⟨by omega, h1⟩
      | exact ⟨by omega, hc _ (by omega) (by omega)⟩
      | exact ⟨by omega, hs _ (by omega)⟩

theorem pixelBuffer14 (c : Code6) (h : Fits c 14 10 11 3) (bytes : List Nat) (hby : IsBytes bytes) (pad : List Bool) (hp : pad.length = 4)
    (hw : word bytes = c.bits 14 10 3 ++ pad) :
    pixelBuffer v6of14 bytes = .ok ((fields14 c).map Prod.snd ++ [0, 0, 0, 0]) := by
  have hr := PumpLSB.rep_new bytes hby
  rw [bytesLSB_word, hw, List.reverse_append, fields14_bits, fieldBits_reverse] at hr
  have hpl : pad.reverse.length = 4 := by rw [List.length_reverse, hp]
  obtain ⟨p', e, r⟩ := reads_lsb 4 (by omega) _ _ hr (by rw [List.length_append, hpl]; omega)
  rw [List.drop_left' hpl] at r
  have := readFields_ok (fields14 c).reverse (fun x hx => fields14_fit c h x (List.mem_reverse.1 hx)) [] p' (by rw [List.append_nil]; exact r)
  have hm : (fields14 c).reverse.map Prod.fst = v6of14.widths := rfl
  rw [hm] at this
  rw [pixelBuffer, if_pos (show v6of14.ppb = 11 from rfl), e]
  simp only [bind, Except.bind]
  rw [this]
  rfl

theorem pixelBuffer12 (c : Code6) (h : Fits c 12 8 14 4) (bytes : List Nat) (hby : IsBytes bytes) (hw : word bytes = c.bits 12 8 4) :
    pixelBuffer v6of12 bytes = .ok ((fields12 c).map Prod.snd) := by
  have hr := PumpLSB.rep_new bytes hby
  rw [bytesLSB_word, hw, fields12_bits, fieldBits_reverse] at hr
  have := readFields_ok (fields12 c).reverse (fun x hx => fields12_fit c h x (List.mem_reverse.1 hx)) [] _ (by rw [List.append_nil]; exact hr)
  have hm : (fields12 c).reverse.map Prod.fst = v6of12.widths := rfl
  rw [hm] at this
  rw [pixelBuffer, if_neg (by decide)]
  simp only [bind, Except.bind]
  rw [this]
  rfl

/-! ## The values -/

theorem scale_le (t : Nat) (h : t < 4) : scale t = 0 ∨ scale t = 1 ∨ scale t = 2 ∨ scale t = 4 := by
  unfold scale; split <;> omega

theorem value_zero (c : Code6) (m s : Nat) : ∀ k, (∀ j, j ≤ k → c.code (2 * j + s) = 0) → c.value m s k = 0
  | 0, h => by have := h 0 (by omega); rw [Nat.mul_zero, Nat.zero_add] at this; exact this
  | k + 1, h => by
    rw [Code6.value]
    rw [if_pos (fun j hj => h j (by omega))]
    exact h (k + 1) (by omega)

/-- What is known of the channel `s` when `k` of its samples are done. -/
def Chan (c : Code6) (m s k : Nat) (x : Nat × Nat) : Prop :=
  (x.1 = 0 ↔ ∀ j, j < k → c.code (2 * j + s) = 0) ∧ x.2 = if k = 0 then 0 else c.value m s (k - 1)

/-- The constants of a format. -/
structure Form (V : V6) (m : Nat) : Prop where
  base : V.base0 = 2 ^ (m - 1)
  cmp : V.baseCmp = 2 ^ (m + 3)
  m1 : m = 8 ∨ m = 10

theorem value_lt (c : Code6) (m ppb groups : Nat) (h : Fits c (m + 4) m ppb groups) (hg : ppb = 3 * groups + 2) (s : Nat) (hs : s < 2) :
    ∀ k, 2 * k + s < ppb → c.value m s k < 2 ^ (m + 4) + k * 2 ^ (m + 2)
  | 0, _ => by
    rw [Code6.value]
    have : s = 0 ∨ s = 1 := by omega
    rcases this with rfl | rfl
    · have := h.1; omega
    · have := h.2.1; omega
  | k + 1, hk => by
    have ih := value_lt c m ppb groups h hg s hs k (by omega)
    have hc := h.2.2.1 (2 * (k + 1) + s) (by omega) hk
    have hz := h.2.2.2 ((2 * (k + 1) + s - 2) / 3) (by omega)
    rw [Code6.value]
    have e4 : 2 ^ (m + 4) = 16 * 2 ^ m := by rw [Nat.pow_add]; omega
    have e2 : 2 ^ (m + 2) = 4 * 2 ^ m := by rw [Nat.pow_add]; omega
    have e3 : (k + 1) * 2 ^ (m + 2) = k * 2 ^ (m + 2) + 2 ^ (m + 2) := by rw [Nat.add_mul, Nat.one_mul]
    rw [e3]
    split
    · omega
    · rcases scale_le _ hz with h | h | h | h <;> rw [h]
      · rw [if_neg (by omega)]; have := Nat.sub_le (c.value m s k) (2 ^ (m - 1 + 0)); generalize c.value m s k - _ = u at *; omega
      · rw [if_neg (by omega)]; have := Nat.sub_le (c.value m s k) (2 ^ (m - 1 + 1)); generalize c.value m s k - _ = u at *; omega
      · rw [if_neg (by omega)]; have := Nat.sub_le (c.value m s k) (2 ^ (m - 1 + 2)); generalize c.value m s k - _ = u at *; omega
      · rw [if_pos rfl]; omega

theorem epixel_ok (V : V6) (m : Nat) (hV : Form V m) (c : Code6) (ppb groups : Nat) (h : Fits c (m + 4) m ppb groups) (hg : ppb = 3 * groups + 2)
    (hp : ppb ≤ 14) (st : St6) (s k : Nat) (hs : s < 2) (hk : 2 * k + s < ppb) (x : Nat × Nat) (hx : Chan c m s k x)
    (hb : 0 < k → st.base = V.base0 * 2 ^ scale (c.sel ((2 * k + s - 2) / 3)) ∧ st.pmul = 2 ^ scale (c.sel ((2 * k + s - 2) / 3))) :
    ∃ y, epixel V st (c.code (2 * k + s)) x = .ok (c.value m s k, y) ∧ Chan c m s (k + 1) y := by
  obtain ⟨hx1, hx2⟩ := hx
  have hlt := value_lt c m ppb groups h hg s hs
  have hm16 : 2 ^ (m + 4) + 6 * 2 ^ (m + 2) < 65536 := by rcases hV.m1 with rfl | rfl <;> omega
  rw [epixel]
  by_cases h0 : x.1 = 0
  · have hz := hx1.1 h0
    rw [if_neg (fun hh => hh h0)]
    have hv : c.value m s k = c.code (2 * k + s) := by
      cases k with
      | zero => rw [Code6.value, Nat.mul_zero, Nat.zero_add]
      | succ k =>
        rw [Code6.value]
        rw [if_pos (fun j hj => hz j (by omega))]
    have hx20 : x.2 = 0 := by
      rw [hx2]
      split
      · rfl
      · exact value_zero c m s _ fun j hj => hz j (by omega)
    by_cases he : c.code (2 * k + s) = 0
    · rw [if_neg (fun hh => hh he), hx20, hv, he]
      refine ⟨_, rfl, ?_, ?_⟩
      · refine ⟨fun _ j hj => ?_, fun _ => rfl⟩
        rcases Nat.lt_succ_iff_lt_or_eq.1 hj with hj | rfl
        · exact hz j hj
        · exact he
      · rw [if_neg (by omega), Nat.add_sub_cancel, hv, he]
    · rw [if_pos he, hv]
      refine ⟨_, rfl, ?_, ?_⟩
      · refine ⟨fun hh => absurd hh he, fun hh => absurd (hh k (by omega)) he⟩
      · rw [if_neg (by omega), Nat.add_sub_cancel, hv]
  · rw [if_pos h0]
    have hnz : ¬ ∀ j, j < k → c.code (2 * j + s) = 0 := fun hh => h0 (hx1.2 hh)
    obtain ⟨k, rfl⟩ : ∃ k', k = k' + 1 := ⟨k - 1, by
      cases k with
      | zero => exact absurd (fun j hj => absurd hj (by omega)) hnz
      | succ k => rfl⟩
    obtain ⟨hb1, hb2⟩ := hb (by omega)
    rw [if_neg (by omega), Nat.add_sub_cancel] at hx2
    have hc := h.2.2.1 (2 * (k + 1) + s) (by omega) hk
    have hz := h.2.2.2 ((2 * (k + 1) + s - 2) / 3) (by omega)
    have hv : c.value m s (k + 1) = c.code (2 * (k + 1) + s) * 2 ^ scale (c.sel ((2 * (k + 1) + s - 2) / 3)) +
        if scale (c.sel ((2 * (k + 1) + s - 2) / 3)) = 4 then 0 else c.value m s k - 2 ^ (m - 1 + scale (c.sel ((2 * (k + 1) + s - 2) / 3))) := by
      rw [Code6.value]
      rw [if_neg (fun hh => hnz fun j hj => hh j (by omega))]
    have hl1 := hlt (k + 1) hk
    have hk6 : k + 1 ≤ 6 := by omega
    have hkm : (k + 1) * 2 ^ (m + 2) ≤ 6 * 2 ^ (m + 2) := Nat.mul_le_mul_right _ hk6
    have hbase : st.base = 2 ^ (m - 1 + scale (c.sel ((2 * (k + 1) + s - 2) / 3))) := by rw [hb1, hV.base, ← Nat.pow_add]
    have hcmp : st.base < V.baseCmp ↔ scale (c.sel ((2 * (k + 1) + s - 2) / 3)) ≠ 4 := by
      rw [hbase, hV.cmp, Nat.pow_lt_pow_iff_right (by omega)]
      rcases hV.m1 with rfl | rfl <;> rcases scale_le _ hz with h | h | h | h <;> rw [h] <;> omega
    have hmul : c.code (2 * (k + 1) + s) * st.pmul < 65536 := by rw [hb2]; omega
    rw [chkU16, if_pos hmul]
    simp only [bind, Except.bind]
    have key : (if st.base < V.baseCmp ∧ x.2 > st.base then chkU16 (c.code (2 * (k + 1) + s) * st.pmul + (x.2 - st.base))
        else .ok (c.code (2 * (k + 1) + s) * st.pmul) : R Nat) = .ok (c.value m s (k + 1)) := by
      by_cases h4 : scale (c.sel ((2 * (k + 1) + s - 2) / 3)) = 4
      · rw [if_neg (fun hh => hcmp.1 hh.1 h4), hv, if_pos h4, hb2]; rfl
      · rw [if_neg h4] at hv
        by_cases hgt : x.2 > st.base
        · rw [if_pos ⟨hcmp.2 h4, hgt⟩]
          have : c.code (2 * (k + 1) + s) * st.pmul + (x.2 - st.base) = c.value m s (k + 1) := by rw [hv, hb2, hx2, hbase]
          rw [this, chkU16, if_pos (by omega)]
        · rw [if_neg (fun hh => hgt hh.2), hv, hb2]
          have : c.value m s k - 2 ^ (m - 1 + scale (c.sel ((2 * (k + 1) + s - 2) / 3))) = 0 := by rw [← hbase, ← hx2]; omega
          rw [this]; rfl
    rw [key]
    refine ⟨_, rfl, ?_, ?_⟩
    · exact ⟨fun hh => absurd hh h0, fun hh => absurd (fun j hj => hh j (by omega)) hnz⟩
    · rw [if_neg (by omega), Nat.add_sub_cancel]

/-- What is known after `pix` samples. -/
def Inv6 (V : V6) (mask : Nat) (c : Code6) (m pix : Nat) (st : St6 × List Nat) : Prop :=
  st.1.cur = pix + pix / 3 ∧ Chan c m 0 ((pix + 1) / 2) st.1.even ∧ Chan c m 1 (pix / 2) st.1.odd ∧
    (3 ≤ pix → st.1.base = V.base0 * 2 ^ scale (c.sel ((pix - 3) / 3)) ∧ st.1.pmul = 2 ^ scale (c.sel ((pix - 3) / 3))) ∧
    st.2 = (List.range pix).map fun i => stored V mask (c.value m (i % 2) (i / 2))

theorem pixel6_ok (V : V6) (mask m : Nat) (hV : Form V m) (c : Code6) (ppb groups : Nat) (h : Fits c (m + 4) m ppb groups)
    (hg : ppb = 3 * groups + 2) (hp : ppb ≤ 14) (pb : List Nat) (hpc : ∀ i, i < ppb → pb[i + (i + 1) / 3]? = some (c.code i))
    (hps : ∀ g, g < groups → pb[4 * g + 2]? = some (c.sel g)) (pix : Nat) (hpix : pix < ppb) (st : St6 × List Nat)
    (hi : Inv6 V mask c m pix st) : ∃ st', pixel6 V mask pb pix st = .ok st' ∧ Inv6 V mask c m (pix + 1) st' := by
  obtain ⟨hcur, hev, hod, hbs, hout⟩ := hi
  have hre : ∃ s, rebase V pb pix st.1 = .ok s ∧ s.cur = pix + (pix + 1) / 3 ∧ s.even = st.1.even ∧ s.odd = st.1.odd ∧
      (2 ≤ pix → s.base = V.base0 * 2 ^ scale (c.sel ((pix - 2) / 3)) ∧ s.pmul = 2 ^ scale (c.sel ((pix - 2) / 3))) := by
    rw [rebase]
    by_cases h2 : pix % 3 = 2
    · have hz := h.2.2.2 ((pix - 2) / 3) (by omega)
      rw [if_pos h2, idx, hcur, show pix + pix / 3 = 4 * ((pix - 2) / 3) + 2 by omega, hps _ (by omega)]
      refine ⟨_, rfl, ?_, rfl, rfl, fun _ => ?_⟩
      · simp only; omega
      · simp only
        have e : (if c.sel ((pix - 2) / 3) = 3 then 4 else c.sel ((pix - 2) / 3)) = scale (c.sel ((pix - 2) / 3)) := rfl
        rw [e, Nat.shiftLeft_eq, Nat.shiftLeft_eq, Nat.one_mul, hV.base]
        rcases hV.m1 with rfl | rfl <;> rcases scale_le _ hz with h | h | h | h <;> rw [h] <;> decide
    · rw [if_neg h2]
      refine ⟨_, rfl, by omega, rfl, rfl, fun h2' => ?_⟩
      have := hbs (by omega)
      rwa [show (pix - 3) / 3 = (pix - 2) / 3 by omega] at this
  obtain ⟨s, e1, hcur', hev', hod', hb'⟩ := hre
  have hidx : idx pb s.cur = .ok (c.code pix) := by rw [idx, hcur', hpc pix hpix]
  have hmod : 2 * (pix / 2) + pix % 2 = pix := by omega
  have hch : Chan c m (pix % 2) (pix / 2) (if pix % 2 = 0 then s.even else s.odd) := by
    by_cases h2 : pix % 2 = 0
    · rw [if_pos h2, h2, hev']; rwa [show (pix + 1) / 2 = pix / 2 by omega] at hev
    · rw [if_neg h2, show pix % 2 = 1 by omega, hod']; exact hod
  obtain ⟨y, e2, hy⟩ := epixel_ok V m hV c ppb groups h hg hp s (pix % 2) (pix / 2) (by omega) (by omega) _ hch
    (fun h0 => by rw [hmod]; exact hb' (by omega))
  rw [hmod] at e2
  rw [pixel6, e1]
  simp only [bind, Except.bind]
  rw [hidx]
  simp only
  rw [e2]
  refine ⟨_, rfl, ?_, ?_, ?_, ?_, ?_⟩
  · simp only; omega
  · simp only
    by_cases h2 : pix % 2 = 0
    · rw [if_pos h2]; rw [h2] at hy; rwa [show (pix + 1 + 1) / 2 = pix / 2 + 1 by omega]
    · rw [if_neg h2, hev']; rwa [show (pix + 1 + 1) / 2 = (pix + 1) / 2 by omega]
  · simp only
    by_cases h2 : pix % 2 = 0
    · rw [if_pos h2, hod']; rwa [show (pix + 1) / 2 = pix / 2 by omega]
    · rw [if_neg h2]; rw [show pix % 2 = 1 by omega] at hy; rwa [show (pix + 1) / 2 = pix / 2 + 1 by omega]
  · intro h3; exact hb' (by omega)
  · simp only [hout, List.range_succ, List.map_append, List.map_cons, List.map_nil]

theorem form12 : Form v6of12 8 := ⟨rfl, rfl, .inl rfl⟩
theorem form14 : Form v6of14 10 := ⟨rfl, rfl, .inr rfl⟩

theorem inv6_zero (V : V6) (mask : Nat) (c : Code6) (m : Nat) : Inv6 V mask c m 0 (⟨0, 0, 0, (0, 0), (0, 0)⟩, []) :=
  ⟨rfl, ⟨by simp, rfl⟩, ⟨by simp, rfl⟩, by simp, rfl⟩

theorem block6_14 (mask : Nat) (c : Code6) (h : Fits c 14 10 11 3) (bytes : List Nat) (hby : IsBytes bytes) (pad : List Bool) (hp : pad.length = 4)
    (hw : word bytes = c.bits 14 10 3 ++ pad) :
    block6 v6of14 mask bytes = .ok ((List.range 11).map fun i => stored v6of14 mask (c.value 10 (i % 2) (i / 2))) := by
  obtain ⟨st, e, hi⟩ := forN_inv 11 (pixel6 v6of14 mask ((fields14 c).map Prod.snd ++ [0, 0, 0, 0])) (Inv6 v6of14 mask c 10) _ (inv6_zero _ _ _ _)
    (fun i s hi hs => pixel6_ok v6of14 mask 10 form14 c 11 3 h rfl (by omega) _ (fun i hi => by interval_cases i <;> rfl)
      (fun g hg => by interval_cases g <;> rfl) i hi s hs)
  rw [block6, pixelBuffer14 c h bytes hby pad hp hw]
  simp only [bind, Except.bind]
  rw [show v6of14.ppb = 11 from rfl, e]
  simp only [hi.2.2.2.2]

theorem block6_12 (mask : Nat) (c : Code6) (h : Fits c 12 8 14 4) (bytes : List Nat) (hby : IsBytes bytes) (hw : word bytes = c.bits 12 8 4) :
    block6 v6of12 mask bytes = .ok ((List.range 14).map fun i => stored v6of12 mask (c.value 8 (i % 2) (i / 2))) := by
  obtain ⟨st, e, hi⟩ := forN_inv 14 (pixel6 v6of12 mask ((fields12 c).map Prod.snd)) (Inv6 v6of12 mask c 8) _ (inv6_zero _ _ _ _)
    (fun i s hi hs => pixel6_ok v6of12 mask 8 form12 c 14 4 h rfl (by omega) _ (fun i hi => by interval_cases i <;> rfl)
      (fun g hg => by interval_cases g <;> rfl) i hi s hs)
  rw [block6, pixelBuffer12 c h bytes hby hw]
  simp only [bind, Except.bind]
  rw [show v6of12.ppb = 14 from rfl, e]
  simp only [hi.2.2.2.2]

/-- What is stored for a value: 15 less, but small values come out large. -/
theorem stored14 (mask v : Nat) (h : v < 65536) : stored v6of14 mask v = if 15 ≤ v then v - 15 else v + 65521 := by
  have h1 : (v : Int) - 15 ≤ v6of14.spixCmp := by show (v : Int) - 15 ≤ 65535; omega
  rw [stored]
  rw [if_pos h1, show v6of14.spixCmp = 65535 from rfl]
  split <;> omega

theorem stored12 (mask v : Nat) (h : v < 16384) : stored v6of12 mask v = if 15 ≤ v then v - 15 else v + 16369 := by
  have h1 : (v : Int) - 15 ≤ v6of12.spixCmp := by show (v : Int) - 15 ≤ 16383; omega
  rw [stored]
  rw [if_pos h1, show v6of12.spixCmp = 16383 from rfl]
  split <;> omega

theorem lineV6_ok (V : V6) (mask : Nat) (buf : List Nat) (m r : Nat) (val : Nat → Nat → Nat) (h0 : 0 < V.ppb)
    (hv : ∀ k, k < m → block6 V mask (packet false buf (r * m + k)) = .ok ((List.range V.ppb).map (val k)))
    (hl : (r + 1) * (16 * m) ≤ buf.length) :
    lineV6 V mask buf (m * V.ppb) (List.replicate (m * V.ppb) 0) r = .ok ((List.range (m * V.ppb)).map fun c => val (c / V.ppb) (c % V.ppb)) := by
  rw [Nat.add_mul, Nat.one_mul] at hl
  have hF := rows_flatten V.ppb m val
  have hmap : ((List.range m).map fun k => packet false buf (r * m + k)).mapM (block6 V mask) =
      .ok ((List.range m).map fun k => (List.range V.ppb).map (val k)) := by
    have := mapM_ok_of (fun k => block6 V mask (packet false buf (r * m + k))) (fun k => (List.range V.ppb).map (val k)) (List.range m)
      (fun k hk => hv k (List.mem_range.1 hk))
    rw [← this, List.mapM_map]; rfl
  have hr16 : r * (16 * m) = r * m * 16 := by rw [Nat.mul_comm 16, Nat.mul_assoc]
  have hpk : (List.range m).map (fun i => ((((buf.drop (r * (16 * m))).take (16 * m)).drop (i * 16)).take 16)) =
      (List.range m).map fun k => packet false buf (r * m + k) := by
    apply List.map_congr_left
    intro k hk
    rw [List.mem_range] at hk
    rw [packet_plain buf _ _ k (by omega) (by omega) (by omega), hr16, Nat.mul_div_cancel _ (by omega)]
  rw [lineV6]
  rw [Nat.mul_div_cancel _ h0, slice, if_pos ⟨by omega, by omega⟩]
  simp only [bind, Except.bind, Nat.add_sub_cancel_left]
  rw [chunksExact, if_neg (by omega)]
  simp only
  rw [List.length_take, List.length_drop, Nat.min_eq_left (by omega), Nat.mul_div_cancel_left _ (by omega), hpk, hmap]
  simp only [List.length_map, List.length_range, List.drop_replicate, Nat.sub_self, List.replicate_zero, List.append_nil]
  congr 1
  apply List.ext_getElem?
  intro i
  by_cases hi : i < m * V.ppb
  · have h2 : i / V.ppb * V.ppb + i % V.ppb = i := Nat.div_add_mod' i V.ppb
    have := hF.2 (i / V.ppb) (i % V.ppb) ((Nat.div_lt_iff_lt_mul h0).2 hi) (Nat.mod_lt _ h0)
    rw [h2] at this
    rw [List.getElem?_map, List.getElem?_range hi]
    exact this
  · rw [List.getElem?_eq_none (by have := hF.1; omega), List.getElem?_eq_none (by simp; omega)]

end Verif.Pana
