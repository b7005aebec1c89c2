import Verif.Proofs.IiqCorr3
import Verif.Props.Crw
/-! # C91: corrections of Phase One sensors -/

namespace Verif.Props
open Verif Verif.Spec Verif.IiqCorr

/-- A curve through control points is a chain of straight lines, and the largest value becomes 0 if the last two points have the same place. -/
theorem C91_curve (pts : List (Nat × Nat)) (h : IiqCorr.Control pts) :
    ∃ curve, curveOf pts = .ok curve ∧ ∀ v, v < 65536 → IiqCorr.Bends pts v (curve v) := curveOf_bends pts h

/-- `Control` holds for points like those of a camera -/
example : IiqCorr.Control [(0, 0), (1000, 1100), (20000, 19000), (65535, 65535)] := by decide

/-- The curve through these points -/
example : ∃ curve, curveOf [(0, 0), (1000, 1100), (65535, 65535)] = .ok curve ∧ curve 500 = 550 ∧ curve 65535 = 65535 := by
  obtain ⟨curve, h1, h2⟩ := C91_curve [(0, 0), (1000, 1100), (65535, 65535)] (by decide)
  refine ⟨curve, h1, ?_, (h2 65535 (by decide)).2.1 rfl (by decide)⟩
  obtain ⟨i, hi, ha, hb, hv⟩ := (h2 500 (by decide)).1 (by decide)
  have : i = 0 := by
    rcases i with _ | _ | i
    · rfl
    · simp at ha
    · simp only [List.length_cons, List.length_nil] at hi; omega
  subst this
  rw [hv]
  have e : IiqCorr.line (0, 0) (1000, 1100) 500 = ((550 : Int) : ℚ) := by rw [IiqCorr.line]; norm_num
  show IiqCorr.word (IiqCorr.line (0, 0) (1000, 1100) 500) = 550
  rw [e, IiqCorr.word, Rat.floor_intCast]
  decide

/-- Points that do not begin at 0, do not end at 65535 or are not from left to right abort the program. -/
theorem C91_curve_aborts (pts : List (Nat × Nat)) (hx : ∀ p ∈ pts, p.1 < 65536) (h : ¬ IiqCorr.Control pts) : curveOf pts = .error .panic := by
  have key : newSpline pts = .error .panic := by
    rw [newSpline]
    by_cases a0 : pts.length ≥ 2
    · by_cases a1 : pts.head?.map (fun p => p.1 % 65536) = some 0
      · by_cases a2 : pts.getLast?.map (fun p => p.1 % 65536) = some 65535
        · by_cases a3 : inOrder 0 pts = true
          · exfalso
            apply h
            refine ⟨a0, ?_, ?_, order_inOrder pts 0 a3⟩
            · rw [List.head?_eq_getElem?, List.getElem?_eq_getElem (by omega)] at a1
              have := hx _ (List.getElem_mem (l := pts) (n := 0) (by omega))
              rw [List.getD_eq_getElem?_getD, List.getElem?_eq_getElem (by omega)]
              simp only [Option.map_some, Option.some.injEq] at a1
              show pts[0].1 = 0
              omega
            · rw [List.getLast?_eq_getElem?, List.getElem?_eq_getElem (by omega)] at a2
              have := hx _ (List.getElem_mem (l := pts) (n := pts.length - 1) (by omega))
              rw [List.getD_eq_getElem?_getD, List.getElem?_eq_getElem (by omega)]
              simp only [Option.map_some, Option.some.injEq] at a2
              show pts[pts.length - 1].1 = 65535
              omega
          · simp only [a0, a1, a2, assert', decide_true, if_true, bind, Except.bind, if_neg a3, panic']
        · simp only [a0, a1, assert', decide_true, if_true, bind, Except.bind, decide_eq_false a2, Bool.false_eq_true, if_false, panic']
      · simp only [a0, assert', decide_true, if_true, bind, Except.bind, decide_eq_false a1, Bool.false_eq_true, if_false, panic']
    · simp only [assert', bind, Except.bind, decide_eq_false a0, Bool.false_eq_true, if_false, panic']
  rw [curveOf, key]
  rfl

/-- Points in a wrong order -/
example : ¬ IiqCorr.Control [(0, 0), (2000, 1100), (1000, 1900), (65535, 65535)] := by decide

/-- With seven places for all quadrants and seven factors for each, every pixel is changed by the curve of the quadrant it is in. -/
theorem C91_combined_partial (xs ys : List Nat) (hx : xs.length = 7) (hy : ys.length = 28)
    (hc : ∀ qr qc, qr < 2 → qc < 2 → IiqCorr.Control (IiqCorr.combined xs ys qr qc)) (img : List Nat) (w h : Nat) (f : Nat → Nat → Nat) (hi : Holds img w h f)
    (hv : ∀ r c, r < h → c < w → f r c < 65536) (sr sc : Nat) (hsr : sr ≤ h) (hsc : sc ≤ w) :
    ∃ out g, correctCombined (some (xs, ys)) (some (sr, sc)) w h img = .ok out ∧ Holds out w h g ∧
      ∀ r c, r < h → c < w → IiqCorr.Bends (IiqCorr.combined xs ys (IiqCorr.side sr r) (IiqCorr.side sc c)) (f r c) (g r c) := by
  have hcur : ∀ qr qc, ∃ curve : Curve, qr < 2 → qc < 2 → curveOf (IiqCorr.combined xs ys qr qc) = .ok curve ∧
      ∀ v, v < 65536 → IiqCorr.Bends (IiqCorr.combined xs ys qr qc) v (curve v) := by
    intro qr qc
    by_cases a : qr < 2 ∧ qc < 2
    · obtain ⟨c, h1, h2⟩ := curveOf_bends _ (hc qr qc a.1 a.2)
      exact ⟨c, fun _ _ => ⟨h1, h2⟩⟩
    · exact ⟨fun _ => 0, fun a1 a2 => absurd ⟨a1, a2⟩ a⟩
  choose curve hcurve using hcur
  obtain ⟨out, h1, h2⟩ := quadrants_ok (combinedPoints xs ys) curve hi sr sc hsr hsc hv
    (fun qr qc a b => ⟨_, combinedPoints_ok xs ys hx hy qr qc a b, (hcurve qr qc a b).1⟩)
  exact ⟨out, _, h1, h2, fun r c hr hc' => (hcurve _ _ (side_lt sr r) (side_lt sc c)).2 _ (hv r c hr hc')⟩

/-- Places and factors that meet the hypotheses -/
example : ∀ qr qc, qr < 2 → qc < 2 →
    IiqCorr.Control (IiqCorr.combined [100, 500, 1000, 5000, 10000, 30000, 60000] ((List.range 28).map fun i => 9900 + 10 * i) qr qc) := by
  intro qr qc h1 h2
  rcases (by omega : qr = 0 ∨ qr = 1) with rfl | rfl <;> rcases (by omega : qc = 0 ∨ qc = 1) with rfl | rfl <;> decide

/-- With 16 places for each quadrant, every pixel is changed by the curve of the quadrant it is in, which moves the places to the mean of the quadrants. -/
theorem C91_linear_partial (t : List Nat) (ht : t.length = 64) (hw : ∀ v ∈ t, v < 65536) (h0 : ∀ qr qc, qr < 2 → qc < 2 → 2 ≤ t.getD (32 * qr + 16 * qc + 15) 0)
    (hc : ∀ qr qc, qr < 2 → qc < 2 → IiqCorr.Control (IiqCorr.linear t qr qc)) (img : List Nat) (w h : Nat) (f : Nat → Nat → Nat) (hi : Holds img w h f)
    (hv : ∀ r c, r < h → c < w → f r c < 65536) (sr sc : Nat) (hsr : sr ≤ h) (hsc : sc ≤ w) :
    ∃ out g, correctLinear (some t) (some (sr, sc)) w h img = .ok out ∧ Holds out w h g ∧
      ∀ r c, r < h → c < w → IiqCorr.Bends (IiqCorr.linear t (IiqCorr.side sr r) (IiqCorr.side sc c)) (f r c) (g r c) := by
  have hcur : ∀ qr qc, ∃ curve : Curve, qr < 2 → qc < 2 → curveOf (IiqCorr.linear t qr qc) = .ok curve ∧
      ∀ v, v < 65536 → IiqCorr.Bends (IiqCorr.linear t qr qc) v (curve v) := by
    intro qr qc
    by_cases a : qr < 2 ∧ qc < 2
    · obtain ⟨c, h1, h2⟩ := curveOf_bends _ (hc qr qc a.1 a.2)
      exact ⟨c, fun _ _ => ⟨h1, h2⟩⟩
    · exact ⟨fun _ => 0, fun a1 a2 => absurd ⟨a1, a2⟩ a⟩
  choose curve hcurve using hcur
  obtain ⟨out, h1, h2⟩ := quadrants_ok (linearPoints t) curve hi sr sc hsr hsc hv
    (fun qr qc a b => ⟨_, linearPoints_ok t ht hw qr qc a b (h0 qr qc a b), (hcurve qr qc a b).1⟩)
  exact ⟨out, _, h1, h2, fun r c hr hc' => (hcurve _ _ (side_lt sr r) (side_lt sc c)).2 _ (hv r c hr hc')⟩

/-- A table of four equal quadrants -/
def evenTable : List Nat := (List.range 64).map fun i => 4000 * (i % 16 + 1)

/-- The table meets the hypotheses -/
example : evenTable.length = 64 ∧ (∀ v ∈ evenTable, v < 65536) ∧ ∀ qr qc, qr < 2 → qc < 2 →
    2 ≤ evenTable.getD (32 * qr + 16 * qc + 15) 0 ∧ IiqCorr.Control (IiqCorr.linear evenTable qr qc) := by
  refine ⟨rfl, by decide +kernel, fun qr qc h1 h2 => ?_⟩
  rcases (by omega : qr = 0 ∨ qr = 1) with rfl | rfl <;> rcases (by omega : qc = 0 ∨ qc = 1) with rfl | rfl <;> decide +kernel

/-- Saturated pixels become black: in the quadrant with the least last place, the value 65535 becomes 0. -/
theorem C91_white_lost (t : List Nat) (ht : t.length = 64) (hw : ∀ v ∈ t, v < 65536) (h0 : ∀ qr qc, qr < 2 → qc < 2 → 2 ≤ t.getD (32 * qr + 16 * qc + 15) 0)
    (hc : ∀ qr qc, qr < 2 → qc < 2 → IiqCorr.Control (IiqCorr.linear t qr qc)) (img : List Nat) (w h : Nat) (f : Nat → Nat → Nat) (hi : Holds img w h f)
    (hv : ∀ r c, r < h → c < w → f r c < 65536) (sr sc : Nat) (hsr : sr ≤ h) (hsc : sc ≤ w) (r c : Nat) (hr : r < h) (hcw : c < w) (hwhite : f r c = 65535)
    (hmin : ∀ qr qc, qr < 2 → qc < 2 → t.getD (32 * IiqCorr.side sr r + 16 * IiqCorr.side sc c + 15) 0 ≤ t.getD (32 * qr + 16 * qc + 15) 0) :
    ∃ out, correctLinear (some t) (some (sr, sc)) w h img = .ok out ∧ out[r * w + c]? = some 0 := by
  obtain ⟨out, g, h1, h2, h3⟩ := C91_linear_partial t ht hw h0 hc img w h f hi hv sr sc hsr hsc
  refine ⟨out, h1, ?_⟩
  rw [h2.2 r c hr hcw]
  have hb := (h3 r c hr hcw).2.2 hwhite
  have m0 := hmin 0 0 (by decide) (by decide)
  have m1 := hmin 0 1 (by decide) (by decide)
  have m2 := hmin 1 0 (by decide) (by decide)
  have m3 := hmin 1 1 (by decide) (by decide)
  have p0 := h0 _ _ (side_lt sr r) (side_lt sc c)
  simp only [Nat.mul_zero, Nat.mul_one, Nat.zero_add] at m0 m1 m2 m3
  have hk : IiqCorr.knee t (IiqCorr.side sr r) (IiqCorr.side sc c) = 65535 := by
    unfold IiqCorr.knee
    generalize t.getD (32 * IiqCorr.side sr r + 16 * IiqCorr.side sc c + 15) 0 = x at m0 m1 m2 m3 p0 ⊢
    have hm : x ≤ IiqCorr.mean t 15 := by
      rw [IiqCorr.mean, Nat.le_div_iff_mul_le (by decide)]
      show x * 4 ≤ t.getD 15 0 + t.getD 31 0 + t.getD 47 0 + t.getD 63 0 + 2
      have e1 : 32 + 15 = 47 := rfl
      have e2 : 16 + 15 = 31 := rfl
      have e3 : 32 + 16 + 15 = 63 := rfl
      rw [e2] at m1
      rw [e1] at m2
      rw [e3] at m3
      omega
    have : 65535 ≤ IiqCorr.mean t 15 * 65535 / x := by
      rw [Nat.le_div_iff_mul_le (by omega), Nat.mul_comm]
      exact Nat.mul_le_mul_right _ hm
    omega
  rw [hb hk]

theorem forN_visits_inv {σ : Type} (n : Nat) (f : Nat → σ → R σ) (I : σ → Prop) (hf : ∀ i s s', I s → f i s = .ok s' → I s') (s s' : σ) (h0 : I s)
    (h : forN n f s = .ok s') : I s' ∧ ∀ i, i < n → ∃ a b, I a ∧ f i a = .ok b := by
  induction n generalizing s' with
  | zero => cases h; exact ⟨h0, fun i hi => by omega⟩
  | succ n ih =>
    rw [forN_succ] at h
    cases e : forN n f s with
    | error x => rw [e] at h; cases h
    | ok s1 =>
      rw [e] at h
      obtain ⟨h1, h2⟩ := ih s1 e
      refine ⟨hf n s1 s' h1 h, fun i hi => ?_⟩
      by_cases e' : i = n
      · subst e'; exact ⟨s1, s', h1, h⟩
      · exact h2 i (by omega)

theorem bend_inv (curve : Curve) (w r c : Nat) (img out : List Nat) (h : bend curve w r c img = .ok out) : out.length = img.length ∧ r * w + c < img.length := by
  rw [bend] at h
  obtain ⟨v, h1, h2⟩ := bind_ok h
  have hlt : r * w + c < img.length := by
    rw [idx] at h1
    by_contra hh
    rw [List.getElem?_eq_none (by omega)] at h1
    cases h1
  by_cases hv : v < 65536
  · rw [if_pos hv, upd, if_pos hlt] at h2
    cases h2
    exact ⟨List.length_set, hlt⟩
  · rw [if_neg hv] at h2; cases h2

theorem bendArea_inv (curve : Curve) (w r0 r1 c0 c1 : Nat) (img out : List Nat) (h : bendArea curve w r0 r1 c0 c1 img = .ok out) :
    out.length = img.length ∧ ∀ r c, r0 ≤ r → r < r1 → c0 ≤ c → c < c1 → r * w + c < img.length := by
  obtain ⟨h1, h2⟩ := forN_visits_inv _ _ (fun l : List Nat => l.length = img.length)
    (fun i s s' hs e => (forN_visits_inv _ _ (fun l : List Nat => l.length = img.length) (fun j s s' hs e => ((bend_inv _ _ _ _ _ _ e).1).trans hs) s s' hs e).1)
    img out rfl h
  refine ⟨h1, fun r c a1 a2 a3 a4 => ?_⟩
  obtain ⟨a, b, ha, hab⟩ := h2 (r - r0) (by omega)
  obtain ⟨_, h4⟩ := forN_visits_inv _ _ (fun l : List Nat => l.length = img.length) (fun j s s' hs e => ((bend_inv _ _ _ _ _ _ e).1).trans hs) a b ha hab
  obtain ⟨a', b', ha', hab'⟩ := h4 (c - c0) (by omega)
  have := (bend_inv _ _ _ _ _ _ hab').2
  rw [ha', show r0 + (r - r0) = r by omega, show c0 + (c - c0) = c by omega] at this
  exact this

theorem quadrants_inv (points : Nat → Nat → R (List (Nat × Nat))) (w h sr sc : Nat) (img out : List Nat) (hw : 0 < w) (hh : 0 < h) (hl : img.length = h * w)
    (hok : quadrants points w h sr sc img = .ok out) : sr ≤ h ∧ sc ≤ w := by
  have step : ∀ qr qc (s s' : List Nat), s.length = h * w → (do
      let p ← points qr qc
      let curve ← curveOf p
      quadrant curve w h sr sc qr qc s : R (List Nat)) = .ok s' → s'.length = h * w ∧
      ∀ r c, (if qr > 0 then sr else 0) ≤ r → r < (if qr > 0 then h else sr) → (if qc > 0 then sc else 0) ≤ c → c < (if qc > 0 then w else sc) → r * w + c < h * w := by
    intro qr qc s s' hs e
    obtain ⟨p, _, e⟩ := bind_ok e
    obtain ⟨cu, _, e⟩ := bind_ok e
    rw [quadrant] at e
    have := bendArea_inv _ _ _ _ _ _ _ _ e
    rw [hs] at this
    exact this
  have all : ∀ qr qc, qr < 2 → qc < 2 → ∀ r c, (if qr > 0 then sr else 0) ≤ r → r < (if qr > 0 then h else sr) → (if qc > 0 then sc else 0) ≤ c →
      c < (if qc > 0 then w else sc) → r * w + c < h * w := by
    intro qr qc hqr hqc
    obtain ⟨_, h2⟩ := forN_visits_inv _ _ (fun l : List Nat => l.length = h * w)
      (fun i s s' hs e => (forN_visits_inv _ _ (fun l : List Nat => l.length = h * w) (fun j s s' hs e => (step i j s s' hs e).1) s s' hs e).1) img out hl hok
    obtain ⟨a, b, ha, hab⟩ := h2 qr hqr
    obtain ⟨_, h4⟩ := forN_visits_inv _ _ (fun l : List Nat => l.length = h * w) (fun j s s' hs e => (step qr j s s' hs e).1) a b ha hab
    obtain ⟨a', b', ha', hab'⟩ := h4 qc hqc
    exact (step qr qc a' b' ha' hab').2
  have hsr : sr ≤ h := by
    by_contra hh
    have hm : h * w ≤ (sr - 1) * w := Nat.mul_le_mul_right _ (by omega)
    by_cases e : sc = 0
    · have := all 0 1 (by decide) (by decide) (sr - 1) 0 (by simp) (by simp; omega) (by simp [e]) (by simpa using hw)
      omega
    · have := all 0 0 (by decide) (by decide) (sr - 1) 0 (by simp) (by simp; omega) (by simp) (by simp; omega)
      omega
  refine ⟨hsr, ?_⟩
  by_contra hc
  have hm : (h - 1) * w + w = h * w := by
    obtain ⟨k, rfl⟩ : ∃ k, h = k + 1 := ⟨h - 1, by omega⟩
    rw [Nat.add_sub_cancel, Nat.succ_mul]
  by_cases e : sr < h
  · have := all 1 0 (by decide) (by decide) (h - 1) (sc - 1) (by simp; omega) (by simp; omega) (by simp) (by simp; omega)
    omega
  · have := all 0 0 (by decide) (by decide) (h - 1) (sc - 1) (by simp) (by simp; omega) (by simp) (by simp; omega)
    omega

/-- A split of the sensor outside the picture, or none, never gives a picture. -/
theorem C91_split_outside (xs ys t : List Nat) (split : Option (Nat × Nat)) (w h : Nat) (hw : 0 < w) (hh : 0 < h) (img out : List Nat) (hl : img.length = h * w)
    (hok : correctCombined (some (xs, ys)) split w h img = .ok out ∨ correctLinear (some t) split w h img = .ok out) :
    ∃ sr sc, split = some (sr, sc) ∧ sr ≤ h ∧ sc ≤ w := by
  cases split with
  | none => rcases hok with hok | hok <;> cases hok
  | some s =>
    refine ⟨s.1, s.2, rfl, ?_⟩
    rcases hok with hok | hok
    · exact quadrants_inv _ w h _ _ img out hw hh hl hok
    · exact quadrants_inv _ w h _ _ img out hw hh hl hok

/-- Without calibration data, a picture is not changed. -/
theorem C91_no_data (split : Option (Nat × Nat)) (w h : Nat) (img : List Nat) :
    correctCombined none split w h img = .ok img ∧ correctLinear none split w h img = .ok img := ⟨rfl, rfl⟩

theorem clamp_bound (v : Int) : (clamp v 0 0xffff).toNat = IiqCorr.bound v := by
  rw [clamp, IiqCorr.bound]
  split <;> split <;> omega

/-- The black level is subtracted from each pixel, and a level of its row for the left or the right half of the sensor and one of its column for the upper or the
lower half are added. -/
theorem C91_black (black : Nat) (cblack rblack : List Int) (img : List Nat) (w h : Nat) (f : Nat → Nat → Nat) (hi : Holds img w h f) (hcb : cblack.length = h * 2)
    (hrb : rblack.length = w * 2) (sr sc : Nat) :
    ∃ out, correctBlack black (some (cblack, rblack)) (some (sr, sc)) w h img = .ok out ∧
      Holds out w h (fun r c => IiqCorr.bound ((f r c : Int) - black + cblack.getD (2 * r + IiqCorr.side sc c) 0 + rblack.getD (2 * c + IiqCorr.side sr r) 0)) := by
  refine ⟨_, ?_, holds_genRows h w _⟩
  rw [correctBlack]
  simp only [hcb, hrb, assert', decide_true, if_true, bind, Except.bind]
  apply genRows_ok
  intro r c hr hc
  rw [idx, hi.2 r c hr hc]
  simp only
  have getZ : ∀ (l : List Int) i, i < l.length → idx l i = .ok (l.getD i 0) := by
    intro l i h
    rw [idx, List.getElem?_eq_getElem h, List.getD_eq_getElem?_getD, List.getElem?_eq_getElem h]; rfl
  have e1 : (if r ≥ sr then 1 else 0) = IiqCorr.side sr r := by rw [IiqCorr.side]; split <;> split <;> omega
  have e2 : (if c ≥ sc then 1 else 0) = IiqCorr.side sc c := by rw [IiqCorr.side]; split <;> split <;> omega
  have l1 := side_lt sr r
  have l2 := side_lt sc c
  rw [blackPixel, e1, e2, getZ cblack _ (by omega), getZ rblack _ (by omega)]
  simp only [bind, Except.bind]
  rw [clamp_bound, Nat.mul_comm r 2, Nat.mul_comm c 2]

/-- Levels of rows and columns -/
example : (correctBlack 100 (some ([1, 2, 3, 4], [10, 20, 30, 40])) (some (1, 1)) 2 2 [100, 200, 50, 65535]).toOption = some [11, 132, 0, 65479] := by decide

/-- Without levels of rows and columns, only the black level is subtracted. -/
theorem C91_black_plain (black : Nat) (img : List Nat) (w h : Nat) (split : Option (Nat × Nat)) :
    ∃ out, correctBlack black none split w h img = .ok out ∧ out.length = img.length ∧ ∀ (i v : Nat), img[i]? = some v → out[i]? = some (IiqCorr.bound ((v : Int) - black)) := by
  refine ⟨_, rfl, List.length_map _, fun i v hv => ?_⟩
  rw [List.getElem?_map, hv]
  exact congrArg some (clamp_bound _)

/-- Levels that are not as many as rows and columns, or no split, never give a picture. -/
theorem C91_black_aborts (black : Nat) (cblack rblack : List Int) (split : Option (Nat × Nat)) (w h : Nat) (img : List Nat)
    (hbad : split = none ∨ cblack.length ≠ h * 2 ∨ rblack.length ≠ w * 2) : correctBlack black (some (cblack, rblack)) split w h img = .error .panic := by
  cases split with
  | none => rfl
  | some s =>
    rw [correctBlack]
    by_cases a : cblack.length = h * 2
    · have b : rblack.length ≠ w * 2 := by rcases hbad with h1 | h1 | h1 <;> first | cases h1 | exact absurd a h1 | exact h1
      simp only [a, assert', decide_true, if_true, bind, Except.bind, decide_eq_false b, Bool.false_eq_true, if_false, panic']
    · simp only [assert', bind, Except.bind, decide_eq_false a, Bool.false_eq_true, if_false, panic']

/-- A bad column that is not one of the two outermost on either side is replaced from its neighbours, but for two rows at the top and two at the bottom, and
nothing else is changed. -/
theorem C91_column_partial (color : Nat → Nat → Nat) (img : List Nat) (w h : Nat) (f : Nat → Nat → Nat) (hi : Holds img w h f) (col : Nat) (hh : 2 ≤ h) (h2 : 2 ≤ col)
    (hc : col + 2 < w) (hcol : ∀ r, color r col ≤ 2) :
    ∃ out g, fixColumn color w h col img = .ok out ∧ Holds out w h g ∧
      ∀ r c, r < h → c < w → (c = col ∧ 2 ≤ r ∧ r + 2 < h → IiqCorr.Repaired color f r col (g r c)) ∧ (¬ (c = col ∧ 2 ≤ r ∧ r + 2 < h) → g r c = f r c) :=
  fixColumn_ok color hi col hh h2 hc hcol

/-- A bad column of green pixels -/
example : (fixColumn (fun _ _ => 1) 5 6 2
    [10, 11, 0, 13, 14, 20, 21, 0, 23, 24, 30, 31, 0, 33, 34, 40, 41, 0, 43, 44, 50, 51, 0, 53, 54, 60, 61, 0, 63, 64]).toOption =
    some [10, 11, 0, 13, 14, 20, 21, 0, 23, 24, 30, 31, 36, 33, 34, 40, 41, 46, 43, 44, 50, 51, 0, 53, 54, 60, 61, 0, 63, 64] := by decide +kernel

/-- A list of defects changes nothing but the bad columns. -/
theorem C91_defects_partial (color : Nat → Nat → Nat) (defects : List Defect) (w h : Nat) (hh : 2 ≤ h) (hcol : ∀ r c, color r c ≤ 2)
    (hd : ∀ d ∈ defects, d.typ = 131 ∨ d.typ = 137 → d.col ≥ w ∨ 2 ≤ d.col ∧ d.col + 2 < w) (img : List Nat) (f : Nat → Nat → Nat) (hi : Holds img w h f) :
    ∃ out g, correctDefects color defects w h img = .ok out ∧ Holds out w h g ∧ ∀ r c, r < h → c < w →
      (∀ d ∈ defects, d.typ = 131 ∨ d.typ = 137 → d.col ≠ c) ∨ r < 2 ∨ h ≤ r + 2 → g r c = f r c := by
  rw [correctDefects]
  induction defects generalizing img f with
  | nil => exact ⟨img, f, rfl, hi, fun _ _ _ _ _ => rfl⟩
  | cons d l ih =>
    rw [List.foldlM_cons]
    have skip : ∃ out g, List.foldlM (fun img d => if d.col ≥ w then .ok img else if d.typ = 131 ∨ d.typ = 137 then fixColumn color w h d.col img else .ok img) img l =
        .ok out ∧ Holds out w h g ∧ ∀ r c, r < h → c < w →
        (∀ d' ∈ d :: l, d'.typ = 131 ∨ d'.typ = 137 → d'.col ≠ c) ∨ r < 2 ∨ h ≤ r + 2 → g r c = f r c := by
      obtain ⟨out, g, a1, a2, a3⟩ := ih (fun d' hd' => hd d' (List.mem_cons_of_mem _ hd')) img f hi
      exact ⟨out, g, a1, a2, fun r c hr hc hx => a3 r c hr hc (hx.imp (fun hx d' hd' => hx d' (List.mem_cons_of_mem _ hd')) id)⟩
    by_cases h1 : d.col ≥ w
    · rw [if_pos h1]; exact skip
    · rw [if_neg h1]
      by_cases h2 : d.typ = 131 ∨ d.typ = 137
      · rw [if_pos h2]
        have hin : 2 ≤ d.col ∧ d.col + 2 < w := by
          rcases hd d (List.mem_cons_self ..) h2 with a | a
          · exact absurd a h1
          · exact a
        obtain ⟨o, g, a1, a2, a3⟩ := fixColumn_ok color hi d.col hh hin.1 hin.2 (fun r => hcol r d.col)
        rw [a1]
        obtain ⟨out, g', b1, b2, b3⟩ := ih (fun d' hd' => hd d' (List.mem_cons_of_mem _ hd')) o g a2
        refine ⟨out, g', b1, b2, fun r c hr hc hx => ?_⟩
        rw [b3 r c hr hc (hx.imp (fun hx d' hd' => hx d' (List.mem_cons_of_mem _ hd')) id)]
        refine (a3 r c hr hc).2 fun hy => ?_
        rcases hx with hx | hx
        · exact hx d (List.mem_cons_self ..) h2 hy.1.symm
        · omega
      · rw [if_neg h2]; exact skip

theorem repaired_congr (color f g : Nat → Nat → Nat) (w h r col v : Nat) (h2 : 2 ≤ r) (hr : r + 2 < h) (hc2 : 2 ≤ col) (hc : col + 2 < w)
    (hfg : ∀ r c, r < h → c < w → c ≠ col → c ≤ col + 2 → col ≤ c + 2 → g r c = f r c) (hv : IiqCorr.Repaired color g r col v) : IiqCorr.Repaired color f r col v := by
  unfold IiqCorr.Repaired at hv ⊢
  rw [hfg (r - 1) (col - 1) (by omega) (by omega) (by omega) (by omega) (by omega), hfg (r + 1) (col - 1) (by omega) (by omega) (by omega) (by omega) (by omega),
    hfg (r - 1) (col + 1) (by omega) (by omega) (by omega) (by omega) (by omega), hfg (r + 1) (col + 1) (by omega) (by omega) (by omega) (by omega) (by omega),
    hfg (r + 2) (col - 2) (by omega) (by omega) (by omega) (by omega) (by omega), hfg (r - 2) (col - 2) (by omega) (by omega) (by omega) (by omega) (by omega),
    hfg (r + 2) (col + 2) (by omega) (by omega) (by omega) (by omega) (by omega), hfg (r - 2) (col + 2) (by omega) (by omega) (by omega) (by omega) (by omega),
    hfg r (col - 2) (by omega) (by omega) (by omega) (by omega) (by omega), hfg r (col + 2) (by omega) (by omega) (by omega) (by omega) (by omega)] at hv
  exact hv

/-- Each bad column of a list is replaced from its neighbours, if no other bad column is next to it or next but one, and nothing else is changed in the columns
around it. -/
theorem C91_defects_repaired_partial (color : Nat → Nat → Nat) (defects : List Defect) (w h : Nat) (hh : 2 ≤ h) (hcol : ∀ r c, color r c ≤ 2)
    (hd : ∀ d ∈ defects, d.typ = 131 ∨ d.typ = 137 → d.col ≥ w ∨ 2 ≤ d.col ∧ d.col + 2 < w) (img : List Nat) (f : Nat → Nat → Nat) (hi : Holds img w h f)
    (col : Nat) (hc2 : 2 ≤ col) (hcw : col + 2 < w)
    (hfar : ∀ d ∈ defects, d.typ = 131 ∨ d.typ = 137 → d.col = col ∨ col + 2 < d.col ∨ d.col + 2 < col) :
    ∃ out g, correctDefects color defects w h img = .ok out ∧ Holds out w h g ∧
      (∀ r c, r < h → c < w → c ≠ col → c ≤ col + 2 → col ≤ c + 2 → g r c = f r c) ∧
      ((∀ d ∈ defects, d.typ = 131 ∨ d.typ = 137 → d.col ≠ col) → ∀ r, r < h → g r col = f r col) ∧
      ((∃ d ∈ defects, (d.typ = 131 ∨ d.typ = 137) ∧ d.col = col) → ∀ r, 2 ≤ r → r + 2 < h → IiqCorr.Repaired color f r col (g r col)) := by
  rw [correctDefects]
  induction defects generalizing img f with
  | nil => exact ⟨img, f, rfl, hi, fun _ _ _ _ _ _ _ => rfl, fun _ _ _ => rfl, fun ⟨d, hd, _⟩ => by cases hd⟩
  | cons d l ih =>
    rw [List.foldlM_cons]
    have ih' := ih (fun d' hd' => hd d' (List.mem_cons_of_mem _ hd'))
    have hfar' : ∀ d ∈ l, d.typ = 131 ∨ d.typ = 137 → d.col = col ∨ col + 2 < d.col ∨ d.col + 2 < col := fun d' hd' => hfar d' (List.mem_cons_of_mem _ hd')
    by_cases hbad : (d.typ = 131 ∨ d.typ = 137) ∧ d.col < w
    · obtain ⟨h2, h1⟩ := hbad
      have hin : 2 ≤ d.col ∧ d.col + 2 < w := by
        rcases hd d (List.mem_cons_self ..) h2 with a | a
        · omega
        · exact a
      rw [if_neg (by omega), if_pos h2]
      obtain ⟨o, g1, a1, a2, a3⟩ := fixColumn_ok color hi d.col hh hin.1 hin.2 (fun r => hcol r d.col)
      rw [a1]
      obtain ⟨out, g, b1, b2, b3, b4, b5⟩ := ih' o g1 a2 hfar'
      have near : ∀ r c, r < h → c < w → c ≠ col → c ≤ col + 2 → col ≤ c + 2 → g1 r c = f r c := fun r c hr hc hne x1 x2 =>
        (a3 r c hr hc).2 (by have := hfar d (List.mem_cons_self ..) h2; omega)
      refine ⟨out, g, b1, b2, fun r c hr hc hne x1 x2 => (b3 r c hr hc hne x1 x2).trans (near r c hr hc hne x1 x2), fun hn r hr => ?_, fun he r hr1 hr2 => ?_⟩
      · rw [b4 (fun d' hd' => hn d' (List.mem_cons_of_mem _ hd')) r hr]
        exact (a3 r col hr (by omega)).2 (fun hy => hn d (List.mem_cons_self ..) h2 hy.1.symm)
      · by_cases hl : ∃ d ∈ l, (d.typ = 131 ∨ d.typ = 137) ∧ d.col = col
        · exact repaired_congr color f g1 w h r col _ hr1 hr2 hc2 hcw near (b5 hl r hr1 hr2)
        · rw [b4 (fun d' hd' ht hx => hl ⟨d', hd', ht, hx⟩) r (by omega)]
          obtain ⟨d', hd', ht', hx'⟩ := he
          rcases List.mem_cons.mp hd' with e | e
          · subst e
            have := (a3 r col (by omega) (by omega)).1 ⟨hx'.symm, hr1, hr2⟩
            rw [hx'] at this
            exact this
          · exact absurd ⟨d', e, ht', hx'⟩ hl
    · have e : (if d.col ≥ w then .ok img else if d.typ = 131 ∨ d.typ = 137 then fixColumn color w h d.col img else .ok img : R (List Nat)) = .ok img := by
        by_cases a : d.col ≥ w
        · rw [if_pos a]
        · rw [if_neg a, if_neg (fun b => hbad ⟨b, by omega⟩)]
      rw [e]
      obtain ⟨out, g, b1, b2, b3, b4, b5⟩ := ih' img f hi hfar'
      refine ⟨out, g, b1, b2, b3, fun hn => b4 (fun d' hd' => hn d' (List.mem_cons_of_mem _ hd')), fun ⟨d', hd', ht', hx'⟩ => b5 ?_⟩
      rcases List.mem_cons.mp hd' with e | e
      · subst e; exact absurd ⟨ht', by omega⟩ hbad
      · exact ⟨d', e, ht', hx'⟩

/-- Two bad columns and a single bad pixel -/
example : (∀ d ∈ [⟨3, 131⟩, ⟨9, 137⟩, ⟨4, 129⟩], (d : Defect).typ = 131 ∨ d.typ = 137 → d.col ≥ 12 ∨ 2 ≤ d.col ∧ d.col + 2 < 12) ∧
    ∀ d ∈ [⟨3, 131⟩, ⟨9, 137⟩, ⟨4, 129⟩], (d : Defect).typ = 131 ∨ d.typ = 137 → d.col = 9 ∨ 9 + 2 < d.col ∨ d.col + 2 < 9 := by
  constructor <;> (intro d hd; simp only [List.mem_cons, List.not_mem_nil, or_false] at hd; rcases hd with rfl | rfl | rfl <;> decide)

/-- A bad column at the left edge never gives a picture, if the picture has five rows or more. -/
theorem C91_first_column_aborts (color : Nat → Nat → Nat) (w h : Nat) (hh : 5 ≤ h) (img out : List Nat) : fixColumn color w h 0 img ≠ .ok out := by
  intro hok
  rw [fixColumn] at hok
  obtain ⟨e, e1, hok⟩ := bind_ok hok
  rw [usub, if_pos (by omega)] at e1
  cases e1
  obtain ⟨a, b, _, hab⟩ := (forN_visits_inv _ _ (fun _ => True) (fun _ _ _ _ _ => trivial) img out trivial hok).2 0 (by omega)
  split at hab
  · rw [fixGreen] at hab
    obtain ⟨x, hx, _⟩ := bind_ok hab
    cases hx
  · split at hab
    · rw [fixOther] at hab
      obtain ⟨x, hx, _⟩ := bind_ok hab
      cases hx
    · cases hab

/-- A bad column at the right edge is not replaced from its neighbours: all of them are 0 here, and the pixels of the left edge make it 200. -/
theorem C91_last_column : ∃ img out : List Nat, fixColumn (fun _ _ => 1) 4 5 3 img = .ok out ∧ img.length = 20 ∧
    (∀ r c, r < 5 → 0 < c → c < 4 → img[r * 4 + c]? = some 0) ∧ out[2 * 4 + 3]? = some 200 := by
  refine ⟨[0, 0, 0, 0, 0, 0, 0, 0, 300, 0, 0, 0, 0, 0, 0, 0, 300, 0, 0, 0], [0, 0, 0, 0, 0, 0, 0, 0, 300, 0, 0, 200, 0, 0, 0, 0, 300, 0, 0, 0], by rfl, rfl, ?_, rfl⟩
  intro r c hr h0 hc
  rcases (by omega : r = 0 ∨ r = 1 ∨ r = 2 ∨ r = 3 ∨ r = 4) with rfl | rfl | rfl | rfl | rfl <;>
    rcases (by omega : c = 1 ∨ c = 2 ∨ c = 3) with rfl | rfl | rfl <;> rfl

end Verif.Props
