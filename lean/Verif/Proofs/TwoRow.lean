import Verif.Model.Nef
import Verif.Spec.TwoRow
import Verif.Spec.Image
import Verif.Proofs.BitRun
import Verif.Proofs.HuffShift
import Verif.Proofs.Grid
/-! # The predictor loops of the Pentax and Nikon decoders -/

namespace Verif.TwoRow
open Verif Verif.Pumps Verif.Ljpeg Verif.Spec Verif.Spec.TwoRow Verif.Pef

/-- The first `i` pixels are stored. -/
def Done (N : Nat) (Q : Nat → Nat → Prop) (i : Nat) (out : List Nat) : Prop :=
  out.length = N ∧ ∀ j, j < i → ∃ v, out[j]? = some v ∧ Q j v

theorem Done.put {N : Nat} {Q : Nat → Nat → Prop} {i : Nat} {out : List Nat} (h : Done N Q i out) (hi : i < N) (v : Nat) (hv : Q i v) :
    ∃ out', upd out i v = .ok out' ∧ Done N Q (i + 1) out' := by
  refine ⟨out.set i v, upd_lt _ _ _ (by rw [h.1]; exact hi), by rw [List.length_set]; exact h.1, ?_⟩
  intro j hj
  by_cases he : j = i
  · subst he
    exact ⟨v, List.getElem?_set_self (by rw [h.1]; exact hi), hv⟩
  · obtain ⟨u, hu, hq⟩ := h.2 j (by omega)
    exact ⟨u, by rw [List.getElem?_set_ne (by omega)]; exact hu, hq⟩

theorem Done.start (N : Nat) (Q : Nat → Nat → Prop) : Done N Q 0 (List.replicate N 0) :=
  ⟨by simp, fun j hj => by omega⟩

theorem flatMap_pairs {α : Type} (m : Nat) (f : Nat → List α) :
    (List.range (2 * m)).flatMap f = (List.range m).flatMap fun k => f (2 * k) ++ f (2 * k + 1) := by
  induction m with
  | zero => rfl
  | succ m ih =>
    rw [show 2 * (m + 1) = 2 * m + 1 + 1 by omega, List.range_succ, List.range_succ, List.range_succ]
    simp only [List.flatMap_append, List.flatMap_cons, List.flatMap_nil, List.append_nil, ih, List.append_assoc]

/-- A code that the table decodes to `d`. -/
def Decodes (t : HuffTable) (code : List Bool) (d : Int) : Prop :=
  ∀ (p : PumpMSB) (rest : List Bool), p.Rep (code ++ rest) → 32 ≤ rest.length →
    ∃ p', huffDecode t p = .ok (d, p') ∧ p'.Rep rest

theorem addDiff_ok {t : HuffTable} {code : List Bool} {pred v : Int} (hd : Decodes t code (v - pred)) (h1 : -2 ^ 31 ≤ v) (h2 : v < 2 ^ 31)
    (p : PumpMSB) (rest : List Bool) (hr : p.Rep (code ++ rest)) (hm : 32 ≤ rest.length) :
    ∃ p', addDiff t p pred = .ok (v, p') ∧ p'.Rep rest := by
  obtain ⟨p', e, r⟩ := hd p rest hr hm
  refine ⟨p', ?_, r⟩
  rw [addDiff, e]
  simp only [bind, Except.bind]
  rw [show pred + (v - pred) = v by omega, chkI32, if_pos ⟨h1, h2⟩]

/-- The two starting predictors of row `r`. -/
def UpOK (start px : Nat → Nat → Int) (r : Nat) (up1 up2 : List Int) : Prop :=
  up1 = [before start px (r + r % 2) 0, before start px (r + (r + 1) % 2) 0] ∧
  up2 = [before start px (r + r % 2) 1, before start px (r + (r + 1) % 2) 1]

theorem UpOK.get {start px r up1 up2} (h : UpOK start px r up1 up2) :
    idx up1 (r % 2) = .ok (before start px r 0) ∧ idx up2 (r % 2) = .ok (before start px r 1) := by
  obtain ⟨rfl, rfl⟩ := h
  rcases Nat.mod_two_eq_zero_or_one r with e | e
  · rw [e]; exact ⟨rfl, rfl⟩
  · rw [e, show (r + 1) % 2 = 0 by omega]; exact ⟨rfl, rfl⟩

theorem UpOK.next {start px r up1 up2} (h : UpOK start px r up1 up2) :
    UpOK start px (r + 1) (up1.set (r % 2) (px r 0)) (up2.set (r % 2) (px r 1)) := by
  obtain ⟨rfl, rfl⟩ := h
  have hb : ∀ c, c < 2 → before start px (r + 2) c = px r c := by
    intro c hc
    rw [before, if_neg (by omega), if_pos (by omega), Nat.add_sub_cancel]
  rcases Nat.mod_two_eq_zero_or_one r with e | e
  · unfold UpOK
    rw [e, show (r + 1) % 2 = 1 by omega, show (r + 1 + 1) % 2 = 0 by omega,
      show r + 1 + 1 = r + 2 by omega, hb 0 (by omega), hb 1 (by omega)]
    exact ⟨rfl, rfl⟩
  · unfold UpOK
    rw [e, show (r + 1) % 2 = 0 by omega, show (r + 1 + 1) % 2 = 1 by omega,
      show r + 1 + 1 = r + 2 by omega, hb 0 (by omega), hb 1 (by omega)]
    exact ⟨rfl, rfl⟩

/-! ### Pentax -/

section
variable {t : HuffTable} {w h : Nat} {start px : Nat → Nat → Int} {code : Nat → Nat → List Bool} {Q : Nat → Nat → Prop}

theorem pef_pairs (r m : Nat) (hw : w = 2 * (m + 1)) (hr : r < h)
    (hdec : ∀ c, c < w → Decodes t (code r c) (px r c - before start px r c))
    (hpx : ∀ c, c < w → -2 ^ 31 ≤ px r c ∧ px r c < 2 ^ 31) (hQ : ∀ c, c < w → Q (r * w + c) (asU16 (px r c)))
    (p : PumpMSB) (out : List Nat) (rest : List Bool) (ho : Done (w * h) Q (r * w + 2) out)
    (hrep : p.Rep ((List.range m).flatMap (fun k => code r (2 + 2 * k) ++ code r (2 + 2 * k + 1)) ++ rest)) (hm : 32 ≤ rest.length) :
    ∃ p' l1 l2 out', forN m (pairStep t w r) (p, px r 0, px r 1, out) = .ok (p', l1, l2, out') ∧ p'.Rep rest ∧
      Done (w * h) Q (r * w + w) out' := by
  have hN : r * w + w ≤ w * h := by
    have : (r + 1) * w ≤ h * w := Nat.mul_le_mul_right _ hr
    rw [Nat.add_mul, Nat.one_mul, Nat.mul_comm h] at this; exact this
  obtain ⟨p', ⟨l1, l2, out'⟩, e, hp', hinv⟩ := forN_code PumpMSB.Rep m (pairStep t w r)
    (fun k => code r (2 + 2 * k) ++ code r (2 + 2 * k + 1))
    (fun k st => st.1 = px r (2 * k) ∧ st.2.1 = px r (2 * k + 1) ∧ Done (w * h) Q (r * w + 2 * k + 2) st.2.2) 32
    (by
      intro k hk p ⟨l1, l2, out⟩ rest ⟨h1, h2, h3⟩ hrep hm
      simp only at h1 h2 h3
      subst h1 h2
      rw [List.append_assoc] at hrep
      have hb1 : before start px r (2 + 2 * k) = px r (2 * k) := by
        rw [before, if_pos (by omega)]; congr 1; omega
      have hb2 : before start px r (2 + 2 * k + 1) = px r (2 * k + 1) := by
        rw [before, if_pos (by omega)]; congr 1; omega
      have hd1 := hdec (2 + 2 * k) (by omega)
      have hd2 := hdec (2 + 2 * k + 1) (by omega)
      rw [hb1] at hd1
      rw [hb2] at hd2
      have hx1 := hpx (2 + 2 * k) (by omega)
      have hx2 := hpx (2 + 2 * k + 1) (by omega)
      obtain ⟨p1, e1, r1⟩ := addDiff_ok hd1 hx1.1 hx1.2 p _ hrep (by rw [List.length_append]; omega)
      obtain ⟨p2, e2, r2⟩ := addDiff_ok hd2 hx2.1 hx2.2 p1 _ r1 hm
      obtain ⟨o1, e3, d1⟩ := h3.put (by omega) (asU16 (px r (2 + 2 * k)))
        (by rw [show r * w + 2 * k + 2 = r * w + (2 + 2 * k) by omega]; exact hQ _ (by omega))
      obtain ⟨o2, e4, d2⟩ := d1.put (by omega) (asU16 (px r (2 + 2 * k + 1)))
        (by rw [show r * w + 2 * k + 2 + 1 = r * w + (2 + 2 * k + 1) by omega]; exact hQ _ (by omega))
      refine ⟨p2, (px r (2 + 2 * k), px r (2 + 2 * k + 1), o2), ?_, r2, ?_, ?_, ?_⟩
      · simp only [pairStep, e1, bind, Except.bind]
        rw [e2]
        simp only
        rw [show r * w + (2 + 2 * k) = r * w + 2 * k + 2 by omega, e3]
        simp only
        rw [e4]
      · show px r _ = px r _
        congr 1; omega
      · show px r _ = px r _
        congr 1; omega
      · rw [show r * w + 2 * (k + 1) + 2 = r * w + 2 * k + 2 + 1 + 1 by omega]; exact d2)
    p (px r 0, px r 1, out) rest ⟨rfl, rfl, ho⟩ hrep hm
  refine ⟨p', l1, l2, out', e, hp', ?_⟩
  have := hinv.2.2
  rw [show r * w + 2 * m + 2 = r * w + w by omega] at this
  exact this

theorem pef_row (r m : Nat) (hw : w = 2 * (m + 1)) (hr : r < h)
    (hdec : ∀ c, c < w → Decodes t (code r c) (px r c - before start px r c))
    (hpx : ∀ c, c < w → -2 ^ 31 ≤ px r c ∧ px r c < 2 ^ 31) (hQ : ∀ c, c < w → Q (r * w + c) (asU16 (px r c)))
    (st : St) (rest : List Bool) (hu : UpOK start px r st.up1 st.up2) (ho : Done (w * h) Q (r * w) st.out)
    (hrep : st.p.Rep ((List.range w).flatMap (code r) ++ rest)) (hm : 32 ≤ rest.length) :
    ∃ st', rowStep t w r st = .ok st' ∧ st'.p.Rep rest ∧ UpOK start px (r + 1) st'.up1 st'.up2 ∧
      Done (w * h) Q ((r + 1) * w) st'.out := by
  have hN : r * w + w ≤ w * h := by
    have : (r + 1) * w ≤ h * w := Nat.mul_le_mul_right _ hr
    rw [Nat.add_mul, Nat.one_mul, Nat.mul_comm h] at this; exact this
  have hcode : (List.range w).flatMap (code r) =
      code r 0 ++ (code r 1 ++ (List.range m).flatMap (fun k => code r (2 + 2 * k) ++ code r (2 + 2 * k + 1))) := by
    rw [hw, flatMap_pairs, List.range_succ_eq_map, List.flatMap_cons, List.flatMap_map, List.append_assoc]
    congr 2
    apply List.flatMap_congr
    intro k _
    rw [show 2 * k.succ = 2 + 2 * k by omega]
  rw [hcode, List.append_assoc, List.append_assoc] at hrep
  obtain ⟨i1, i2⟩ := hu.get
  have hx1 := hpx 0 (by omega)
  have hx2 := hpx 1 (by omega)
  obtain ⟨p1, e1, r1⟩ := addDiff_ok (hdec 0 (by omega)) hx1.1 hx1.2 st.p _ hrep (by simp only [List.length_append]; omega)
  obtain ⟨p2, e2, r2⟩ := addDiff_ok (hdec 1 (by omega)) hx2.1 hx2.2 p1 _ r1 (by simp only [List.length_append]; omega)
  obtain ⟨o1, e3, d1⟩ := ho.put (by omega) (asU16 (px r 0)) (hQ 0 (by omega))
  obtain ⟨o2, e4, d2⟩ := d1.put (by omega) (asU16 (px r 1)) (hQ 1 (by omega))
  obtain ⟨p3, l1, l2, o3, e5, r3, d3⟩ := pef_pairs r m hw hr hdec hpx hQ p2 o2 rest d2 r2 hm
  refine ⟨⟨p3, st.up1.set (r % 2) (px r 0), st.up2.set (r % 2) (px r 1), o3⟩, ?_, r3, hu.next, ?_⟩
  · simp only [rowStep, i1, i2, bind, Except.bind]
    rw [e1]; simp only
    rw [e2]; simp only
    rw [e3]; simp only
    rw [e4]; simp only
    rw [show (w - 1) / 2 = m by omega, e5]
  · rw [Nat.add_mul, Nat.one_mul]; exact d3

theorem pef_image (m : Nat) (hw : w = 2 * (m + 1))
    (hdec : ∀ r c, r < h → c < w → Decodes t (code r c) (px r c - before start px r c))
    (hpx : ∀ r c, r < h → c < w → -2 ^ 31 ≤ px r c ∧ px r c < 2 ^ 31)
    (hQ : ∀ r c, r < h → c < w → Q (r * w + c) (asU16 (px r c)))
    (st : St) (rest : List Bool) (hu : UpOK start px 0 st.up1 st.up2) (ho : Done (w * h) Q 0 st.out)
    (hrep : st.p.Rep (stored code w h ++ rest)) (hm : 32 ≤ rest.length) :
    ∃ st', forN h (rowStep t w) st = .ok st' ∧ Done (w * h) Q (w * h) st'.out := by
  suffices H : ∀ n, n ≤ h → ∀ rest, st.p.Rep ((List.range n).flatMap (fun r => (List.range w).flatMap (code r)) ++ rest) →
      32 ≤ rest.length → ∃ st', forN n (rowStep t w) st = .ok st' ∧ st'.p.Rep rest ∧ UpOK start px n st'.up1 st'.up2 ∧
        Done (w * h) Q (n * w) st'.out by
    obtain ⟨st', e, _, _, hd⟩ := H h (Nat.le_refl _) rest hrep hm
    exact ⟨st', e, by rw [Nat.mul_comm h w] at hd; exact hd⟩
  intro n
  induction n with
  | zero => exact fun _ rest hr _ => ⟨st, rfl, hr, hu, by simpa using ho⟩
  | succ n ih =>
    intro hn rest hrep hm
    rw [List.range_succ, List.flatMap_append, List.append_assoc] at hrep
    simp only [List.flatMap_cons, List.flatMap_nil, List.append_nil] at hrep
    obtain ⟨s1, e1, r1, u1, d1⟩ := ih (by omega) _ hrep (by rw [List.length_append]; omega)
    obtain ⟨s2, e2, r2, u2, d2⟩ := pef_row n m hw (by omega) (fun c hc => hdec n c (by omega) hc)
      (fun c hc => hpx n c (by omega) hc) (fun c hc => hQ n c (by omega) hc) s1 rest u1 d1 r1 hm
    refine ⟨s2, ?_, r2, u2, d2⟩
    rw [forN_succ, e1]
    exact e2
end

end Verif.TwoRow
