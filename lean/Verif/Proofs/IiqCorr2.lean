import Verif.Proofs.IiqCorr
import Verif.Proofs.Kdc
/-! # Corrections of Phase One sensors: proofs for images -/

namespace Verif.IiqCorr
open Verif Verif.Spec

theorem curveOf_bends (pts : List (Nat × Nat)) (hc : IiqCorr.Control pts) : ∃ curve, curveOf pts = .ok curve ∧ ∀ v, v < 65536 → IiqCorr.Bends pts v (curve v) := by
  obtain ⟨curve, h1, h2, h3⟩ := curveOf_ok pts hc
  obtain ⟨c1, c2, c3, c4⟩ := hc
  refine ⟨curve, h1, fun v hv => ⟨fun hv' => ?_, fun e hlt => ?_, fun e he => ?_⟩⟩
  · have find : ∀ n, n < pts.length → v < (pt pts n).1 → ∃ i, i + 1 < pts.length ∧ (pt pts i).1 ≤ v ∧ v < (pt pts (i + 1)).1 := by
      intro n
      induction n with
      | zero => intro _ h; rw [show (pt pts 0).1 = 0 from c2] at h; omega
      | succ n ih =>
        intro hn h
        by_cases hb : v < (pt pts n).1
        · exact ih (by omega) hb
        · exact ⟨n, hn, by omega, h⟩
    obtain ⟨i, hi, ha, hb⟩ := find (pts.length - 1) (by omega) (by rw [show (pt pts (pts.length - 1)).1 = 65535 from c3]; exact hv')
    refine ⟨i, hi, ha, hb, ?_⟩
    rw [h2 i v hi ha hb, stored_line pts i v (by omega)]
    rfl
  · subst e
    have hp : (pt pts (pts.length - 2 + 1)) = pts.getD (pts.length - 1) (0, 0) := by rw [show pts.length - 2 + 1 = pts.length - 1 by omega]; rfl
    have hl : (pt pts (pts.length - 2)).1 < (pt pts (pts.length - 2 + 1)).1 := by rw [hp, c3]; exact hlt
    rw [h3, stored_line pts _ _ hl, hp]
    have : IiqCorr.line (pt pts (pts.length - 2)) (pts.getD (pts.length - 1) (0, 0)) 65535 = ((pts.getD (pts.length - 1) (0, 0)).2 : ℚ) := by
      rw [IiqCorr.line, c3]
      have hne : ((65535 : Nat) : ℚ) - ((pt pts (pts.length - 2)).1 : ℚ) ≠ 0 := by
        have : ((pt pts (pts.length - 2)).1 : ℚ) < ((65535 : Nat) : ℚ) := by exact_mod_cast hlt
        linarith
      rw [mul_div_assoc, div_self hne]
      ring
    rw [this, IiqCorr.word]
    have hfl : ((((pts.getD (pts.length - 1) (0, 0)).2 : Nat) : ℚ)).floor = ((pts.getD (pts.length - 1) (0, 0)).2 : Int) := by
      have := Rat.floor_intCast ((pts.getD (pts.length - 1) (0, 0)).2 : Int)
      simpa using this
    rw [hfl]
    omega
  · subst e
    rw [h3]
    apply stored_nan
    rw [show pts.length - 2 + 1 = pts.length - 1 by omega]
    show (pts.getD _ _).1 = (pts.getD _ _).1
    rw [c3, he]

theorem holds_upd {l : List Nat} {w h : Nat} {f : Nat → Nat → Nat} (hl : Holds l w h f) (r c v : Nat) (hr : r < h) (hc : c < w) :
    ∃ l', upd l (r * w + c) v = .ok l' ∧ Holds l' w h (fun r' c' => if r' = r ∧ c' = c then v else f r' c') := by
  have hlt : r * w + c < l.length := by rw [hl.1]; exact mul_add_lt hr hc
  refine ⟨l.set (r * w + c) v, by rw [upd, if_pos hlt], by rw [List.length_set]; exact hl.1, ?_⟩
  intro r' c' hr' hc'
  show _ = some (if r' = r ∧ c' = c then v else f r' c')
  by_cases e : r' = r ∧ c' = c
  · obtain ⟨rfl, rfl⟩ := e
    rw [List.getElem?_set_self hlt, if_pos ⟨rfl, rfl⟩]
  · rw [if_neg e, List.getElem?_set_ne (fun e' => e ?_), hl.2 r' c' hr' hc']
    have := Verif.Kdc.place_inj hc hc' e'
    exact ⟨this.1.symm, this.2.symm⟩

theorem holds_congr {l : List Nat} {w h : Nat} {f g : Nat → Nat → Nat} (hl : Holds l w h f) (hfg : ∀ r c, r < h → c < w → f r c = g r c) : Holds l w h g :=
  ⟨hl.1, fun r c hr hc => by rw [hl.2 r c hr hc, hfg r c hr hc]⟩

theorem bend_ok (curve : Curve) {l : List Nat} {w h : Nat} {f : Nat → Nat → Nat} (hl : Holds l w h f) (r c : Nat) (hr : r < h) (hc : c < w) (hv : f r c < 65536) :
    ∃ l', bend curve w r c l = .ok l' ∧ Holds l' w h (fun r' c' => if r' = r ∧ c' = c then curve (f r c) else f r' c') := by
  have e : idx l (r * w + c) = .ok (f r c) := by rw [idx, hl.2 r c hr hc]
  obtain ⟨l', h1, h2⟩ := holds_upd hl r c (curve (f r c)) hr hc
  refine ⟨l', ?_, h2⟩
  rw [bend, e]
  simp only [bind, Except.bind]
  rw [if_pos hv, h1]

theorem bendArea_ok (curve : Curve) {l : List Nat} {w h : Nat} {f : Nat → Nat → Nat} (hl : Holds l w h f) (r0 r1 c0 c1 : Nat) (hr : r1 ≤ h) (hc : c1 ≤ w)
    (hv : ∀ r c, r < h → c < w → r0 ≤ r ∧ r < r1 ∧ c0 ≤ c ∧ c < c1 → f r c < 65536) :
    ∃ l', bendArea curve w r0 r1 c0 c1 l = .ok l' ∧
      Holds l' w h (fun r c => if r0 ≤ r ∧ r < r1 ∧ c0 ≤ c ∧ c < c1 then curve (f r c) else f r c) := by
  obtain ⟨l', h1, h2⟩ := forN_inv (r1 - r0) (fun i => forN (c1 - c0) fun j => bend curve w (r0 + i) (c0 + j))
    (fun i l => Holds l w h (fun r c => if r0 ≤ r ∧ r < r0 + i ∧ c0 ≤ c ∧ c < c1 then curve (f r c) else f r c)) l
    (holds_congr hl fun r c _ _ => by rw [if_neg (by omega)])
    (fun i l hi hI => by
      obtain ⟨l', g1, g2⟩ := forN_inv (c1 - c0) (fun j => bend curve w (r0 + i) (c0 + j))
        (fun j l => Holds l w h (fun r c => if (r0 ≤ r ∧ r < r0 + i ∧ c0 ≤ c ∧ c < c1) ∨ (r = r0 + i ∧ c0 ≤ c ∧ c < c0 + j) then curve (f r c) else f r c)) l
        (holds_congr hI fun r c _ _ => by
          by_cases a : r0 ≤ r ∧ r < r0 + i ∧ c0 ≤ c ∧ c < c1
          · rw [if_pos a, if_pos (.inl a)]
          · rw [if_neg a, if_neg (by omega)])
        (fun j l hj hJ => by
          have hval : (if (r0 ≤ r0 + i ∧ r0 + i < r0 + i ∧ c0 ≤ c0 + j ∧ c0 + j < c1) ∨ (r0 + i = r0 + i ∧ c0 ≤ c0 + j ∧ c0 + j < c0 + j) then
              curve (f (r0 + i) (c0 + j)) else f (r0 + i) (c0 + j)) = f (r0 + i) (c0 + j) := if_neg (by omega)
          obtain ⟨l', k1, k2⟩ := bend_ok curve hJ (r0 + i) (c0 + j) (by omega) (by omega)
            (by rw [hval]; exact hv _ _ (by omega) (by omega) (by omega))
          refine ⟨l', k1, holds_congr k2 fun r c _ _ => ?_⟩
          by_cases a : r = r0 + i ∧ c = c0 + j
          · rw [if_pos a, hval, if_pos (.inr (by omega)), a.1, a.2]
          · rw [if_neg a]
            by_cases b : (r0 ≤ r ∧ r < r0 + i ∧ c0 ≤ c ∧ c < c1) ∨ (r = r0 + i ∧ c0 ≤ c ∧ c < c0 + j)
            · rw [if_pos b, if_pos (by omega)]
            · rw [if_neg b, if_neg (by omega)])
      refine ⟨l', g1, holds_congr g2 fun r c _ _ => ?_⟩
      by_cases b : (r0 ≤ r ∧ r < r0 + i ∧ c0 ≤ c ∧ c < c1) ∨ (r = r0 + i ∧ c0 ≤ c ∧ c < c0 + (c1 - c0))
      · rw [if_pos b, if_pos (by omega)]
      · rw [if_neg b, if_neg (by omega)])
  refine ⟨l', h1, holds_congr h2 fun r c _ _ => ?_⟩
  by_cases b : r0 ≤ r ∧ r < r0 + (r1 - r0) ∧ c0 ≤ c ∧ c < c1
  · rw [if_pos b, if_pos (by omega)]
  · rw [if_neg b, if_neg (by omega)]

/-- The rectangle of a quadrant -/
theorem quadrant_ok (curve : Curve) {l : List Nat} {w h : Nat} {f : Nat → Nat → Nat} (hl : Holds l w h f) (sr sc : Nat) (hsr : sr ≤ h) (hsc : sc ≤ w) (qr qc : Nat)
    (hqr : qr < 2) (hqc : qc < 2) (hv : ∀ r c, r < h → c < w → IiqCorr.side sr r = qr ∧ IiqCorr.side sc c = qc → f r c < 65536) :
    ∃ l', quadrant curve w h sr sc qr qc l = .ok l' ∧
      Holds l' w h (fun r c => if IiqCorr.side sr r = qr ∧ IiqCorr.side sc c = qc then curve (f r c) else f r c) := by
  have hiff : ∀ r c, r < h → c < w → ((if qr > 0 then sr else 0) ≤ r ∧ r < (if qr > 0 then h else sr) ∧ (if qc > 0 then sc else 0) ≤ c ∧
      c < (if qc > 0 then w else sc) ↔ IiqCorr.side sr r = qr ∧ IiqCorr.side sc c = qc) := by
    intro r c hr hc
    unfold IiqCorr.side
    split <;> split <;> split <;> split <;> omega
  obtain ⟨l', h1, h2⟩ := bendArea_ok curve hl (if qr > 0 then sr else 0) (if qr > 0 then h else sr) (if qc > 0 then sc else 0) (if qc > 0 then w else sc)
    (by split <;> omega) (by split <;> omega) (fun r c hr hc a => hv r c hr hc ((hiff r c hr hc).mp a))
  refine ⟨l', h1, holds_congr h2 fun r c hr hc => ?_⟩
  by_cases a : IiqCorr.side sr r = qr ∧ IiqCorr.side sc c = qc
  · rw [if_pos a, if_pos ((hiff r c hr hc).mpr a)]
  · rw [if_neg a, if_neg (fun b => a ((hiff r c hr hc).mp b))]

theorem side_lt (s i : Nat) : IiqCorr.side s i < 2 := by unfold IiqCorr.side; split <;> omega

theorem quadrants_ok (points : Nat → Nat → R (List (Nat × Nat))) (curve : Nat → Nat → Curve) {l : List Nat} {w h : Nat} {f : Nat → Nat → Nat} (hl : Holds l w h f)
    (sr sc : Nat) (hsr : sr ≤ h) (hsc : sc ≤ w) (hv : ∀ r c, r < h → c < w → f r c < 65536)
    (hp : ∀ qr qc, qr < 2 → qc < 2 → ∃ p, points qr qc = .ok p ∧ curveOf p = .ok (curve qr qc)) :
    ∃ l', quadrants points w h sr sc l = .ok l' ∧ Holds l' w h (fun r c => curve (IiqCorr.side sr r) (IiqCorr.side sc c) (f r c)) := by
  obtain ⟨l', h1, h2⟩ := forN_inv 2 (fun qr => forN 2 fun qc img => do
      let p ← points qr qc
      let curve ← curveOf p
      quadrant curve w h sr sc qr qc img)
    (fun i l => Holds l w h (fun r c => if IiqCorr.side sr r < i then curve (IiqCorr.side sr r) (IiqCorr.side sc c) (f r c) else f r c)) l
    (holds_congr hl fun r c _ _ => by rw [if_neg (by omega)])
    (fun qr l hqr hI => by
      obtain ⟨l', g1, g2⟩ := forN_inv 2 (fun qc img => do
          let p ← points qr qc
          let curve ← curveOf p
          quadrant curve w h sr sc qr qc img)
        (fun j l => Holds l w h (fun r c => if IiqCorr.side sr r < qr ∨ IiqCorr.side sr r = qr ∧ IiqCorr.side sc c < j then
          curve (IiqCorr.side sr r) (IiqCorr.side sc c) (f r c) else f r c)) l
        (holds_congr hI fun r c _ _ => by
          by_cases a : IiqCorr.side sr r < qr
          · rw [if_pos a, if_pos (.inl a)]
          · rw [if_neg a, if_neg (by omega)])
        (fun qc l hqc hJ => by
          obtain ⟨p, p1, p2⟩ := hp qr qc hqr hqc
          obtain ⟨l', k1, k2⟩ := quadrant_ok (curve qr qc) hJ sr sc hsr hsc qr qc hqr hqc (fun r c hr hc a => by
            rw [if_neg (by omega)]; exact hv r c hr hc)
          refine ⟨l', by rw [p1]; simp only [bind, Except.bind]; rw [p2]; exact k1, holds_congr k2 fun r c _ _ => ?_⟩
          by_cases a : IiqCorr.side sr r = qr ∧ IiqCorr.side sc c = qc
          · rw [if_pos a, if_neg (by omega), if_pos (by omega), a.1, a.2]
          · rw [if_neg a]
            by_cases b : IiqCorr.side sr r < qr ∨ IiqCorr.side sr r = qr ∧ IiqCorr.side sc c < qc
            · rw [if_pos b, if_pos (by omega)]
            · rw [if_neg b, if_neg (by omega)])
      refine ⟨l', g1, holds_congr g2 fun r c _ _ => ?_⟩
      have := side_lt sc c
      by_cases b : IiqCorr.side sr r < qr ∨ IiqCorr.side sr r = qr ∧ IiqCorr.side sc c < 2
      · rw [if_pos b, if_pos (by omega)]
      · rw [if_neg b, if_neg (by omega)])
  refine ⟨l', h1, holds_congr h2 fun r c _ _ => ?_⟩
  rw [if_pos (side_lt sr r)]

theorem combinedPoints_ok (xs ys : List Nat) (hx : xs.length = 7) (hy : ys.length = 28) (qr qc : Nat) (hqr : qr < 2) (hqc : qc < 2) :
    combinedPoints xs ys qr qc = .ok (IiqCorr.combined xs ys qr qc) := by
  rw [combinedPoints, mapM_ok_of _ (fun i => (xs.getD i 0, xs.getD i 0 * ys.getD (14 * qr + 7 * qc + i) 0 / 10000))]
  · rfl
  · intro i hi
    rw [List.mem_range] at hi
    rw [Verif.Kdc.idx_getD xs i (by omega), Verif.Kdc.idx_getD ys _ (by omega), show qr * (2 * 7) + qc * 7 + i = 14 * qr + 7 * qc + i by omega]
    rfl

theorem asI32_clamp (q : Nat) (h : q < 2147483648) : (clamp (asI32 q) 0 65535).toNat = min 65535 q := by
  have e : asI32 q = q := by
    rw [asI32, Nat.mod_eq_of_lt (Nat.lt_trans h (by norm_num)), if_pos (Nat.lt_of_lt_of_le h (by norm_num))]
  rw [e, clamp]
  split <;> split <;> omega

theorem linearPoints_ok (t : List Nat) (ht : t.length = 64) (hw : ∀ v ∈ t, v < 65536) (qr qc : Nat) (hqr : qr < 2) (hqc : qc < 2) (h0 : 2 ≤ t.getD (32 * qr + 16 * qc + 15) 0) :
    linearPoints t qr qc = .ok (IiqCorr.linear t qr qc) := by
  have hlt : ∀ i, t.getD i 0 < 65536 := by
    intro i
    rw [List.getD_eq_getElem?_getD]
    cases e : t[i]? with
    | none => decide
    | some v => exact hw v (List.mem_of_getElem? e)
  have e15 : idx ((List.range 16).map fun i => (t.getD (32 * qr + 16 * qc + i) 0, IiqCorr.mean t i)) 15 =
      .ok (t.getD (32 * qr + 16 * qc + 15) 0, IiqCorr.mean t 15) := by rw [idx]; rfl
  rw [linearPoints, mapM_ok_of _ (fun i => (t.getD (32 * qr + 16 * qc + i) 0, IiqCorr.mean t i))]
  · simp only [bind, Except.bind]
    rw [e15]
    simp only
    rw [if_neg (by omega)]
    have hk : (clamp (asI32 (IiqCorr.mean t 15 * 65535 / t.getD (32 * qr + 16 * qc + 15) 0)) 0 65535).toNat = IiqCorr.knee t qr qc := by
      have hm : IiqCorr.mean t 15 ≤ 65535 := by
        have h1 := hlt 15; have h2 := hlt (16 + 15); have h3 := hlt (32 + 15); have h4 := hlt (48 + 15)
        unfold IiqCorr.mean
        omega
      have hb : IiqCorr.mean t 15 * 65535 / t.getD (32 * qr + 16 * qc + 15) 0 ≤ 65535 * 65535 / 2 :=
        Nat.le_trans (Nat.div_le_div_right (Nat.mul_le_mul_right _ hm)) (Nat.div_le_div_left h0 (by decide))
      rw [IiqCorr.knee]
      exact asI32_clamp _ (Nat.lt_of_le_of_lt hb (by norm_num))
    rw [hk]
    rfl
  · intro i hi
    rw [List.mem_range] at hi
    rw [Verif.Kdc.idx_getD t _ (by omega), Verif.Kdc.idx_getD t _ (by omega), Verif.Kdc.idx_getD t _ (by omega), Verif.Kdc.idx_getD t _ (by omega),
      Verif.Kdc.idx_getD t _ (by omega), show qr * (2 * 16) + qc * 16 + i = 32 * qr + 16 * qc + i by omega]
    rfl

end Verif.IiqCorr
