import Verif.Model.IiqCorr
import Verif.Spec.IiqCorr
import Verif.Proofs.Grid
import Mathlib.Tactic.Ring
import Mathlib.Tactic.FieldSimp
import Mathlib.Tactic.Linarith
/-! # Corrections of Phase One sensors: proofs -/

namespace Verif.IiqCorr
open Verif Verif.Spec

/-- The point `i` -/
def pt (pts : List (Nat × Nat)) (i : Nat) : Nat × Nat := pts.getD i (0, 0)

theorem idx_get {α : Type} (l : List α) (i : Nat) (h : i < l.length) : idx l i = .ok l[i] := by
  rw [idx, List.getElem?_eq_getElem h]

theorem pt_eq (pts : List (Nat × Nat)) (i : Nat) (h : i < pts.length) : pts[i] = pt pts i := by
  rw [pt, List.getD_eq_getElem?_getD, List.getElem?_eq_getElem h]; rfl

/-- The distance of two points -/
def gap (pts : List (Nat × Nat)) (i : Nat) : ℚ := (((pt pts (i + 1)).1 - (pt pts i).1 : Nat) : ℚ)

/-- A finished segment -/
def seg (pts : List (Nat × Nat)) (i : Nat) : Segment :=
  ⟨some ((pt pts i).2 : ℚ), if gap pts i = 0 then none else some ((((pt pts (i + 1)).2 : ℚ) - (pt pts i).2) / gap pts i), some 0,
    if gap pts i = 0 then none else some 0⟩

/-- A segment before it is filled in -/
def raw (pts : List (Nat × Nat)) (i : Nat) : Segment := ⟨some ((pt pts i).2 : ℚ), some 0, some 0, some 0⟩

/-- The segments from `m` on are finished -/
def Filled (pts : List (Nat × Nat)) (n m : Nat) (segs : List Segment) : Prop :=
  segs.length = n + 1 ∧ ∀ i, i < n + 1 → segs[i]? = some (if m ≤ i ∧ i < n then seg pts i else raw pts i)

theorem fill_ok (pts : List (Nat × Nat)) (n i : Nat) (hi : i < n) (segs : List Segment) (hf : Filled pts n (i + 1) segs) (h : List F)
    (hh : h = (List.range n).map fun i => some (gap pts i)) :
    ∃ s, fill h (some 1 :: List.replicate n (some 0)) (List.replicate (n + 1) (some 0)) i segs = .ok s ∧ Filled pts n i s := by
  have e1 : idx segs (i + 1) = .ok (if i + 1 ≤ i + 1 ∧ i + 1 < n then seg pts (i + 1) else raw pts (i + 1)) := by
    rw [idx, hf.2 (i + 1) (by omega)]
  have e2 : idx segs i = .ok (raw pts i) := by
    rw [idx, hf.2 i (by omega), if_neg (by omega)]
  have e3 : idx (List.replicate (n + 1) (some 0 : F)) i = .ok (some 0) := by
    rw [idx, List.getElem?_replicate, if_pos (by omega)]
  have e4 : ∃ m : ℚ, idx ((some 1 : F) :: List.replicate n (some 0)) i = .ok (some m) := by
    cases i with
    | zero => exact ⟨1, rfl⟩
    | succ i => exact ⟨0, by rw [idx, List.getElem?_cons_succ, List.getElem?_replicate, if_pos (by omega)]⟩
  have e5 : idx h i = .ok (some (gap pts i)) := by
    rw [hh, idx, List.getElem?_map, List.getElem?_range hi]; rfl
  obtain ⟨m, e4⟩ := e4
  have ea : (if i + 1 ≤ i + 1 ∧ i + 1 < n then seg pts (i + 1) else raw pts (i + 1)).a = some ((pt pts (i + 1)).2 : ℚ) := by split <;> rfl
  have ec : (if i + 1 ≤ i + 1 ∧ i + 1 < n then seg pts (i + 1) else raw pts (i + 1)).c = some 0 := by split <;> rfl
  refine ⟨segs.set i (seg pts i), ?_, ?_⟩
  · rw [fill, e1, e2, e3, e4, e5]
    simp only [bind, Except.bind]
    rw [ea, ec, upd, if_pos (by rw [hf.1]; omega)]
    congr 2
    simp only [raw, seg, fsub, fmul, fadd, fdiv, Option.bind_some, mul_zero, sub_zero, add_zero, zero_div]
    have t3 : (3 : ℚ) ≠ 0 := by norm_num
    by_cases hg : gap pts i = 0
    · simp [hg]
    · simp [hg, t3]
  · refine ⟨by rw [List.length_set]; exact hf.1, ?_⟩
    intro k hk
    by_cases hki : k = i
    · subst hki
      rw [List.getElem?_set_self (by rw [hf.1]; omega), if_pos ⟨Nat.le_refl _, hi⟩]
    · rw [List.getElem?_set_ne (fun e => hki e.symm), hf.2 k hk]
      congr 1
      by_cases h1 : i ≤ k ∧ k < n
      · rw [if_pos h1, if_pos (by omega)]
      · rw [if_neg h1, if_neg (by omega)]

theorem prepare_ok (pts : List (Nat × Nat)) (n : Nat) (hn : pts.length = n + 1) (hs : ∀ i, i < n → (pt pts i).1 ≤ (pt pts (i + 1)).1) :
    prepare (pts.map Prod.fst) n (pts.map fun p => ⟨some (p.2 : ℚ), some 0, some 0, some 0⟩) = .ok ((List.range n).map (seg pts)) := by
  have hx : ∀ i, i < n + 1 → idx (pts.map Prod.fst) i = .ok (pt pts i).1 := by
    intro i hi
    rw [idx, List.getElem?_map, List.getElem?_eq_getElem (by omega), ← pt_eq pts i (by omega)]; rfl
  rw [prepare, mapM_ok_of _ (fun i => some (gap pts i))]
  · simp only [bind, Except.bind]
    obtain ⟨s, hs1, hf⟩ := forN_inv n (fun k => fill ((List.range n).map fun i => some (gap pts i)) (some 1 :: List.replicate n (some 0))
        (List.replicate (n + 1) (some 0)) (n - 1 - k)) (fun k s => Filled pts n (n - k) s) (pts.map fun p => ⟨some (p.2 : ℚ), some 0, some 0, some 0⟩)
      ⟨by rw [List.length_map, hn], fun i hi => by
        rw [List.getElem?_map, List.getElem?_eq_getElem (by omega), pt_eq, if_neg (by omega)]; rfl⟩
      (fun k s hk h => by
        have e : n - (k + 1) = n - 1 - k := by omega
        rw [e]
        exact fill_ok pts n (n - 1 - k) (by omega) s (by rw [show n - 1 - k + 1 = n - k by omega]; exact h) _ rfl)
    rw [hs1]
    simp only
    congr 1
    apply List.ext_getElem?
    intro i
    rw [List.getElem?_dropLast, hf.1, List.getElem?_map]
    by_cases hi : i < n
    · rw [if_pos (by omega), hf.2 i (by omega), if_pos (by omega), List.getElem?_range hi]; rfl
    · rw [if_neg (by omega), List.getElem?_eq_none (by simpa using hi)]; rfl
  · intro i hi
    rw [List.mem_range] at hi
    rw [hx _ (by omega), hx _ (by omega)]
    simp only [bind, Except.bind]
    rw [usub, if_pos (hs i hi)]
    rfl

theorem inOrder_ok (pts : List (Nat × Nat)) (prev : Nat) (h0 : ∀ p, pts.head? = some p → prev ≤ p.1)
    (hs : ∀ i, i + 1 < pts.length → (pt pts i).1 ≤ (pt pts (i + 1)).1) : inOrder prev pts = true := by
  induction pts generalizing prev with
  | nil => rfl
  | cons p l ih =>
    rw [inOrder, ih p.1]
    · simp [h0 p rfl]
    · intro q hq
      cases l with
      | nil => cases hq
      | cons r l =>
        cases hq
        exact hs 0 (by simp)
    · intro i hi
      exact hs (i + 1) (by simp only [List.length_cons]; omega)

theorem order_inOrder (pts : List (Nat × Nat)) (prev : Nat) (h : inOrder prev pts = true) : ∀ i, i + 1 < pts.length → (pt pts i).1 ≤ (pt pts (i + 1)).1 := by
  induction pts generalizing prev with
  | nil => intro i hi; simp at hi
  | cons p l ih =>
    rw [inOrder] at h
    simp only [Bool.and_eq_true, decide_eq_true_eq] at h
    intro i hi
    cases i with
    | zero =>
      cases l with
      | nil => simp at hi
      | cons q l =>
        have := h.2
        rw [inOrder] at this
        simp only [Bool.and_eq_true, decide_eq_true_eq] at this
        exact this.1
    | succ i => exact ih p.1 h.2 i (by simp only [List.length_cons] at hi; omega)

theorem put_ok (curve : Curve) (x v : Nat) (h : x < 65536) : put curve x v = .ok (fun y => if y = x then v else curve y) := by rw [put, if_pos h]

/-- What a segment stores -/
def stored (pts : List (Nat × Nat)) (i x : Nat) : Nat := toU16 (valueAt (seg pts i) (pt pts i).1 x)

theorem segment_ok (pts : List (Nat × Nat)) (n i : Nat) (hn : pts.length = n + 1) (hi : i < n) (h1 : (pt pts (i + 1)).1 < 65536) (curve : Curve) :
    ∃ c', segment (pts.map Prod.fst) ((List.range n).map (seg pts)) i curve = .ok c' ∧
      ∀ x, c' x = if (pt pts i).1 ≤ x ∧ x ≤ (pt pts (i + 1)).1 then stored pts i x else curve x := by
  have hx : ∀ i, i < n + 1 → idx (pts.map Prod.fst) i = .ok (pt pts i).1 := by
    intro i hi
    rw [idx, List.getElem?_map, List.getElem?_eq_getElem (by omega), ← pt_eq pts i (by omega)]; rfl
  have e1 : idx ((List.range n).map (seg pts)) i = .ok (seg pts i) := by
    rw [idx, List.getElem?_map, List.getElem?_range hi]; rfl
  rw [segment, e1, hx _ (by omega), hx _ (by omega)]
  simp only [bind, Except.bind]
  obtain ⟨c, hc, hI⟩ := forN_inv ((pt pts (i + 1)).1 + 1 - (pt pts i).1)
    (fun j curve => put curve ((pt pts i).1 + j) (toU16 (valueAt (seg pts i) (pt pts i).1 ((pt pts i).1 + j))))
    (fun j c => ∀ x, c x = if (pt pts i).1 ≤ x ∧ x < (pt pts i).1 + j then stored pts i x else curve x) curve
    (fun x => by rw [if_neg (by omega)])
    (fun j c hj h => by
      refine ⟨_, put_ok _ _ _ (by omega), fun x => ?_⟩
      by_cases e : x = (pt pts i).1 + j
      · rw [if_pos e, if_pos (by omega), stored, e]
      · rw [if_neg e, h x]
        by_cases h2 : (pt pts i).1 ≤ x ∧ x < (pt pts i).1 + j
        · rw [if_pos h2, if_pos (by omega)]
        · rw [if_neg h2, if_neg (by omega)])
  refine ⟨c, hc, fun x => ?_⟩
  rw [hI x]
  by_cases h2 : (pt pts i).1 ≤ x ∧ x ≤ (pt pts (i + 1)).1
  · rw [if_pos h2, if_pos (by omega)]
  · rw [if_neg h2, if_neg (by omega)]

theorem mono (f : Nat → Nat) (n : Nat) (hs : ∀ i, i < n → f i ≤ f (i + 1)) : ∀ i j, i ≤ j → j ≤ n → f i ≤ f j := by
  intro i j hij hj
  induction j with
  | zero => rw [Nat.le_zero.mp hij]
  | succ j ih =>
    by_cases e : i = j + 1
    · rw [e]
    · exact Nat.le_trans (ih (by omega) (by omega)) (hs j (by omega))

theorem curveOf_ok (pts : List (Nat × Nat)) (hc : IiqCorr.Control pts) :
    ∃ curve, curveOf pts = .ok curve ∧ (∀ i x, i + 1 < pts.length → (pt pts i).1 ≤ x → x < (pt pts (i + 1)).1 → curve x = stored pts i x) ∧
      curve 65535 = stored pts (pts.length - 2) 65535 := by
  obtain ⟨h2, h0, hl, hs⟩ := hc
  obtain ⟨n, hn⟩ : ∃ n, pts.length = n + 1 := ⟨pts.length - 1, by omega⟩
  have hs' : ∀ i, i < n → (pt pts i).1 ≤ (pt pts (i + 1)).1 := fun i hi => hs i (by omega)
  have hm := mono (fun i => (pt pts i).1) n hs'
  have hlast : (pt pts n).1 = 65535 := by
    have : pts.length - 1 = n := by omega
    rw [this] at hl; exact hl
  have a1 : pts.head?.map (fun p => p.1 % 65536) = some 0 := by
    rw [List.head?_eq_getElem?, List.getElem?_eq_getElem (by omega), pt_eq]
    show some ((pt pts 0).1 % 65536) = some 0
    rw [show (pt pts 0).1 = 0 from h0]
  have a2 : pts.getLast?.map (fun p => p.1 % 65536) = some 65535 := by
    rw [List.getLast?_eq_getElem?, List.getElem?_eq_getElem (by omega), pt_eq, show pts.length - 1 = n by omega]
    show some ((pt pts n).1 % 65536) = some 65535
    rw [hlast]
  have a3 : inOrder 0 pts = true := inOrder_ok pts 0 (fun _ _ => Nat.zero_le _) hs
  have e : newSpline pts = .ok (pts.map Prod.fst, (List.range n).map (seg pts)) := by
    rw [newSpline, a1, a2, a3]
    simp only [assert', decide_true, if_true, bind, Except.bind]
    rw [if_pos (by simpa using h2)]
    simp only
    rw [show pts.length - 1 = n by omega, prepare_ok pts n hn hs']
  obtain ⟨c, hc1, hI⟩ := forN_inv n (segment (pts.map Prod.fst) ((List.range n).map (seg pts)))
    (fun k c => ∀ i, i < k → ∀ x, (pt pts i).1 ≤ x → (x < (pt pts (i + 1)).1 ∨ i + 1 = k ∧ x ≤ (pt pts (i + 1)).1) → c x = stored pts i x) (fun _ => 0)
    (fun i hi => by omega)
    (fun k c hk h => by
      obtain ⟨c', e', h'⟩ := segment_ok pts n k hn hk (by have := hm (k + 1) n (by omega) (Nat.le_refl _); simp only [hlast] at this; omega) c
      refine ⟨c', e', ?_⟩
      intro i hi x h1 h2
      rw [h' x]
      by_cases hik : i = k
      · subst hik
        rw [if_pos (by omega)]
      · have := hm (i + 1) k (by omega) (by omega)
        rw [if_neg (by omega)]
        exact h i (by omega) x h1 (.inl (by omega)))
  refine ⟨c, ?_, ?_, ?_⟩
  · rw [curveOf, e]
    simp only [bind, Except.bind, calculateCurve, List.length_map, List.length_range]
    exact hc1
  · intro i x hi h1 h3
    exact hI i (by omega) x h1 (.inl h3)
  · have := hI (n - 1) (by omega) 65535 (by have := hm (n - 1) n (by omega) (Nat.le_refl _); simp only [hlast] at this; exact this)
      (.inr ⟨by omega, by rw [show n - 1 + 1 = n by omega, hlast]⟩)
    rw [this, show pts.length - 2 = n - 1 by omega]

theorem toU16_word (q : ℚ) : toU16 (some q) = IiqCorr.word q := by
  simp only [toU16, IiqCorr.word]
  by_cases h1 : q < 0
  · rw [if_pos h1]
    have : q.floor < 0 := by
      have := Rat.floor_le q
      by_contra hh
      have h3 : (0 : ℚ) ≤ (q.floor : ℚ) := by exact_mod_cast (not_lt.mp hh)
      linarith
    omega
  · rw [if_neg h1]
    by_cases h2 : 65535 < q
    · rw [if_pos h2]
      have : (65535 : Int) ≤ q.floor := Rat.le_floor_iff.mpr (by push_cast; linarith)
      omega
    · rw [if_neg h2]
      have hle : q.floor ≤ 65535 := by
        have := Rat.floor_le q
        have h3 : (q.floor : ℚ) ≤ 65535 := by linarith [not_lt.mp h2]
        exact_mod_cast h3
      have hge : (0 : Int) ≤ q.floor := Rat.le_floor_iff.mpr (by push_cast; linarith [not_lt.mp h1])
      omega

theorem stored_line (pts : List (Nat × Nat)) (i x : Nat) (h : (pt pts i).1 < (pt pts (i + 1)).1) :
    stored pts i x = IiqCorr.word (IiqCorr.line (pt pts i) (pt pts (i + 1)) x) := by
  have hg : gap pts i = ((pt pts (i + 1)).1 : ℚ) - (pt pts i).1 := by rw [gap, Nat.cast_sub (by omega)]
  have hne : gap pts i ≠ 0 := by
    rw [hg]
    have : ((pt pts i).1 : ℚ) < (pt pts (i + 1)).1 := by exact_mod_cast h
    linarith
  rw [stored, ← toU16_word]
  congr 1
  simp only [valueAt, seg, if_neg hne, fadd, fmul, Option.bind_some, IiqCorr.line, ← hg]
  congr 1
  field_simp
  ring

theorem stored_nan (pts : List (Nat × Nat)) (i x : Nat) (h : (pt pts i).1 = (pt pts (i + 1)).1) : stored pts i x = 0 := by
  have hg : gap pts i = 0 := by rw [gap, h]; simp
  rw [stored]
  simp only [valueAt, seg, if_pos hg, fadd, fmul, Option.bind_some, Option.bind_none]
  rfl

end Verif.IiqCorr
