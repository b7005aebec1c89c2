import Verif.Proofs.FujiLine
/-! # Fuji: one sample of a strip -/

namespace Verif.Fuji
open Verif Verif.Pumps Verif.Spec.Fuji
open Verif.Orf (ok_bind)

/-! ## The lines of a colour -/

theorem above_bounds (m b c d f : Int) (hb : 0 ≤ b ∧ b ≤ m) (hc : 0 ≤ c ∧ c ≤ m) (hd : 0 ≤ d ∧ d ≤ m) (hf : 0 ≤ f ∧ f ≤ m) :
    0 ≤ above b c d f ∧ above b c d f ≤ m := by
  unfold above
  split_ifs <;> omega

theorem evenSum_eq (b c d f : Int) : evenSum b c d f / 4 = above b c d f := by
  unfold evenSum above
  simp only
  split_ifs <;> first | omega | (congr 1; omega)

section
variable (b W q : Nat) (u2 u1 : Nat → Nat) (gap : Nat → Bool) (x : Nat → Nat)

theorem lookEven_bounds (h2 : ∀ i, u2 i ≤ 2 ^ b - 1) (h1 : ∀ i, u1 i ≤ 2 ^ b - 1) (i : Nat) :
    (lookEven u2 u1 i).v1.natAbs ≤ 2 ^ b - 1 ∧ (lookEven u2 u1 i).v2.natAbs ≤ 2 ^ b - 1 ∧ 0 ≤ (lookEven u2 u1 i).pred ∧
      (lookEven u2 u1 i).pred ≤ 2 ^ b - 1 := by
  have hcast : ((2 ^ b - 1 : Nat) : Int) = 2 ^ b - 1 := by rw [Int.ofNat_sub (Nat.two_pow_pos b)]; push_cast; rfl
  have a1 := h1 i
  have a2 := h1 (i - 1)
  have a3 := h1 (i + 1)
  have a4 := h2 i
  have := above_bounds (2 ^ b - 1) (u1 i) (u1 (i - 1)) (u1 (i + 1)) (u2 i) (by omega) (by omega) (by omega) (by omega)
  unfold lookEven
  simp only
  omega

theorem lookOdd_bounds (u0 : Nat → Nat) (h1 : ∀ i, u1 i ≤ 2 ^ b - 1) (h0 : ∀ i, u0 i ≤ 2 ^ b - 1) (i : Nat) :
    (lookOdd u1 u0 i).v1.natAbs ≤ 2 ^ b - 1 ∧ (lookOdd u1 u0 i).v2.natAbs ≤ 2 ^ b - 1 ∧ 0 ≤ (lookOdd u1 u0 i).pred ∧
      (lookOdd u1 u0 i).pred ≤ 2 ^ b - 1 := by
  have hcast : ((2 ^ b - 1 : Nat) : Int) = 2 ^ b - 1 := by rw [Int.ofNat_sub (Nat.two_pow_pos b)]; push_cast; rfl
  have a1 := h1 i
  have a2 := h1 (i - 1)
  have a3 := h1 (i + 1)
  have a4 := h0 (i - 1)
  have a5 := h0 (i + 1)
  unfold lookOdd
  simp only
  refine ⟨by omega, by omega, ?_⟩
  split_ifs <;> omega

theorem evenRow_le (h2 : ∀ i, u2 i ≤ 2 ^ b - 1) (h1 : ∀ i, u1 i ≤ 2 ^ b - 1) (i : Nat) : evenRow b W q u2 u1 gap x i ≤ 2 ^ b - 1 := by
  have hcast : ((2 ^ b - 1 : Nat) : Int) = 2 ^ b - 1 := by rw [Int.ofNat_sub (Nat.two_pow_pos b)]; push_cast; rfl
  unfold evenRow
  split_ifs
  · exact h1 _
  · exact h1 _
  · have := lookEven_bounds b u2 u1 h2 h1 i
    omega
  · exact near_le _ _ _ _

theorem nextRow_le (h2 : ∀ i, u2 i ≤ 2 ^ b - 1) (h1 : ∀ i, u1 i ≤ 2 ^ b - 1) (i : Nat) : nextRow b W q u2 u1 gap x i ≤ 2 ^ b - 1 := by
  unfold nextRow
  split_ifs
  · exact evenRow_le b W q u2 u1 gap x h2 h1 i
  · exact near_le _ _ _ _

end

theorem lines_le (b W : Nat) (q : Nat → Nat) (gap : Nat → Nat → Bool) (x : Nat → Nat → Nat) :
    ∀ n, (∀ i, lines b W q gap x n i ≤ 2 ^ b - 1) ∧ ∀ i, lines b W q gap x (n + 1) i ≤ 2 ^ b - 1 := by
  intro n
  induction n with
  | zero => exact ⟨fun i => Nat.zero_le _, fun i => Nat.zero_le _⟩
  | succ n ih => exact ⟨ih.2, fun i => nextRow_le b W (q n) _ _ (gap n) (x n) ih.1 ih.2 i⟩

section
variable (S : Strip)

theorem W_even : S.W % 2 = 0 ∧ 10 ≤ S.W ∧ S.W ≤ 512 := by
  unfold Strip.W
  split <;> omega

theorem plane_le (c n i : Nat) : S.plane c n i ≤ 2 ^ S.b - 1 := (lines_le _ _ _ _ _ n).1 i

theorem plane_zero (c n i : Nat) (h : n < 2) : S.plane c n i = 0 := by
  match n, h with
  | 0, _ => rfl
  | 1, _ => rfl

theorem plane_left (c n : Nat) : S.plane c (n + 2) 0 = S.plane c (n + 1) 1 := rfl

theorem plane_right (c n : Nat) : S.plane c (n + 2) (S.W + 1) = S.plane c (n + 1) S.W := by
  have := W_even S
  change nextRow _ _ _ _ _ _ _ _ = _
  rw [nextRow, if_pos (by omega), evenRow, if_neg (by omega), if_pos rfl]
  rfl

theorem plane_even (c n j : Nat) (hj : j % 2 = 0) (hw : j < S.W) (grp : Nat) : S.plane c (n + 2) (j + 1) =
    if S.gap c n j then (S.look ⟨c, n, j, grp⟩).pred.toNat
    else near S.b ((S.look ⟨c, n, j, grp⟩).error (S.qLine c n)) (S.look ⟨c, n, j, grp⟩).pred (S.x c n j) := by
  have := W_even S
  change nextRow _ _ _ _ _ _ _ _ = _
  rw [nextRow, if_pos (by omega), evenRow, if_neg (by omega), if_neg (by omega)]
  simp only [Strip.look, if_pos hj, Nat.add_sub_cancel]
  rfl

theorem plane_odd (c n j : Nat) (hj : j % 2 = 1) (grp : Nat) : S.plane c (n + 2) (j + 1) =
    near S.b ((S.look ⟨c, n, j, grp⟩).error (S.qLine c n)) (S.look ⟨c, n, j, grp⟩).pred (S.x c n j) := by
  change nextRow _ _ _ _ _ _ _ _ = _
  have hl : lookOdd (S.plane c (n + 1)) (evenRow S.b S.W (S.qLine c n) (S.plane c n) (S.plane c (n + 1)) (S.gap c n) (S.x c n)) (j + 1) =
      S.look ⟨c, n, j, grp⟩ := by
    have e1 : S.plane c (n + 2) (j + 1 - 1) = evenRow S.b S.W (S.qLine c n) (S.plane c n) (S.plane c (n + 1)) (S.gap c n) (S.x c n) (j + 1 - 1) := by
      change nextRow _ _ _ _ _ _ _ _ = _
      rw [nextRow, if_pos (by omega)]
      rfl
    have e2 : S.plane c (n + 2) (j + 1 + 1) = evenRow S.b S.W (S.qLine c n) (S.plane c n) (S.plane c (n + 1)) (S.gap c n) (S.x c n) (j + 1 + 1) := by
      change nextRow _ _ _ _ _ _ _ _ = _
      rw [nextRow, if_pos (by omega)]
      rfl
    unfold Strip.look
    rw [if_neg (by simp only; omega)]
    unfold lookOdd
    simp only [e1, e2]
  rw [nextRow, if_neg (by omega)]
  change near S.b ((lookOdd (S.plane c (n + 1)) (evenRow S.b S.W (S.qLine c n) (S.plane c n) (S.plane c (n + 1)) (S.gap c n) (S.x c n)) (j + 1)).error (S.qLine c n))
    (lookOdd (S.plane c (n + 1)) (evenRow S.b S.W (S.qLine c n) (S.plane c n) (S.plane c (n + 1)) (S.gap c n) (S.x c n)) (j + 1)).pred (S.x c n (j + 1 - 1)) = _
  rw [hl]
  rfl

/-! ## Line numbers -/

/-- First line of a colour in the buffers. -/
def base (c : Nat) : Nat := if c = 0 then 0 else if c = 1 then 5 else 13

/-- Colour of a line of the buffers, and its number among those of its colour. -/
def colOf (l : Nat) : Nat := if l < 5 then 0 else if l < 13 then 1 else 2

/-- What the buffers hold at the end of block `t`. -/
def V (t l i : Nat) : Nat := S.plane (colOf l) (lineCount (colOf l) * t + (l - base (colOf l))) i

theorem base_count (c : Nat) (hc : c < 3) : base c + 2 + lineCount c ≤ 18 := by
  unfold base lineCount
  split_ifs <;> omega

theorem colOf_base (c k : Nat) (hc : c < 3) (hk : k < 2 + lineCount c) : colOf (base c + k) = c := by
  unfold base lineCount colOf at *
  split_ifs at * <;> omega

theorem V_eq (t c k i : Nat) (hc : c < 3) (hk : k < 2 + lineCount c) : V S t (base c + k) i = S.plane c (lineCount c * t + k) i := by
  rw [V, colOf_base c k hc hk, Nat.add_sub_cancel_left]

/-! ## One sample -/

/-- Gradients and statistics. -/
def StRep (T : Nat) (s : Stats) (st : St) : Prop := GRep T (fun g t k => s g 0 t k) st.ge ∧ GRep T (fun g t k => s g 1 t k) st.go

def AllOk (s : Stats) : Prop := ∀ g o t k, StatOk (s g o t k)

/-- What is assumed of the strip in block `t`. -/
structure Setup (lossless : Bool) (t : Nat) (pr : Params) : Prop where
  b : S.b = 12 ∨ S.b = 14 ∨ S.b = 16
  pr : PrOk S.b lossless (S.q t) S.W pr
  q : S.q t < 256
  ll : lossless = true → S.q t = 0
  x : ∀ c o j, c < 3 → o < lineCount c → S.x c (lineCount c * t + o) j < 2 ^ S.b

theorem qLine_eq (t c o : Nat) (ho : o < lineCount c) : S.qLine c (lineCount c * t + o) = S.q t := by
  unfold Strip.qLine
  rw [Nat.mul_add_div (by omega), Nat.div_eq_of_lt ho, Nat.add_zero]

variable {S}

theorem sym_lt {lossless : Bool} {t : Nat} {pr : Params} (h : Setup S lossless t pr) (e : Sample) (hq : S.qLine e.c e.n = S.q t) :
    S.sym e < 65536 := by
  have hel := errorOf_le (S.q t) (S.look e).act
  obtain ⟨s1, s2, -⟩ := steps_pos S.b ((S.look e).error (S.q t)) h.b (Nat.lt_of_le_of_lt hel h.q)
  unfold Strip.sym
  simp only
  rw [hq]
  have := (val_symbol _ s1 ((if (S.look e).ctx (S.q t) < 0 then -1 else 1) * delta ((S.look e).error (S.q t)) (S.look e).pred (S.x e.c e.n e.j))).2
  have := pow_bits h.b
  omega

theorem AllOk.after {s : Stats} (ha : AllOk s) {lossless : Bool} {t : Nat} {pr : Params} (h : Setup S lossless t pr) (e : Sample)
    (hq : S.qLine e.c e.n = S.q t) : AllOk (S.after s e) := by
  intro g o t k
  unfold Strip.after
  split
  · exact ha _ _ _ _
  · simp only
    split
    · exact (ha _ _ _ _).add (by have := sym_lt h e hq; omega)
    · exact ha _ _ _ _

theorem look_bounds (e : Sample) : (S.look e).v1.natAbs ≤ 2 ^ S.b - 1 ∧ (S.look e).v2.natAbs ≤ 2 ^ S.b - 1 ∧ 0 ≤ (S.look e).pred ∧
    (S.look e).pred ≤ 2 ^ S.b - 1 := by
  unfold Strip.look
  split
  · exact lookEven_bounds _ _ _ (plane_le S _ _) (plane_le S _ _) _
  · exact lookOdd_bounds _ _ _ (plane_le S _ _) (plane_le S _ _) _

/-- A stored sample is read. -/
theorem stored_ok {lossless : Bool} {t : Nat} {pr : Params} (h : Setup S lossless t pr) {c o j grp : Nat} (hc : c < 3) (ho : o < lineCount c)
    (hg : grp < 3) (s : Stats) (ha : AllOk s) (gs : List (List (List Grad)))
    (hgs : GRep (if lossless then 1 else 4) (fun g t k => s g (j % 2) t k) gs)
    (hsk : S.skips ⟨c, lineCount c * t + o, j, grp⟩ = false) (p : PumpMSB) (r : List Bool) (hr : 30 ≤ r.length)
    (hrep : p.Rep (S.bits s ⟨c, lineCount c * t + o, j, grp⟩ ++ r)) :
    ∃ gs' p', sample pr gs grp p (S.look ⟨c, lineCount c * t + o, j, grp⟩).act (S.look ⟨c, lineCount c * t + o, j, grp⟩).v1
        (S.look ⟨c, lineCount c * t + o, j, grp⟩).v2 (S.look ⟨c, lineCount c * t + o, j, grp⟩).pred =
        .ok (near S.b ((S.look ⟨c, lineCount c * t + o, j, grp⟩).error (S.q t)) (S.look ⟨c, lineCount c * t + o, j, grp⟩).pred
          (S.x c (lineCount c * t + o) j), gs', p') ∧ p'.Rep r ∧
      GRep (if lossless then 1 else 4) (fun g t' k => S.after s ⟨c, lineCount c * t + o, j, grp⟩ g (j % 2) t' k) gs' := by
  have hq := qLine_eq S t c o ho
  obtain ⟨b1, b2, b3, b4⟩ := look_bounds (S := S) ⟨c, lineCount c * t + o, j, grp⟩
  unfold Strip.bits at hrep
  rw [hsk, if_neg (by simp)] at hrep
  unfold Strip.stat at hrep
  simp only [hq] at hrep
  obtain ⟨gs', p', e1, e2, e3⟩ := sample_ok h.b h.pr h.q h.ll (S.look ⟨c, lineCount c * t + o, j, grp⟩) b1 b2 b3 b4 (fun g t k => s g (j % 2) t k) gs hgs grp hg
    (ha _ _ _ _) (S.x c (lineCount c * t + o) j) (h.x c o j hc ho) p r hr (S.sym ⟨c, lineCount c * t + o, j, grp⟩)
    (by unfold Strip.sym; simp only [hq]) hrep
  refine ⟨gs', p', e1, e2, ?_⟩
  unfold Strip.after
  rw [hsk, if_neg (show ¬ (false = true) by simp)]
  unfold Strip.stat
  simp only [hq]
  simp only [true_and]
  exact e3

/-- The other parity does not change. -/
theorem after_other (s : Stats) (e : Sample) (o : Nat) (ho : o ≠ e.j % 2) (g t k : Nat) : S.after s e g o t k = s g o t k := by
  unfold Strip.after
  split
  · rfl
  · simp only
    rw [if_neg (by tauto)]

theorem evenStep_ok {lossless : Bool} {t : Nat} {pr : Params} (h : Setup S lossless t pr) {c o j grp : Nat} (hc : c < 3) (ho : o < lineCount c)
    (hg : grp < 3) (hj : j % 2 = 0) (hw : j < S.W) (s : Stats) (ha : AllOk s) (st : St) (hst : StRep (if lossless then 1 else 4) s st)
    (K : Nat → Nat → Prop) (hK : Known S.W (V S t) K st.lb)
    (k1 : K (base c + (o + 1)) j) (k2 : K (base c + (o + 1)) (j + 1)) (k3 : K (base c + (o + 1)) (j + 2)) (k4 : K (base c + o) (j + 1))
    (r : List Bool) (hr : 30 ≤ r.length) (hrep : st.p.Rep (S.bits s ⟨c, lineCount c * t + o, j, grp⟩ ++ r)) :
    ∃ st', evenStep pr (base c + (o + 2)) j grp (S.gap c (lineCount c * t + o) j) st = .ok st' ∧
      Known S.W (V S t) (fun a i => K a i ∨ (a = base c + (o + 2) ∧ i = j + 1)) st'.lb ∧
      StRep (if lossless then 1 else 4) (S.after s ⟨c, lineCount c * t + o, j, grp⟩) st' ∧ st'.p.Rep r := by
  have hbc := base_count c hc
  have a1 := hK.at (by omega) (show j + 1 < S.W + 2 by omega) k2
  have a2 := hK.at (by omega) (show j < S.W + 2 by omega) k1
  have a3 := hK.at (by omega) (show j + 2 < S.W + 2 by omega) k3
  have a4 := hK.at (by omega) (show j + 1 < S.W + 2 by omega) k4
  rw [V_eq S t c _ _ hc (by omega)] at a1 a2 a3 a4
  have hl : S.look ⟨c, lineCount c * t + o, j, grp⟩ = lookEven (S.plane c (lineCount c * t + o)) (S.plane c (lineCount c * t + o + 1)) (j + 1) := by
    unfold Strip.look
    rw [if_pos hj]
  have u1 : usub (base c + (o + 2)) 1 = .ok (base c + (o + 1)) := by rw [usub, if_pos (by omega)]; congr 1
  have u2 : usub (base c + (o + 2)) 2 = .ok (base c + o) := by rw [usub, if_pos (by omega)]; congr 1
  obtain ⟨b1, b2, b3, b4⟩ := look_bounds (S := S) ⟨c, lineCount c * t + o, j, grp⟩
  have hpe := plane_even S c (lineCount c * t + o) j hj hw grp
  rw [qLine_eq S t c o ho] at hpe
  have hV := V_eq S t c (o + 2) (j + 1) hc (by omega)
  rw [← Nat.add_assoc (lineCount c * t), hpe] at hV
  have hpred : evenSum (S.plane c (lineCount c * t + (o + 1)) (j + 1)) (S.plane c (lineCount c * t + (o + 1)) j)
      (S.plane c (lineCount c * t + (o + 1)) (j + 2)) (S.plane c (lineCount c * t + o) (j + 1)) / 4 = (S.look ⟨c, lineCount c * t + o, j, grp⟩).pred := by
    rw [hl, evenSum_eq]
    rfl
  unfold evenStep
  by_cases hgap : S.gap c (lineCount c * t + o) j = true
  · rw [hgap, if_pos rfl]
    rw [hgap, if_pos rfl] at hV
    have hsk : S.skips ⟨c, lineCount c * t + o, j, grp⟩ = true := by
      unfold Strip.skips; simp [hj, hgap]
    unfold Strip.bits at hrep
    rw [hsk, if_pos rfl, List.nil_append] at hrep
    have hu : asU16 (S.look ⟨c, lineCount c * t + o, j, grp⟩).pred = V S t (base c + (o + 2)) (j + 1) := by
      rw [hV, asU16]
      have := pow_bits h.b
      have hcast : ((2 : Int) ^ S.b) ≤ 65536 := by exact_mod_cast this.2
      omega
    obtain ⟨lb', e1, e2⟩ := hK.put (fun a i => K a i ∨ (a = base c + (o + 2) ∧ i = j + 1)) (V S t (base c + (o + 2)) (j + 1)) (l := base c + (o + 2)) (i := 1 + j) (by omega) (by omega)
      (by intro a i _ _ hk
          by_cases hh : a = base c + (o + 2) ∧ i = 1 + j
          · exact .inl ⟨hh.1, hh.2, by rw [Nat.add_comm j]⟩
          · exact .inr ⟨hk.resolve_right (by intro hx; exact hh ⟨hx.1, by omega⟩), hh⟩)
    refine ⟨{ st with lb := lb' }, ?_, e2, ?_, hrep⟩
    · unfold interpolateEven
      rw [u1, ok_bind, u2, ok_bind, Nat.add_comm 1 j, a1, ok_bind, Nat.add_sub_cancel, a2, ok_bind, a3, ok_bind, a4, ok_bind, hpred, hu]
      rw [Nat.add_comm 1 j] at e1
      rw [e1]
      rfl
    · unfold Strip.after
      rw [hsk, if_pos rfl]
      exact hst
  · rw [if_neg hgap]
    rw [if_neg hgap] at hV
    have hsk : S.skips ⟨c, lineCount c * t + o, j, grp⟩ = false := by
      unfold Strip.skips; simp [hgap]
    obtain ⟨gs', p', e1, e2, e3⟩ := stored_ok h hc ho hg s ha st.ge (by rw [hj]; exact hst.1) hsk st.p r hr hrep
    obtain ⟨lb', f1, f2⟩ := hK.put (fun a i => K a i ∨ (a = base c + (o + 2) ∧ i = j + 1)) (V S t (base c + (o + 2)) (j + 1)) (l := base c + (o + 2)) (i := 1 + j) (by omega) (by omega)
      (by intro a i _ _ hk
          by_cases hh : a = base c + (o + 2) ∧ i = 1 + j
          · exact .inl ⟨hh.1, hh.2, by rw [Nat.add_comm j]⟩
          · exact .inr ⟨hk.resolve_right (by intro hx; exact hh ⟨hx.1, by omega⟩), hh⟩)
    refine ⟨{ st with lb := lb', ge := gs', p := p' }, ?_, f2, ⟨?_, ?_⟩, e2⟩
    · unfold decodeEven
      rw [u1, ok_bind, u2, ok_bind, Nat.add_comm 1 j, a1, ok_bind, Nat.add_sub_cancel, a2, ok_bind, a3, ok_bind, a4, ok_bind, hpred]
      have hact : (((S.plane c (lineCount c * t + o) (j + 1) : Int) - S.plane c (lineCount c * t + (o + 1)) (j + 1)).natAbs : Int) +
          ((S.plane c (lineCount c * t + (o + 1)) j : Int) - S.plane c (lineCount c * t + (o + 1)) (j + 1)).natAbs = ((S.look ⟨c, lineCount c * t + o, j, grp⟩).act : Int) := by
        rw [hl]
        unfold Look.act lookEven
        simp only [Nat.add_sub_cancel]
        rw [← Nat.add_assoc]
        omega
      have hv1 : (S.plane c (lineCount c * t + (o + 1)) (j + 1) : Int) - S.plane c (lineCount c * t + o) (j + 1) = (S.look ⟨c, lineCount c * t + o, j, grp⟩).v1 := by
        rw [hl]; rfl
      have hv2 : (S.plane c (lineCount c * t + (o + 1)) j : Int) - S.plane c (lineCount c * t + (o + 1)) (j + 1) = (S.look ⟨c, lineCount c * t + o, j, grp⟩).v2 := by
        rw [hl]; rfl
      rw [hact, hv1, hv2, e1, ok_bind]
      simp only
      rw [← hV]
      rw [Nat.add_comm 1 j] at f1
      rw [f1]
      rfl
    · rw [hj] at e3; exact e3
    · have : (fun g t' k => S.after s ⟨c, lineCount c * t + o, j, grp⟩ g 1 t' k) = fun g t' k => s g 1 t' k := by
        funext g t' k
        exact after_other s _ 1 (by simp only; omega) g t' k
      rw [this]
      exact hst.2

theorem oddStep_ok {lossless : Bool} {t : Nat} {pr : Params} (h : Setup S lossless t pr) {c o j grp : Nat} (hc : c < 3) (ho : o < lineCount c)
    (hg : grp < 3) (hj : j % 2 = 1) (hw : j < S.W) (s : Stats) (ha : AllOk s) (st : St) (hst : StRep (if lossless then 1 else 4) s st)
    (K : Nat → Nat → Prop) (hK : Known S.W (V S t) K st.lb)
    (k1 : K (base c + (o + 1)) j) (k2 : K (base c + (o + 1)) (j + 1)) (k3 : K (base c + (o + 1)) (j + 2)) (k4 : K (base c + (o + 2)) j)
    (k5 : K (base c + (o + 2)) (j + 2))
    (r : List Bool) (hr : 30 ≤ r.length) (hrep : st.p.Rep (S.bits s ⟨c, lineCount c * t + o, j, grp⟩ ++ r)) :
    ∃ st', decodeOdd pr (base c + (o + 2)) j grp st = .ok st' ∧
      Known S.W (V S t) (fun a i => K a i ∨ (a = base c + (o + 2) ∧ i = j + 1)) st'.lb ∧
      StRep (if lossless then 1 else 4) (S.after s ⟨c, lineCount c * t + o, j, grp⟩) st' ∧ st'.p.Rep r := by
  have hbc := base_count c hc
  have a1 := hK.at (by omega) (show j + 1 < S.W + 2 by omega) k2
  have a2 := hK.at (by omega) (show j < S.W + 2 by omega) k1
  have a3 := hK.at (by omega) (show j + 2 < S.W + 2 by omega) k3
  have a4 := hK.at (by omega) (show j < S.W + 2 by omega) k4
  have a5 := hK.at (by omega) (show j + 2 < S.W + 2 by omega) k5
  rw [V_eq S t c _ _ hc (by omega)] at a1 a2 a3 a4 a5
  have hl : S.look ⟨c, lineCount c * t + o, j, grp⟩ = lookOdd (S.plane c (lineCount c * t + o + 1)) (S.plane c (lineCount c * t + o + 2)) (j + 1) := by
    unfold Strip.look
    rw [if_neg (by simp only; omega)]
  have u1 : usub (base c + (o + 2)) 1 = .ok (base c + (o + 1)) := by rw [usub, if_pos (by omega)]; congr 1
  have hpe := plane_odd S c (lineCount c * t + o) j hj grp
  rw [qLine_eq S t c o ho] at hpe
  have hV := V_eq S t c (o + 2) (j + 1) hc (by omega)
  rw [← Nat.add_assoc (lineCount c * t), hpe] at hV
  have hsk : S.skips ⟨c, lineCount c * t + o, j, grp⟩ = false := by
    unfold Strip.skips; simp [hj]
  obtain ⟨gs', p', e1, e2, e3⟩ := stored_ok h hc ho hg s ha st.go (by rw [hj]; exact hst.2) hsk st.p r hr hrep
  obtain ⟨lb', f1, f2⟩ := hK.put (fun a i => K a i ∨ (a = base c + (o + 2) ∧ i = j + 1)) (V S t (base c + (o + 2)) (j + 1)) (l := base c + (o + 2)) (i := 1 + j) (by omega) (by omega)
    (by intro a i _ _ hk
        by_cases hh : a = base c + (o + 2) ∧ i = 1 + j
        · exact .inl ⟨hh.1, hh.2, by rw [Nat.add_comm j]⟩
        · exact .inr ⟨hk.resolve_right (by intro hx; exact hh ⟨hx.1, by omega⟩), hh⟩)
  refine ⟨{ st with lb := lb', go := gs', p := p' }, ?_, f2, ⟨?_, ?_⟩, e2⟩
  · unfold decodeOdd
    rw [u1, ok_bind, Nat.add_comm 1 j, Nat.add_sub_cancel, a4, ok_bind, a1, ok_bind, a2, ok_bind, a3, ok_bind, a5, ok_bind]
    have hact : (((S.plane c (lineCount c * t + (o + 1)) (j + 1) : Int) - S.plane c (lineCount c * t + (o + 1)) j).natAbs : Int) +
        ((S.plane c (lineCount c * t + (o + 1)) j : Int) - S.plane c (lineCount c * t + (o + 2)) j).natAbs = ((S.look ⟨c, lineCount c * t + o, j, grp⟩).act : Int) := by
      rw [hl]
      unfold Look.act lookOdd
      simp only [Nat.add_sub_cancel]
      rw [← Nat.add_assoc, ← Nat.add_assoc]
      omega
    have hv1 : (S.plane c (lineCount c * t + (o + 1)) (j + 1) : Int) - S.plane c (lineCount c * t + (o + 1)) j = (S.look ⟨c, lineCount c * t + o, j, grp⟩).v1 := by
      rw [hl]; rfl
    have hv2 : (S.plane c (lineCount c * t + (o + 1)) j : Int) - S.plane c (lineCount c * t + (o + 2)) j = (S.look ⟨c, lineCount c * t + o, j, grp⟩).v2 := by
      rw [hl]; rfl
    have hpred : (if ((S.plane c (lineCount c * t + (o + 1)) (j + 1) : Int) > S.plane c (lineCount c * t + (o + 1)) j ∧
          (S.plane c (lineCount c * t + (o + 1)) (j + 1) : Int) > S.plane c (lineCount c * t + (o + 1)) (j + 2)) ∨
          ((S.plane c (lineCount c * t + (o + 1)) (j + 1) : Int) < S.plane c (lineCount c * t + (o + 1)) j ∧
          (S.plane c (lineCount c * t + (o + 1)) (j + 1) : Int) < S.plane c (lineCount c * t + (o + 1)) (j + 2)) then
          ((S.plane c (lineCount c * t + (o + 2)) (j + 2) : Int) + S.plane c (lineCount c * t + (o + 2)) j + 2 * S.plane c (lineCount c * t + (o + 1)) (j + 1)) / 4
          else ((S.plane c (lineCount c * t + (o + 2)) j : Int) + S.plane c (lineCount c * t + (o + 2)) (j + 2)) / 2) = (S.look ⟨c, lineCount c * t + o, j, grp⟩).pred := by
      rw [hl]
      unfold lookOdd
      simp only [Nat.add_sub_cancel]
      simp only [Nat.add_assoc, Nat.reduceAdd]
      split_ifs <;> omega
    simp only
    rw [hact, hv1, hv2, hpred, e1, ok_bind]
    simp only
    rw [← hV]
    rw [Nat.add_comm 1 j] at f1
    rw [f1]
    rfl
  · have : (fun g t' k => S.after s ⟨c, lineCount c * t + o, j, grp⟩ g 0 t' k) = fun g t' k => s g 0 t' k := by
      funext g t' k
      exact after_other s _ 0 (by simp only; omega) g t' k
    rw [this]
    exact hst.1
  · rw [hj] at e3; exact e3

end
end Verif.Fuji
