import Verif.Model.Cr2
import Verif.Spec.Cr2
import Verif.Proofs.Holds
import Verif.Proofs.Nef
import Mathlib.Tactic.Ring
/-! # CR2: slices, missing colours, RGB -/

namespace Verif.Cr2
open Verif Verif.Spec Verif.Spec.Cr2

theorem slice_of {l b : List Nat} {s n : Nat} (h : (l.drop s).take n = b) (hn : b.length = n) (h0 : 0 < n) : slice l s (s + n) = .ok b := by
  have : s + n ≤ l.length := by
    have h1 := congrArg List.length h
    rw [List.length_take, List.length_drop, hn] at h1
    omega
  rw [slice_ok _ _ _ (by omega) this, Nat.add_sub_cancel_left, h]

theorem copyIn_ok {out : List Nat} {W h : Nat} {g : Nat → Nat → Nat} (hd : Holds out W h g) {r x n : Nat} (hr : r < h) (hx : x + n ≤ W)
    (h0 : 0 < n) {src : List Nat} {s : Nat} {b : Nat → Nat} (hs : (src.drop s).take n = (List.range n).map b) {d : Nat}
    (hdst : d = r * W + x) :
    ∃ out', copyIn out d src s n = .ok out' ∧
      Holds out' W h fun r' c => if r' = r ∧ x ≤ c ∧ c < x + n then b (c - x) else g r' c := by
  have hrow : r * W + W ≤ h * W := by
    have : (r + 1) * W ≤ h * W := Nat.mul_le_mul_right _ hr
    rwa [Nat.add_mul, Nat.one_mul] at this
  have hl : d + n ≤ out.length := by rw [hd.1, hdst]; omega
  refine ⟨_, by rw [copyIn, slice_of hs (by simp) h0]; simp only [bind, Except.bind]; rw [if_pos hl], ?_, ?_⟩
  · rw [List.length_append, List.length_append, List.length_take, List.length_drop, List.length_map, List.length_range, ← hd.1]
    omega
  · intro r' c hr' hc
    show _ = some (if r' = r ∧ x ≤ c ∧ c < x + n then b (c - x) else g r' c)
    have hlt : r' * W + c < out.length := by rw [hd.1]; exact mul_add_lt hr' hc
    have hml : ((List.range n).map b).length = n := by simp
    by_cases h1 : r' * W + c < d
    · rw [List.getElem?_append_left (by rw [List.length_take]; omega), List.getElem?_take_of_lt h1, hd.2 r' c hr' hc,
        if_neg (by rintro ⟨rfl, h2, _⟩; omega)]
    · rw [List.getElem?_append_right (by rw [List.length_take]; omega), List.length_take, Nat.min_eq_left (by omega)]
      by_cases h2 : r' * W + c < d + n
      · have he : r' = r := by
          have := coord_inj (r := r') (c := c) (r' := r) (c' := x + (r' * W + c - d)) hc (by omega) (by omega)
          exact this.1
        subst he
        rw [List.getElem?_append_left (by rw [hml]; omega), List.getElem?_map, List.getElem?_range (by omega),
          if_pos ⟨rfl, by omega, by omega⟩, show r' * W + c - d = c - x by omega]
        rfl
      · rw [List.getElem?_append_right (by rw [hml]; omega), hml, List.getElem?_drop,
          show d + n + (r' * W + c - d - n) = r' * W + c by omega, hd.2 r' c hr' hc,
          if_neg (by rintro ⟨rfl, h3, h4⟩; omega)]

/-! ## Slices -/

theorem order_length (h : Nat) (ws : List Nat) (x : Nat) : (order h ws x).length = ws.sum * h := by
  induction ws generalizing x with
  | nil => simp [order]
  | cons w ws ih =>
    rw [order, List.length_append, ih, (holds_flatMap w h fun r c => (r, x + c)).1, List.sum_cons, Nat.add_mul, Nat.mul_comm h w]

theorem drop_take_append {α : Type} (P rest : List α) (a n : Nat) (h : a + n ≤ P.length) :
    ((P ++ rest).drop a).take n = (P.drop a).take n := by
  rw [List.drop_append_of_le_length (by omega), List.take_append_of_le_length (by rw [List.length_drop]; omega)]

theorem field_ok {W H : Nat} (f : Nat → Nat → Nat) {out src rest : List Nat} {x p fw : Nat} (hfw : 0 < fw) (hx : x + fw ≤ W)
    (hd : Holds out W H fun r c => if c < x then f r c else 0)
    (hs : src.drop p = ((List.range H).flatMap fun r => (List.range fw).map fun c => f r (x + c)) ++ rest) :
    ∃ out', field W H fw src x p out = .ok out' ∧ Holds out' W H fun r c => if c < x + fw then f r c else 0 := by
  have hP := holds_flatMap fw H fun r c => f r (x + c)
  obtain ⟨out', e, i⟩ := forN_inv H (fun row out => copyIn out (row * W + x) src (p + row * fw) fw)
    (fun row out => Holds out W H fun r c => if c < x ∨ (r < row ∧ c < x + fw) then f r c else 0) out
    (hd.same fun r c _ _ => by
      by_cases h : c < x
      · rw [if_pos h, if_pos (Or.inl h)]
      · rw [if_neg h, if_neg (by rintro (h1 | ⟨h1, _⟩) <;> omega)])
    (by
      intro row out hrow hi
      have hin : (src.drop (p + row * fw)).take fw = (List.range fw).map fun c => f row (x + c) := by
        rw [← List.drop_drop, hs, drop_take_append _ _ _ _ (by
          rw [hP.1]
          have : (row + 1) * fw ≤ H * fw := Nat.mul_le_mul_right _ hrow
          rwa [Nat.add_mul, Nat.one_mul] at this)]
        have := Verif.Pix.Holds.piece hP (x := 0) (n := fw) hrow (by omega)
        rw [Nat.add_zero] at this
        rw [this]
        simp only [Nat.zero_add]
      obtain ⟨o, e, h⟩ := copyIn_ok hi hrow hx hfw hin rfl
      refine ⟨o, e, h.same ?_⟩
      intro r c _ _
      by_cases h1 : r = row ∧ x ≤ c ∧ c < x + fw
      · obtain ⟨rfl, h2, h3⟩ := h1
        rw [if_pos ⟨rfl, h2, h3⟩, if_pos (Or.inr ⟨by omega, h3⟩), show x + (c - x) = c by omega]
      · rw [if_neg h1]
        by_cases h2 : c < x ∨ (r < row ∧ c < x + fw)
        · rw [if_pos h2, if_pos (by omega)]
        · rw [if_neg h2, if_neg (by omega)])
  refine ⟨out', e, i.same ?_⟩
  intro r c hr _
  by_cases h : c < x + fw
  · rw [if_pos (by omega), if_pos h]
  · rw [if_neg (by omega), if_neg h]

/-- The samples of the slices go to their places. -/
theorem fields_ok {W H sh cpp : Nat} (hsh : 0 < sh) (f : Nat → Nat → Nat) (ws : List Nat) {out src rest : List Nat} {x p : Nat}
    (hw : ∀ w ∈ ws, 0 < w / sh * cpp) (hsum : x + (ws.map fun w => w / sh * cpp).sum = W)
    (hd : Holds out W H fun r c => if c < x then f r c else 0)
    (hs : src.drop p = (order H (ws.map fun w => w / sh * cpp) x).map (fun rc => f rc.1 rc.2) ++ rest) :
    ∃ out', fields W H sh cpp src ws x p out = .ok out' ∧ Holds out' W H f := by
  induction ws generalizing out x p with
  | nil =>
    simp only [List.map_nil, List.sum_nil, Nat.add_zero] at hsum
    exact ⟨out, rfl, hd.same fun r c _ hc => if_pos (by omega)⟩
  | cons w ws ih =>
    rw [List.map_cons, List.sum_cons] at hsum
    rw [List.map_cons, order, List.map_append, List.map_flatMap, List.append_assoc] at hs
    simp only [List.map_map, Function.comp_def] at hs
    obtain ⟨o, e, h⟩ := field_ok f (hw w List.mem_cons_self) (by omega) hd hs
    obtain ⟨o', e', h'⟩ := ih (fun w h => hw w (List.mem_cons_of_mem _ h)) (x := x + w / sh * cpp) (p := p + w / sh * cpp * H) (by omega) h (by
      rw [← List.drop_drop, hs]
      have hl := (holds_flatMap (w / sh * cpp) H fun r c => f r (x + c)).1
      rw [Nat.mul_comm H] at hl
      rw [← hl, List.drop_left])
    refine ⟨o', ?_, h'⟩
    rw [fields, if_neg (by omega)]
    simp only [e, bind, Except.bind]
    exact e'

/-! ## Data decoded two lines at a time -/

/-- Where the pixel in row `r` and column `c` is in the file, for slices of `w` columns and `hh` pairs of rows. -/
def place (w hh r c : Nat) : Nat := (c / w * hh + r / 2) * w + c % w

theorem place_inj {w hh i row col r c : Nat} (hcol : col < w) (hrow : row < hh) (hr : r / 2 < hh)
    (h : place w hh r c = (i * hh + row) * w + col) : r / 2 = row ∧ c = i * w + col := by
  obtain ⟨h1, h2⟩ := coord_inj (Nat.mod_lt _ (by omega)) hcol h
  obtain ⟨h3, h4⟩ := coord_inj hr hrow h1
  refine ⟨h4, ?_⟩
  rw [← h3, ← h2, Nat.mul_comm]
  exact (Nat.div_add_mod c w).symm

theorem place_of {w hh i row col e : Nat} (hcol : col < w) (he : e < 2) :
    place w hh (2 * row + e) (i * w + col) = (i * hh + row) * w + col := by
  rw [place, Nat.mul_comm i w, Nat.mul_add_div (by omega), Nat.mul_add_mod, Nat.div_eq_of_lt hcol, Nat.mod_eq_of_lt hcol,
    show (2 * row + e) / 2 = row by omega, Nat.add_zero]

/-- Where reading is after `q` pairs. -/
def inAt (jw q : Nat) : Nat := 3 * (q % jw) + q / jw * (2 * (3 * jw))

theorem inAt_succ {jw : Nat} (hj : 0 < jw) (q : Nat) :
    (if (inAt jw q + 3) % (3 * jw) = 0 then inAt jw q + 3 + 3 * jw else inAt jw q + 3) = inAt jw (q + 1) := by
  have hm := Nat.mod_lt q hj
  have hq := Nat.div_add_mod q jw
  have e : (inAt jw q + 3) % (3 * jw) = (3 * (q % jw + 1)) % (3 * jw) := by
    rw [inAt, show 3 * (q % jw) + q / jw * (2 * (3 * jw)) + 3 = 3 * (q % jw + 1) + (3 * jw) * (q / jw * 2) by ring,
      Nat.add_mul_mod_self_left]
  rw [e, Nat.mul_mod_mul_left]
  by_cases h : q % jw + 1 = jw
  · have h1 : q + 1 = jw * (q / jw + 1) := by rw [Nat.mul_add, Nat.mul_one]; omega
    have h2 : (q + 1) / jw = q / jw + 1 := by rw [h1, Nat.mul_div_cancel_left _ hj]
    have h3 : (q + 1) % jw = 0 := by rw [h1, Nat.mul_mod_right]
    rw [h, Nat.mod_self, if_pos rfl, inAt, inAt, h2, h3, Nat.add_mul (q / jw) 1]
    omega
  · have h1 : q + 1 = jw * (q / jw) + (q % jw + 1) := by omega
    have h2 : (q + 1) / jw = q / jw := by
      rw [h1, Nat.mul_add_div hj, Nat.div_eq_of_lt (a := q % jw + 1) (by omega), Nat.add_zero]
    have h3 : (q + 1) % jw = q % jw + 1 := by rw [h1, Nat.mul_add_mod, Nat.mod_eq_of_lt (by omega)]
    rw [Nat.mod_eq_of_lt (by omega), if_neg (by omega), inAt, inAt, h2, h3]
    omega

/-- The first `q` pixel pairs are at their places. -/
structure Paired (W H w hh jw : Nat) (P : Pic) (q : Nat) (s : List Nat × Nat) : Prop where
  holds : Holds s.1 W H fun r i => if place w hh r (i / 3) < q then P r (i / 3) (i % 3) else 0
  pos : s.2 = inAt jw q

theorem pairStep_ok {w hh n jw jh : Nat} {P J : Pic} {src : List Nat} (hj : 0 < jw)
    (hsrc : Holds src (3 * jw) (2 * jh) fun r i => J r (i / 3) (i % 3))
    {i row col : Nat} (hi : i < n) (hrow : row < hh) (hcol : col < w)
    (hq : (i * hh + row) * w + col < jw * jh)
    (hJ : ∀ e k, e < 2 → k < 3 → J (2 * (((i * hh + row) * w + col) / jw) + e) (((i * hh + row) * w + col) % jw) k =
      P (2 * row + e) (i * w + col) k)
    {s : List Nat × Nat} (hs : Paired (3 * (n * w)) (2 * hh) w hh jw P ((i * hh + row) * w + col) s) :
    ∃ s', pairStep (3 * (n * w)) (3 * jw) src (2 * row) (i * (3 * w) + 3 * col) s = .ok s' ∧
      Paired (3 * (n * w)) (2 * hh) w hh jw P ((i * hh + row) * w + col + 1) s' := by
  generalize hQ : (i * hh + row) * w + col = q at *
  have hm := Nat.mod_lt q hj
  have hd : q / jw < jh := Nat.div_lt_of_lt_mul hq
  have hcw : i * w + col < n * w := mul_add_lt hi hcol
  have hx : i * (3 * w) + 3 * col + 3 ≤ 3 * (n * w) := by
    have : i * (3 * w) = 3 * (i * w) := by ring
    omega
  have piece (e : Nat) (he : e < 2) : (src.drop (s.2 + e * (3 * jw))).take 3 = (List.range 3).map fun k => P (2 * row + e) (i * w + col) k := by
    have h1 := Verif.Pix.Holds.piece hsrc (r := 2 * (q / jw) + e) (x := 3 * (q % jw)) (n := 3) (by omega) (by omega)
    have h2 : s.2 + e * (3 * jw) = (2 * (q / jw) + e) * (3 * jw) + 3 * (q % jw) := by rw [hs.pos, inAt]; ring
    rw [h2, h1]
    apply List.map_congr_left
    intro k hk
    rw [List.mem_range] at hk
    rw [show (3 * (q % jw) + k) / 3 = q % jw by omega, show (3 * (q % jw) + k) % 3 = k by omega]
    exact hJ e k he hk
  have hx' : i * (3 * w) + 3 * col = 3 * (i * w + col) := by ring
  have p0 := piece 0 (by omega)
  have p1 := piece 1 (by omega)
  rw [Nat.zero_mul, Nat.add_zero, Nat.add_zero] at p0
  rw [Nat.one_mul] at p1
  obtain ⟨o1, e1, h1⟩ := copyIn_ok hs.holds (r := 2 * row) (by omega) hx (by omega) p0 rfl
  obtain ⟨o2, e2, h2⟩ := copyIn_ok h1 (r := 2 * row + 1) (by omega) hx (by omega) p1 rfl
  refine ⟨_, by rw [pairStep, e1]; simp only [bind, Except.bind, e2]; rfl, ?_, ?_⟩
  · refine h2.same ?_
    intro r c hr hc
    rw [hx']
    have hc3 := Nat.div_add_mod c 3
    have hm3 := Nat.mod_lt c (show 0 < 3 by omega)
    by_cases hin : 3 * (i * w + col) ≤ c ∧ c < 3 * (i * w + col) + 3
    · have hdiv : c / 3 = i * w + col := by omega
      have hmod : c - 3 * (i * w + col) = c % 3 := by omega
      rw [hdiv, hmod]
      by_cases hr1 : r = 2 * row + 1
      · subst hr1
        rw [if_pos ⟨rfl, hin⟩, if_pos (by rw [place_of hcol (by omega)]; omega)]
      · rw [if_neg (fun h => hr1 h.1)]
        by_cases hr0 : r = 2 * row
        · subst hr0
          rw [if_pos ⟨rfl, hin⟩, if_pos (by
            have := place_of (hh := hh) (i := i) (row := row) (e := 0) hcol (by omega)
            rw [Nat.add_zero] at this
            rw [this]; omega)]
        · rw [if_neg (fun h => hr0 h.1)]
          have hne : place w hh r (i * w + col) ≠ q := by
            intro h
            obtain ⟨h3, _⟩ := place_inj hcol hrow (by omega) (h.trans hQ.symm)
            omega
          by_cases h : place w hh r (i * w + col) < q
          · rw [if_pos h, if_pos (by omega)]
          · rw [if_neg h, if_neg (by omega)]
    · rw [if_neg (fun h => hin h.2), if_neg (fun h => hin h.2)]
      have hne : place w hh r (c / 3) ≠ q := by
        intro h
        obtain ⟨_, h4⟩ := place_inj hcol hrow (by omega) (h.trans hQ.symm)
        omega
      by_cases h : place w hh r (c / 3) < q
      · rw [if_pos h, if_pos (by omega)]
      · rw [if_neg h, if_neg (by omega)]
  · show (if (s.2 + 3) % (3 * jw) = 0 then s.2 + 3 + 3 * jw else s.2 + 3) = _
    rw [hs.pos, inAt_succ hj]

theorem order_get {h w : Nat} (n : Nat) {i r c x : Nat} (hi : i < n) (hr : r < h) (hc : c < w) :
    (order h (List.replicate n w) x)[(i * h + r) * w + c]? = some (r, x + (i * w + c)) := by
  induction n generalizing i x with
  | zero => omega
  | succ n ih =>
    rw [List.replicate_succ, order]
    have hP := holds_flatMap w h fun r c => (r, x + c)
    cases i with
    | zero =>
      rw [Nat.zero_mul, Nat.zero_add, List.getElem?_append_left (by rw [hP.1]; exact mul_add_lt hr hc), hP.2 r c hr hc]
      simp
    | succ i =>
      have e : ((i + 1) * h + r) * w + c = h * w + ((i * h + r) * w + c) := by ring
      rw [e, List.getElem?_append_right (by rw [hP.1]; omega), hP.1, Nat.add_sub_cancel_left, ih (by omega)]
      congr 2; ring

/-- All pairs go to their places. -/
theorem fieldPairs_ok {w hh n jw jh : Nat} {P J : Pic} {src : List Nat} (hw : 0 < w) (hj : 0 < jw)
    (hsrc : Holds src (3 * jw) (2 * jh) fun r i => J r (i / 3) (i % 3)) (hroom : n * hh * w ≤ jw * jh)
    (hJ : ∀ q r c, (order hh (List.replicate n w) 0)[q]? = some (r, c) → ∀ e k, e < 2 → k < 3 →
      J (2 * (q / jw) + e) (q % jw) k = P (2 * r + e) c k) (W H : Nat) (hW : W = 3 * (n * w)) (hH : H = 2 * hh) :
    ∃ out, fieldPairs W H (3 * jw) n (3 * w) src (List.replicate (W * H) 0) = .ok out ∧ Holds out W H fun r i => P r (i / 3) (i % 3) := by
  subst hW hH
  have lt {i row col : Nat} (hi : i < n) (hrow : row < hh) (hcol : col < w) : (i * hh + row) * w + col < n * hh * w :=
    mul_add_lt (mul_add_lt hi hrow) hcol
  obtain ⟨s, e, h⟩ := forN_inv n (fun i s =>
    forN ((2 * hh + 1) / 2) (fun row s =>
      forN ((3 * w + 2) / 3) (fun col s => pairStep (3 * (n * w)) (3 * jw) src (2 * row) (i * (3 * w) + 3 * col) s) s) s)
    (fun i s => Paired (3 * (n * w)) (2 * hh) w hh jw P (i * hh * w) s) (List.replicate (3 * (n * w) * (2 * hh)) 0, 0)
    ⟨(holds_replicate _ _ 0).same fun r c _ _ => by rw [if_neg (by omega)], by simp [inAt]⟩ (by
      intro i s hi hs
      obtain ⟨s', e, h⟩ := forN_inv ((2 * hh + 1) / 2) (fun row s =>
        forN ((3 * w + 2) / 3) (fun col s => pairStep (3 * (n * w)) (3 * jw) src (2 * row) (i * (3 * w) + 3 * col) s) s)
        (fun row s => Paired (3 * (n * w)) (2 * hh) w hh jw P ((i * hh + row) * w) s) s hs (by
          intro row s hrow hs
          have hrow : row < hh := by omega
          obtain ⟨s', e, h⟩ := forN_inv ((3 * w + 2) / 3) (fun col s => pairStep (3 * (n * w)) (3 * jw) src (2 * row) (i * (3 * w) + 3 * col) s)
            (fun col s => Paired (3 * (n * w)) (2 * hh) w hh jw P ((i * hh + row) * w + col) s) s hs (by
              intro col s hcol hs
              have hcol : col < w := by omega
              refine pairStep_ok hj hsrc hi hrow hcol (Nat.lt_of_lt_of_le (lt hi hrow hcol) hroom) ?_ hs
              intro e k he hk
              have := order_get (h := hh) (w := w) n (x := 0) hi hrow hcol
              rw [Nat.zero_add] at this
              exact hJ _ _ _ this e k he hk)
          rw [show (3 * w + 2) / 3 = w by omega] at e h ⊢
          exact ⟨s', e, by rw [show (i * hh + (row + 1)) * w = (i * hh + row) * w + w by ring]; exact h⟩)
      rw [show (2 * hh + 1) / 2 = hh by omega] at e h ⊢
      exact ⟨s', e, by rw [show (i + 1) * hh * w = (i * hh + hh) * w by ring]; exact h⟩)
  refine ⟨s.1, by rw [fieldPairs, e]; rfl, h.holds.same ?_⟩
  intro r c hr hc
  have h1 : c / 3 < n * w := by omega
  have h2 : c / 3 / w < n := Nat.div_lt_of_lt_mul (by rw [Nat.mul_comm]; exact h1)
  have h3 : place w hh r (c / 3) < n * hh * w := lt h2 (by omega) (Nat.mod_lt _ hw)
  rw [if_pos h3]

/-! ## Missing colours -/

theorem blend_ok {s : List Nat} {W n : Nat} {g : Nat → Nat → Nat} (hd : Holds s W n g) {r1 r2 r3 a b c p1 p2 p3 : Nat} (h1 : r1 < n)
    (h2 : r2 < n) (h3 : r3 < n) (ha : a + 2 < W) (hb : b + 2 < W) (hc : c + 2 < W) (e1 : p1 = r1 * W + a) (e2 : p2 = r2 * W + b)
    (e3 : p3 = r3 * W + c) (n1 : ¬(r1 = r2 ∧ a + 2 = b + 1)) (n3 : ¬(r3 = r2 ∧ c + 2 = b + 1)) :
    ∃ s', blend s p1 p2 p3 = .ok s' ∧ Holds s' W n fun r i =>
      if r = r2 ∧ i = b + 2 then avg (g r1 (a + 2)) (g r3 (c + 2))
      else if r = r2 ∧ i = b + 1 then avg (g r1 (a + 1)) (g r3 (c + 1)) else g r i := by
  obtain ⟨s1, e4, h4⟩ := hd.write h2 (c := b + 1) (by omega) (avg (g r1 (a + 1)) (g r3 (c + 1))) (i := p2 + 1) (by omega)
  have q1 := h4.read h1 ha (i := p1 + 2) (by omega)
  have q3 := h4.read h3 hc (i := p3 + 2) (by omega)
  rw [if_neg n1] at q1
  rw [if_neg n3] at q3
  obtain ⟨s2, e5, h5⟩ := h4.write h2 hb (avg (g r1 (a + 2)) (g r3 (c + 2))) (i := p2 + 2) (by omega)
  refine ⟨s2, ?_, h5⟩
  rw [blend, hd.read h1 (c := a + 1) (by omega) (by omega), hd.read h3 (c := c + 1) (by omega) (by omega)]
  simp only [bind, Except.bind, e4, q1, q3, e5]

/-- `across` for samples in a row. -/
def acrossS (w : Nat) (g : Nat → Nat → Nat) (r i : Nat) : Nat :=
  if i % 3 ≠ 0 ∧ i / 3 % 2 = 1 ∧ i / 3 + 1 < w then avg (g r (i - 3)) (g r (i + 3)) else g r i

theorem acrossS_even {w : Nat} {g : Nat → Nat → Nat} {r i : Nat} (h : i / 3 % 2 = 0) : acrossS w g r i = g r i := by
  rw [acrossS, if_neg (by omega)]

theorem interpRow_ok {s : List Nat} {w n row : Nat} {g : Nat → Nat → Nat} (hw : 0 < w) (hrow : row < n)
    (hd : Holds s (w * 3) n fun r i => if r < row then acrossS w g r i else g r i) :
    ∃ s', interpRow (w * 3) row s = .ok s' ∧ Holds s' (w * 3) n fun r i => if r < row + 1 then acrossS w g r i else g r i := by
  obtain ⟨s', e, h⟩ := forN_inv ((w * 3 - 1) / 6)
    (fun j s => blend s (row * (w * 3) + 6 * j) (row * (w * 3) + 6 * j + 3) (row * (w * 3) + 6 * (j + 1)))
    (fun j s => Holds s (w * 3) n fun r i => if r < row ∨ (r = row ∧ i < 6 * j) then acrossS w g r i else g r i) s
    (hd.same fun r i _ _ => by
      by_cases h : r < row
      · rw [if_pos h, if_pos (Or.inl h)]
      · rw [if_neg h, if_neg (by omega)])
    (by
      intro j s hj hs
      obtain ⟨s', e, h⟩ := blend_ok hs (r1 := row) (r2 := row) (r3 := row) (a := 6 * j) (b := 6 * j + 3) (c := 6 * (j + 1))
        (p1 := row * (w * 3) + 6 * j) (p2 := row * (w * 3) + 6 * j + 3) (p3 := row * (w * 3) + 6 * (j + 1))
        hrow hrow hrow (by omega) (by omega) (by omega) (by omega) (by omega) (by omega) (by omega) (by omega)
      refine ⟨s', e, h.same ?_⟩
      intro r i hr hi
      rw [if_neg (show ¬(row < row ∨ (row = row ∧ 6 * j + 2 < 6 * j)) by omega),
        if_neg (show ¬(row < row ∨ (row = row ∧ 6 * j + 1 < 6 * j)) by omega),
        if_neg (show ¬(row < row ∨ (row = row ∧ 6 * (j + 1) + 2 < 6 * j)) by omega),
        if_neg (show ¬(row < row ∨ (row = row ∧ 6 * (j + 1) + 1 < 6 * j)) by omega)]
      by_cases h5 : r = row ∧ i = 6 * j + 3 + 2
      · obtain ⟨rfl, rfl⟩ := h5
        rw [if_pos ⟨rfl, rfl⟩, if_pos (by omega), acrossS, if_pos (by omega)]
        congr 2
      · rw [if_neg h5]
        by_cases h4 : r = row ∧ i = 6 * j + 3 + 1
        · obtain ⟨rfl, rfl⟩ := h4
          rw [if_pos ⟨rfl, rfl⟩, if_pos (by omega), acrossS, if_pos (by omega)]
          congr 2
        · rw [if_neg h4]
          by_cases h6 : r < row ∨ (r = row ∧ i < 6 * j)
          · rw [if_pos h6, if_pos (by omega)]
          · rw [if_neg h6]
            by_cases h7 : r = row ∧ i < 6 * (j + 1)
            · rw [if_pos (Or.inr h7), acrossS, if_neg (by omega)]
            · rw [if_neg (by omega)])
  refine ⟨s', e, h.same ?_⟩
  intro r i hr hi
  by_cases h1 : r < row ∨ (r = row ∧ i < 6 * ((w * 3 - 1) / 6))
  · rw [if_pos h1, if_pos (by omega)]
  · rw [if_neg h1]
    by_cases h2 : r < row + 1
    · rw [if_pos h2, acrossS, if_neg (by omega)]
    · rw [if_neg h2]

/-- The middle row of three. -/
def middle (n : Nat) (g : Nat → Nat → Nat) (r i : Nat) : Nat :=
  if i % 3 ≠ 0 ∧ r = 1 ∧ n = 3 then avg (g 0 i) (g 2 i) else g r i

theorem interpChunk_ok {s : List Nat} {w n sv : Nat} {g : Nat → Nat → Nat} (hw : 0 < w) (hd : Holds s (w * 3) n g) :
    ∃ s', interpChunk 2 sv (w * 3) s = .ok s' ∧
      Holds s' (w * 3) n (if sv = 2 then middle n (acrossS w g) else acrossS w g) := by
  have hlen := hd.1
  have hdiv : s.length / (w * 3) = n := by rw [hlen, Nat.mul_div_cancel _ (by omega)]
  have hmod : s.length % (w * 3) = 0 := by rw [hlen, Nat.mul_mod_left]
  obtain ⟨s1, e1, h1⟩ := forN_inv n (fun row s => interpRow (w * 3) row s)
    (fun row s => Holds s (w * 3) n fun r i => if r < row then acrossS w g r i else g r i) s
    (hd.same fun r i _ _ => by rw [if_neg (by omega)])
    (fun row s hrow hs => interpRow_ok hw hrow hs)
  have h1' : Holds s1 (w * 3) n (acrossS w g) := h1.same fun r i hr _ => if_pos hr
  rw [interpChunk, if_pos rfl, assert', if_pos (decide_eq_true hmod), hdiv]
  simp only [bind, Except.bind, e1]
  have hn3 : s1.length = w * 3 * 3 ↔ n = 3 := by
    rw [h1'.1, Nat.mul_comm n]
    exact Nat.mul_right_inj (by omega)
  by_cases hv : sv = 2 ∧ n = 3
  · obtain ⟨rfl, rfl⟩ := hv
    rw [if_pos ⟨rfl, hn3.2 rfl⟩, if_pos rfl]
    obtain ⟨s2, e2, h2⟩ := forN_inv ((w * 3 + 2) / 3) (fun j s => blend s (3 * j) (w * 3 + 3 * j) (2 * (w * 3) + 3 * j))
      (fun j s => Holds s (w * 3) 3 fun r i => if i < 3 * j then middle 3 (acrossS w g) r i else acrossS w g r i) s1
      (h1'.same fun r i _ _ => by rw [if_neg (by omega)])
      (by
        intro j s hj hs
        obtain ⟨s', e, h⟩ := blend_ok hs (r1 := 0) (r2 := 1) (r3 := 2) (a := 3 * j) (b := 3 * j) (c := 3 * j)
          (p1 := 3 * j) (p2 := w * 3 + 3 * j) (p3 := 2 * (w * 3) + 3 * j)
          (by omega) (by omega) (by omega) (by omega) (by omega) (by omega) (by omega) (by omega) (by omega) (by omega) (by omega)
        refine ⟨s', e, h.same ?_⟩
        intro r i hr hi
        rw [if_neg (show ¬(3 * j + 2 < 3 * j) by omega), if_neg (show ¬(3 * j + 2 < 3 * j) by omega),
          if_neg (show ¬(3 * j + 1 < 3 * j) by omega), if_neg (show ¬(3 * j + 1 < 3 * j) by omega)]
        by_cases h5 : r = 1 ∧ i = 3 * j + 2
        · obtain ⟨rfl, rfl⟩ := h5
          rw [if_pos ⟨rfl, rfl⟩, if_pos (by omega), middle, if_pos (by omega)]
        · rw [if_neg h5]
          by_cases h4 : r = 1 ∧ i = 3 * j + 1
          · obtain ⟨rfl, rfl⟩ := h4
            rw [if_pos ⟨rfl, rfl⟩, if_pos (by omega), middle, if_pos (by omega)]
          · rw [if_neg h4]
            by_cases h6 : i < 3 * j
            · rw [if_pos h6, if_pos (by omega)]
            · rw [if_neg h6]
              by_cases h7 : i < 3 * (j + 1)
              · rw [if_pos h7, middle, if_neg (by omega)]
              · rw [if_neg h7])
    refine ⟨s2, e2, h2.same ?_⟩
    intro r i _ hi
    rw [if_pos (by omega)]
  · rw [if_neg (fun h => hv ⟨h.1, hn3.1 h.2⟩)]
    refine ⟨s1, rfl, h1'.same ?_⟩
    intro r i _ _
    by_cases h2 : sv = 2
    · rw [if_pos h2, middle, if_neg (fun h => hv ⟨h2, h.2.2⟩)]
    · rw [if_neg h2]

/-- `downThree` for samples in a row. -/
def downS (h : Nat) (g : Nat → Nat → Nat) (r i : Nat) : Nat :=
  if i % 3 ≠ 0 ∧ r % 3 = 1 ∧ r + 1 < h then avg (g (r - 1) i) (g (r + 1) i) else g r i

theorem interp_chunks {s : List Nat} {w h sv : Nat} {g : Nat → Nat → Nat} (hw : 0 < w) (hd : Holds s (w * 3) h g) (k : Nat)
    (hk : k ≤ (h + 2) / 3) :
    ∃ cs, ((List.range k).map fun i => (s.drop (i * (w * 3 * 3))).take (w * 3 * 3)).mapM (interpChunk 2 sv (w * 3)) = .ok cs ∧
      Holds cs.flatten (w * 3) (min h (3 * k)) (if sv = 2 then downS h (acrossS w g) else acrossS w g) := by
  induction k with
  | zero => exact ⟨[], rfl, by rw [Nat.mul_zero, Nat.min_zero]; exact ⟨by simp, by intro r c hr; omega⟩⟩
  | succ k ih =>
    obtain ⟨cs, e, hc⟩ := ih (by omega)
    have hp := hd.part (3 * k) 3 (min 3 (h - 3 * k)) rfl
    obtain ⟨c, e', hc'⟩ := interpChunk_ok (sv := sv) hw hp
    refine ⟨cs ++ [c], ?_, ?_⟩
    · rw [List.range_succ, List.map_append, List.mapM_append, e, List.map_cons, List.map_nil, List.mapM_cons, List.mapM_nil,
        show k * (w * 3 * 3) = 3 * k * (w * 3) by ring, show w * 3 * 3 = 3 * (w * 3) by ring, e']
      rfl
    · rw [List.flatten_append, List.flatten_singleton, show min h (3 * (k + 1)) = min h (3 * k) + min 3 (h - 3 * k) by omega]
      refine hc.append (hc'.same ?_)
      intro r i hr hi
      rw [show min h (3 * k) = 3 * k by omega]
      by_cases hv : sv = 2
      · rw [if_pos hv, if_pos hv, middle, downS]
        have ha (r : Nat) : acrossS w (fun r c => g (3 * k + r) c) r i = acrossS w g (3 * k + r) i := rfl
        by_cases h1 : i % 3 ≠ 0 ∧ r = 1 ∧ min 3 (h - 3 * k) = 3
        · rw [if_pos h1, if_pos (by omega), ha, ha, h1.2.1]
          rfl
        · rw [if_neg h1, if_neg (by omega), ha]
      · rw [if_neg hv, if_neg hv]
        rfl

theorem interpolateYuv_ok {s : List Nat} {w h sv : Nat} {g : Nat → Nat → Nat} (hw : 0 < w) (hd : Holds s (w * 3) h g) :
    ∃ s', interpolateYuv 2 sv (w * 3) s = .ok s' ∧ Holds s' (w * 3) h (if sv = 2 then downS h (acrossS w g) else acrossS w g) := by
  obtain ⟨cs, e, hc⟩ := interp_chunks (sv := sv) hw hd ((h + 2) / 3) (Nat.le_refl _)
  refine ⟨cs.flatten, ?_, by rw [show min h (3 * ((h + 2) / 3)) = h by omega] at hc; exact hc⟩
  have hcount : (s.length + w * 3 * 3 - 1) / (w * 3 * 3) = (h + 2) / 3 := by
    rw [hd.1]
    have e1 : h = 3 * ((h + 2) / 3) - (3 * ((h + 2) / 3) - h) := by omega
    generalize hq : (h + 2) / 3 = q at *
    generalize ht : 3 * q - h = t at *
    have ht' : t ≤ 2 := by omega
    have hh : h + t = 3 * q := by omega
    have e2 : h * (w * 3) + t * (w * 3) = q * (w * 3 * 3) := by rw [← Nat.add_mul, hh]; ring
    have e3 : t * (w * 3) ≤ 2 * (w * 3) := Nat.mul_le_mul_right _ ht'
    have e4 : (q + 1) * (w * 3 * 3) = q * (w * 3 * 3) + w * 3 * 3 := by ring
    refine Nat.div_eq_of_lt_le (by omega) (by omega)
  rw [interpolateYuv, if_neg (by omega), chunks, if_neg (by omega), hcount]
  simp only [bind, Except.bind, e]

/-! ## RGB -/

theorem chkI32_ok {x : Int} (h1 : -2147483648 ≤ x) (h2 : x < 2147483648) : chkI32 x = .ok x := by
  rw [chkI32, if_pos ⟨by simpa using h1, by simpa using h2⟩]

theorem floorDiv_eq (a : Int) (b : Nat) : floorDiv a b = a / 2 ^ b := by
  rw [floorDiv]
  exact Int.fdiv_eq_ediv_of_nonneg a (Int.pow_nonneg (by decide))

/-- The factor times the value fits in 31 bits. -/
theorem mul_fits {c : Nat} {C X x : Int} (hc : (c : Int) ≤ C) (h1 : -X ≤ x) (h2 : x ≤ X) (hX : C * X < 2147483648) (hX0 : 0 ≤ X) :
    -2147483648 ≤ c * x ∧ (c : Int) * x < 2147483648 := by
  have h0 : (0 : Int) ≤ c := Int.natCast_nonneg c
  have a1 : (c : Int) * x ≤ c * X := Int.mul_le_mul_of_nonneg_left h2 h0
  have a2 : (c : Int) * (-X) ≤ c * x := Int.mul_le_mul_of_nonneg_left h1 h0
  have a3 : (c : Int) * X ≤ C * X := Int.mul_le_mul_of_nonneg_right hc hX0
  have a4 : (c : Int) * (-X) = -(c * X) := Int.mul_neg _ _
  omega

theorem scale_ok {c : Nat} {x : Int} {C X : Int} (hc : (c : Int) ≤ C) (h1 : -X ≤ x) (h2 : x ≤ X) (hX : C * X < 2147483648) (hX0 : 0 ≤ X) :
    scale c x = .ok (Spec.Nef.limit 16 (floorDiv (c * x) 8)) := by
  obtain ⟨a, b⟩ := mul_fits hc h1 h2 hX hX0
  rw [scale, chkI32_ok a b, floorDiv_eq]
  simp only [bind, Except.bind]
  rw [Nef.clampbits_eq _ _ (by omega)]
  rfl

theorem pixel_other {v : Nat} (hv : v ≠ 1) {wb : Nat → Nat} (hwb : ∀ k, k < 3 → wb k ≤ 18724) (hue : Nat) {p : Pic} {r c : Nat}
    (hp : ∀ k, k < 3 → p r c k < 65536) :
    pixel v (wb 0, wb 1, wb 2) hue (p r c 0) (p r c 1) (p r c 2) = .ok [rgb v hue wb p r c 0, rgb v hue wb p r c 1, rgb v hue wb p r c 2] := by
  have w0 := hwb 0 (by omega)
  have w1 := hwb 1 (by omega)
  have w2 := hwb 2 (by omega)
  have y0 := hp 0 (by omega)
  have y1 := hp 1 (by omega)
  have y2 := hp 2 (by omega)
  simp only [rgb, light, if_neg hv]
  generalize wb 0 = a0 at *
  generalize wb 1 = a1 at *
  generalize wb 2 = a2 at *
  generalize p r c 0 = q0 at *
  generalize p r c 1 = q1 at *
  generalize p r c 2 = q2 at *
  have hy : -512 ≤ (if v = 0 then (q0 : Int) - 512 else q0) ∧ (if v = 0 then (q0 : Int) - 512 else q0) ≤ 65535 := by
    split <;> omega
  rw [pixel, if_neg hv]
  simp only []
  generalize (if v = 0 then (q0 : Int) - 512 else q0) = y at *
  rw [scale_ok (C := 18724) (X := 114687) (by omega) (by omega) (by omega) (by omega) (by omega),
    scale_ok (c := a2) (C := 18724) (X := 114687) (by omega) (by omega) (by omega) (by omega) (by omega),
    chkI32_ok (by omega) (by omega)]
  simp only [bind, Except.bind]
  rw [scale_ok (C := 18724) (X := 114687) (by omega) (by omega) (by omega) (by omega) (by omega), floorDiv_eq _ 12,
    show ((q2 : Int) - 16383) * 2 ^ 11 = 2048 * (q2 - 16383) by ring]

theorem pixel_one {wb : Nat → Nat} (hwb : ∀ k, k < 3 → wb k ≤ 11792) {hue : Nat} (hh : hue ≤ 4) {p : Pic} {r c : Nat}
    (h0 : p r c 0 < 65536) (h1 : p r c 1 < 32768) (h2 : p r c 2 < 32768) :
    pixel 1 (wb 0, wb 1, wb 2) hue (p r c 0) (p r c 1) (p r c 2) = .ok [rgb 1 hue wb p r c 0, rgb 1 hue wb p r c 1, rgb 1 hue wb p r c 2] := by
  have w0 := hwb 0 (by omega)
  have w1 := hwb 1 (by omega)
  have w2 := hwb 2 (by omega)
  simp only [rgb, light, if_pos]
  generalize wb 0 = a0 at *
  generalize wb 1 = a1 at *
  generalize wb 2 = a2 at *
  generalize p r c 0 = q0 at *
  generalize p r c 1 = q1 at *
  generalize p r c 2 = q2 at *
  rw [pixel, if_pos rfl]
  simp only []
  rw [show 4 * ((q1 : Int) - 16383) + hue = (q1 - 16383) * 4 + hue by ring, show 4 * ((q2 : Int) - 16383) + hue = (q2 - 16383) * 4 + hue by ring,
    chkI32_ok (x := ((q1 : Int) - 16383) * 4 + hue) (by omega) (by omega), chkI32_ok (x := ((q2 : Int) - 16383) * 4 + hue) (by omega) (by omega)]
  have b1 : -65532 ≤ ((q1 : Int) - 16383) * 4 + hue ∧ ((q1 : Int) - 16383) * 4 + hue ≤ 65540 := by omega
  have b2 : -65532 ≤ ((q2 : Int) - 16383) * 4 + hue ∧ ((q2 : Int) - 16383) * 4 + hue ≤ 65540 := by omega
  simp only [bind, Except.bind]
  generalize ((q1 : Int) - 16383) * 4 + hue = b at *
  generalize ((q2 : Int) - 16383) * 4 + hue = d at *
  rw [chkI32_ok (x := 50 * b) (by omega) (by omega), chkI32_ok (x := 22929 * d) (by omega) (by omega),
    chkI32_ok (x := -5640 * b) (by omega) (by omega), chkI32_ok (x := 11751 * d) (by omega) (by omega),
    chkI32_ok (x := 29040 * b) (by omega) (by omega), chkI32_ok (x := 101 * d) (by omega) (by omega)]
  simp only []
  rw [chkI32_ok (x := 50 * b + 22929 * d) (by omega) (by omega), chkI32_ok (x := -5640 * b - 11751 * d) (by omega) (by omega),
    chkI32_ok (x := 29040 * b - 101 * d) (by omega) (by omega)]
  simp only []
  rw [scale_ok (c := a0) (C := 11792) (X := 182108) (by omega) (by omega) (by omega) (by omega) (by omega),
    scale_ok (c := a1) (C := 11792) (X := 182108) (by omega) (by omega) (by omega) (by omega) (by omega),
    scale_ok (c := a2) (C := 11792) (X := 182108) (by omega) (by omega) (by omega) (by omega) (by omega),
    floorDiv_eq _ 14, floorDiv_eq _ 14, floorDiv_eq _ 14]

theorem pixels_flatMap {v : Nat} {cf : Nat × Nat × Nat} {hue : Nat} {A B : Nat → Nat → Nat} (l : List Nat)
    (h : ∀ q ∈ l, pixel v cf hue (A q 0) (A q 1) (A q 2) = .ok [B q 0, B q 1, B q 2]) :
    pixels v cf hue (l.flatMap fun q => (List.range 3).map (A q)) = .ok (l.flatMap fun q => (List.range 3).map (B q)) := by
  induction l with
  | nil => rfl
  | cons q l ih =>
    rw [List.flatMap_cons, List.flatMap_cons]
    show pixels v cf hue (A q 0 :: A q 1 :: A q 2 :: l.flatMap fun q => (List.range 3).map (A q)) = _
    rw [pixels, h q List.mem_cons_self, ih fun q hq => h q (List.mem_cons_of_mem _ hq)]
    rfl

theorem holds_regroup {l : List Nat} {w h : Nat} {A : Nat → Nat → Nat} (hl : Holds l 3 (h * w) A) :
    Holds l (w * 3) h fun r i => A (r * w + i / 3) (i % 3) := by
  refine ⟨by rw [hl.1]; ring, ?_⟩
  intro r i hr hi
  have := hl.2 (r * w + i / 3) (i % 3) (mul_add_lt hr (by omega)) (Nat.mod_lt _ (by omega))
  rw [← this, show r * (w * 3) + i = (r * w + i / 3) * 3 + i % 3 by
    have := Nat.div_add_mod i 3
    have e : (r * w + i / 3) * 3 = r * (w * 3) + 3 * (i / 3) := by ring
    omega]

theorem pixels_ok {v : Nat} {cf : Nat × Nat × Nat} {hue w h : Nat} {s : List Nat} {p P : Pic} (hw : 0 < w)
    (hd : Holds s (w * 3) h fun r i => p r (i / 3) (i % 3))
    (hp : ∀ r c, r < h → c < w → pixel v cf hue (p r c 0) (p r c 1) (p r c 2) = .ok [P r c 0, P r c 1, P r c 2]) :
    ∃ s', pixels v cf hue s = .ok s' ∧ Holds s' (w * 3) h fun r i => P r (i / 3) (i % 3) := by
  have flat (p : Pic) : Holds ((List.range (h * w)).flatMap fun q => (List.range 3).map ((fun q k => p (q / w) (q % w) k) q)) (w * 3) h
      fun r i => p r (i / 3) (i % 3) := by
    refine (holds_regroup (holds_flatMap 3 (h * w) fun q k => p (q / w) (q % w) k)).same ?_
    intro r i hr hi
    have hi3 : i / 3 < w := by omega
    show p ((r * w + i / 3) / w) ((r * w + i / 3) % w) (i % 3) = _
    rw [Nat.mul_comm r w, Nat.mul_add_div hw, Nat.mul_add_mod, Nat.div_eq_of_lt hi3, Nat.mod_eq_of_lt hi3, Nat.add_zero]
  refine ⟨_, ?_, flat P⟩
  rw [Holds.unique hd (flat p)]
  refine pixels_flatMap _ ?_
  intro q hq
  rw [List.mem_range] at hq
  exact hp _ _ (Nat.div_lt_of_lt_mul (by rw [Nat.mul_comm]; exact hq)) (Nat.mod_lt _ hw)

end Verif.Cr2
