import Verif.Proofs.DemosaicPpg
import Verif.Proofs.Orf
/-! # Superpixels and X-Trans -/

namespace Verif.Demosaic
open Verif.Spec.Demosaic
open Verif Verif.Dng Verif.Pix
open Verif.Orf (ok_bind)

theorem rgb_pattern {name : List Char} {n : Nat} (h : IsRgbPattern name n) : Verif.Spec.IsPattern name n n := by
  obtain ⟨h1, h2, h3, -⟩ := h
  refine ⟨h2, ?_, fun c hc => by rw [letterCode_rgb (h3 c hc)]; rfl⟩
  rcases h1 with rfl | rfl | rfl <;> simp

theorem idx_sample {raw : List ℚ} {dw x y w h : Nat} (hi : Inside raw dw x y w h) {r c : Nat} (hr : r < h) (hc : c < w) :
    idx raw ((y + r) * dw + (x + c)) = .ok (sample raw dw x y r c) := by
  have hlt : (y + r) * dw + (x + c) < raw.length := by
    have h1 : (y + r + 1) * dw ≤ (y + h) * dw := Nat.mul_le_mul_right _ (by omega)
    have h2 := hi.1; have h3 := hi.2
    rw [Nat.add_mul (y + r) 1] at h1
    omega
  rw [idx_lt _ _ hlt, sample, List.getD_eq_getElem?_getD, List.getElem?_eq_getElem hlt]
  rfl

/-! ## Superpixels -/

theorem holds_flatten {α : Type} (w h : Nat) (g : Nat → Nat → α) {i j : Nat} (hi : i < h) (hj : j < w) :
    ((List.range h).map fun i => (List.range w).map fun j => g i j).flatten[i * w + j]? = some (g i j) := by
  have := (holds_genRows h w g).2 i j hi hj
  rwa [List.flatMap_def] at this

theorem super_cell {name s : List Char} (hb : IsBayer name) (x y : Nat)
    (hs : Verif.Spec.Holds s 2 2 (fun r j => Props.letterOf (colour name 2 (r + y) (j + x)))) (f : Nat → Nat → ℚ) (i j : Nat) :
    superRgb s (f (2 * i) (2 * j)) (f (2 * i) (2 * j + 1)) (f (2 * i + 1) (2 * j)) (f (2 * i + 1) (2 * j + 1)) =
      .ok (blockMean f (fun r c => colour name 2 (y + r) (x + c)) (2 * i) (2 * j) 0, blockMean f (fun r c => colour name 2 (y + r) (x + c)) (2 * i) (2 * j) 1,
        blockMean f (fun r c => colour name 2 (y + r) (x + c)) (2 * i) (2 * j) 2) := by
  have hs4 : s = [Props.letterOf (colour name 2 (0 + y) (0 + x)), Props.letterOf (colour name 2 (0 + y) (1 + x)),
      Props.letterOf (colour name 2 (1 + y) (0 + x)), Props.letterOf (colour name 2 (1 + y) (1 + x))] := by
    have h0 := hs.2 0 0 (by omega) (by omega)
    have h1 := hs.2 0 1 (by omega) (by omega)
    have h2 := hs.2 1 0 (by omega) (by omega)
    have h3 := hs.2 1 1 (by omega) (by omega)
    have hl := hs.1
    match s, hl, h0, h1, h2, h3 with
    | [a, b, c, d], _, h0, h1, h2, h3 =>
      simp at h0 h1 h2 h3
      simp [h0, h1, h2, h3]
  have p1 : ∀ dr dc, colour name 2 (y + (2 * i + dr)) (x + (2 * j + dc)) = colour name 2 ((y % 2 + dr) % 2) ((x % 2 + dc) % 2) := by
    intro dr dc
    rw [colour_parity]
    congr 1 <;> omega
  have p2 : ∀ dr dc, colour name 2 (dr + y) (dc + x) = colour name 2 ((y % 2 + dr) % 2) ((x % 2 + dc) % 2) := by
    intro dr dc
    rw [colour_parity]
    congr 1 <;> omega
  have q0 := p1 0 0
  have q1 := p1 0 1
  have q2 := p1 1 0
  have q3 := p1 1 1
  simp only [Nat.add_zero] at q0 q1 q2
  rw [hs4]
  simp only [blockMean, p2, List.filter_cons, List.filter_nil, q0, q1, q2, q3, Nat.add_zero]
  have hx : x % 2 = 0 ∨ x % 2 = 1 := by omega
  have hy : y % 2 = 0 ∨ y % 2 = 1 := by omega
  rcases hb with rfl | rfl | rfl | rfl <;> rcases hx with hx | hx <;> rcases hy with hy | hy <;>
    simp [hx, hy, colour, channel, Props.letterOf, superRgb, mean, List.sum_cons] <;> norm_num

theorem superpixel_ok {name : List Char} (hb : IsBayer name) {raw : List ℚ} {dw x y w h : Nat} (hi : Inside raw dw x y w h) (hd : 0 < dw) :
    ∃ cfa px, CFA.new name = .ok cfa ∧ superpixel3 raw dw cfa ⟨x, y, w, h⟩ = .ok (w / 2, h / 2, px) ∧ px.length = w / 2 * (h / 2) ∧
      ∀ i j, i < h / 2 → j < w / 2 → px[i * (w / 2) + j]? =
        some (blockMean (sample raw dw x y) (fun r c => colour name 2 (y + r) (x + c)) (2 * i) (2 * j) 0,
          blockMean (sample raw dw x y) (fun r c => colour name 2 (y + r) (x + c)) (2 * i) (2 * j) 1,
          blockMean (sample raw dw x y) (fun r c => colour name 2 (y + r) (x + c)) (2 * i) (2 * j) 2) := by
  obtain ⟨hp, hl, hR, hG, hB⟩ := bayer_pattern hb
  obtain ⟨cfa, s, e1, en, e2, hs, -⟩ := cfa_colFn hp hl x y
  have hrgb : isRgb cfa = true := isRgb_of (by rw [en]; exact hl) (by rw [en]; exact hR) (by rw [en]; exact hG) (by rw [en]; exact hB)
  have e0 : w / 2 * 2 / 2 = w / 2 := by omega
  have e0' : h / 2 * 2 / 2 = h / 2 := by omega
  have cell := super_cell hb x y hs (sample raw dw x y)
  obtain ⟨q, z⟩ : ∃ q, superRgb s.name 0 0 0 0 = .ok q := ⟨_, super_cell hb x y hs (fun _ _ => 0) 0 0⟩
  have rows : (List.range (h / 2)).mapM (fun i => (do
      if dw < x + w / 2 * 2 then panic' else
      (List.range (w / 2)).mapM fun j => do
        let p0 ← idx raw ((y + 2 * i) * dw + x + 2 * j)
        let p1 ← idx raw ((y + 2 * i) * dw + x + 2 * j + 1)
        let p2 ← idx raw ((y + 2 * i + 1) * dw + x + 2 * j)
        let p3 ← idx raw ((y + 2 * i + 1) * dw + x + 2 * j + 1)
        superRgb s.name p0 p1 p2 p3 : R (List (ℚ × ℚ × ℚ)))) = .ok ((List.range (h / 2)).map fun i => (List.range (w / 2)).map fun j =>
          (blockMean (sample raw dw x y) (fun r c => colour name 2 (y + r) (x + c)) (2 * i) (2 * j) 0,
          blockMean (sample raw dw x y) (fun r c => colour name 2 (y + r) (x + c)) (2 * i) (2 * j) 1,
          blockMean (sample raw dw x y) (fun r c => colour name 2 (y + r) (x + c)) (2 * i) (2 * j) 2)) := by
    apply mapM_ok_of
    intro i him
    rw [List.mem_range] at him
    rw [if_neg (by have := hi.1; omega)]
    apply mapM_ok_of
    intro j hjm
    rw [List.mem_range] at hjm
    have a0 := idx_sample hi (r := 2 * i) (c := 2 * j) (by omega) (by omega)
    have a1 := idx_sample hi (r := 2 * i) (c := 2 * j + 1) (by omega) (by omega)
    have a2 := idx_sample hi (r := 2 * i + 1) (c := 2 * j) (by omega) (by omega)
    have a3 := idx_sample hi (r := 2 * i + 1) (c := 2 * j + 1) (by omega) (by omega)
    simp only [← Nat.add_assoc] at a0 a1 a2 a3
    rw [a0, ok_bind, a1, ok_bind, a2, ok_bind, a3, ok_bind]
    exact cell i j
  have hlen : ¬ (raw.length < y * dw + h / 2 * 2 * dw ∨ dw = 0) := by
    have h3 := hi.2
    have : (y + h / 2 * 2) * dw ≤ (y + h) * dw := Nat.mul_le_mul_right _ (by omega)
    rw [Nat.add_mul y (h / 2 * 2)] at this
    omega
  refine ⟨cfa, _, e1, ?_, ?_, fun i j h1 h2 => holds_flatten (w / 2) (h / 2) _ h1 h2⟩
  · unfold superpixel3
    simp only [hrgb, Bool.true_eq_false, if_false, e2, ok_bind, z, e0, e0']
    rw [if_neg hlen, rows, ok_bind]
  · have := (holds_genRows (h / 2) (w / 2) fun i j => (blockMean (sample raw dw x y) (fun r c => colour name 2 (y + r) (x + c)) (2 * i) (2 * j) 0,
      blockMean (sample raw dw x y) (fun r c => colour name 2 (y + r) (x + c)) (2 * i) (2 * j) 1,
      blockMean (sample raw dw x y) (fun r c => colour name 2 (y + r) (x + c)) (2 * i) (2 * j) 2)).1
    rw [List.flatMap_def] at this
    rw [this, Nat.mul_comm]

/-! ## X-Trans -/

theorem window5_eq {n i : Nat} (hi : i < n) : window5 n i = (List.range n).filter fun y => decide (y ≤ i + 2 ∧ i ≤ y + 2) := by
  unfold window5
  apply List.Perm.eq_of_pairwise (le := (· < ·))
  · intro a b _ _ h1 h2; omega
  · exact List.pairwise_lt_range' ..
  · exact List.pairwise_lt_range.filter _
  · rw [List.perm_ext_iff_of_nodup (List.nodup_range' ..) (List.nodup_range.filter _)]
    intro a
    simp only [List.mem_filter, List.mem_range', List.mem_range, decide_eq_true_eq, Nat.one_mul]
    constructor
    · rintro ⟨k, hk, rfl⟩
      omega
    · rintro ⟨ha, h1, h2⟩
      exact ⟨a - (i - 2), by omega, by omega⟩

theorem xsum (vals : List (Nat × ℚ)) (k : Nat) (a : ℚ) (n : Nat) :
    vals.foldl (fun (s : ℚ × Nat) v => if v.1 = k then (s.1 + v.2, s.2 + 1) else s) (a, n) =
      (a + ((vals.filter fun v => decide (v.1 = k)).map (·.2)).sum, n + (vals.filter fun v => decide (v.1 = k)).length) := by
  induction vals generalizing a n with
  | nil => simp
  | cons p t ih =>
    rw [List.foldl_cons]
    by_cases h : p.1 = k
    · rw [if_pos h, ih, List.filter_cons_of_pos (by simpa using h)]
      simp only [List.map_cons, List.sum_cons, List.length_cons]
      rw [add_assoc, Nat.add_right_comm, Nat.add_assoc]
    · rw [if_neg h, ih, List.filter_cons_of_neg (by simpa using h)]

theorem xtransPixel_ok {raw : List ℚ} {dw x y w h : Nat} (hi : Inside raw dw x y w h) (col : Nat → Nat → Nat) {r c : Nat} (hr : r < h) (hc : c < w) :
    xtransPixel raw dw col ⟨x, y, w, h⟩ r c =
      .ok (localMean (sample raw dw x y) col w h 2 r c 0, localMean (sample raw dw x y) col w h 2 r c 1, localMean (sample raw dw x y) col w h 2 r c 2) := by
  have hwin : ((window5 h r).flatMap fun row => (window5 w c).map fun cl => (row, cl)) =
      (places w h).filter fun d => decide (d.1 ≤ r + 2 ∧ r ≤ d.1 + 2 ∧ d.2 ≤ c + 2 ∧ c ≤ d.2 + 2) := by
    rw [window5_eq hr, window5_eq hc, places, filter_grid]
    apply List.filter_congr
    intro d _
    simp only [Bool.decide_and, Bool.and_assoc]
  have hvals : (((places w h).filter fun d => decide (d.1 ≤ r + 2 ∧ r ≤ d.1 + 2 ∧ d.2 ≤ c + 2 ∧ c ≤ d.2 + 2)).mapM fun p => (do
      let v ← idx raw ((y + p.1) * dw + (x + p.2))
      .ok (col p.1 p.2, v) : R (Nat × ℚ))) =
      .ok (((places w h).filter fun d => decide (d.1 ≤ r + 2 ∧ r ≤ d.1 + 2 ∧ d.2 ≤ c + 2 ∧ c ≤ d.2 + 2)).map fun p =>
        (col p.1 p.2, sample raw dw x y p.1 p.2)) := by
    apply mapM_ok_of
    intro p hp
    have := mem_places.mp (List.mem_of_mem_filter hp)
    rw [idx_sample hi this.1 this.2, ok_bind]
  have chan : ∀ k, (let s : ℚ × Nat := (((places w h).filter fun d => decide (d.1 ≤ r + 2 ∧ r ≤ d.1 + 2 ∧ d.2 ≤ c + 2 ∧ c ≤ d.2 + 2)).map fun p =>
        (col p.1 p.2, sample raw dw x y p.1 p.2)).foldl (fun s v => if v.1 = k then (s.1 + v.2, s.2 + 1) else s) (0, 0)
      if 0 < s.2 then s.1 / s.2 else 0) = localMean (sample raw dw x y) col w h 2 r c k := by
    intro k
    simp only []
    rw [xsum]
    simp only [zero_add, List.filter_map, List.map_map, List.length_map, Nat.zero_add]
    have e : (((places w h).filter fun d => decide (d.1 ≤ r + 2 ∧ r ≤ d.1 + 2 ∧ d.2 ≤ c + 2 ∧ c ≤ d.2 + 2)).filter
        ((fun v : Nat × ℚ => decide (v.1 = k)) ∘ fun p => (col p.1 p.2, sample raw dw x y p.1 p.2))) =
        (places w h).filter fun p => decide (p.1 ≤ r + 2 ∧ r ≤ p.1 + 2 ∧ p.2 ≤ c + 2 ∧ c ≤ p.2 + 2 ∧ col p.1 p.2 = k) := by
      rw [List.filter_filter]
      apply List.filter_congr
      intro d _
      simp only [Function.comp]
      rw [← Bool.decide_and]
      exact decide_eq_decide.mpr (by tauto)
    rw [e, localMean, mean, List.length_map]
    split_ifs with h0
    · rfl
    · have : (List.filter (fun p : Nat × Nat => decide (p.1 ≤ r + 2 ∧ r ≤ p.1 + 2 ∧ p.2 ≤ c + 2 ∧ c ≤ p.2 + 2 ∧ col p.1 p.2 = k)) (places w h)).length = 0 := by
        omega
      rw [this]; simp
  unfold xtransPixel
  simp only []
  rw [hwin, hvals, ok_bind]
  rw [← chan 0, ← chan 1, ← chan 2]

theorem xtrans_ok {name : List Char} {n : Nat} (hn : IsRgbPattern name n) {raw : List ℚ} {dw x y w h : Nat} (hi : Inside raw dw x y w h) (hw : 0 < w) :
    ∃ cfa px, CFA.new name = .ok cfa ∧ xtrans raw dw cfa ⟨x, y, w, h⟩ = .ok px ∧ px.length = w * h ∧
      ∀ r c, r < h → c < w → px[r * w + c]? =
        some (localMean (sample raw dw x y) (fun r c => colour name n (y + r) (x + c)) w h 2 r c 0,
          localMean (sample raw dw x y) (fun r c => colour name n (y + r) (x + c)) w h 2 r c 1,
          localMean (sample raw dw x y) (fun r c => colour name n (y + r) (x + c)) w h 2 r c 2) := by
  have hp := rgb_pattern hn
  obtain ⟨-, -, hl, hR, hG, hB⟩ := hn
  obtain ⟨cfa, s, e1, en, e2, -, hcol⟩ := cfa_colFn hp hl x y
  have hrgb : isRgb cfa = true := isRgb_of (by rw [en]; exact hl) (by rw [en]; exact hR) (by rw [en]; exact hG) (by rw [en]; exact hB)
  have hcol' : colFn s = fun r c => colour name n (y + r) (x + c) := by
    funext r c; rw [hcol, Nat.add_comm r, Nat.add_comm c]
  have rows : (List.range h).mapM (fun r => (List.range w).mapM fun c => xtransPixel raw dw (colFn s) ⟨x, y, w, h⟩ r c) =
      .ok ((List.range h).map fun r => (List.range w).map fun c =>
        (localMean (sample raw dw x y) (colFn s) w h 2 r c 0, localMean (sample raw dw x y) (colFn s) w h 2 r c 1,
          localMean (sample raw dw x y) (colFn s) w h 2 r c 2)) := by
    apply mapM_ok_of
    intro r hr
    rw [List.mem_range] at hr
    apply mapM_ok_of
    intro c hc
    rw [List.mem_range] at hc
    exact xtransPixel_ok hi _ hr hc
  rw [← hcol']
  refine ⟨cfa, _, e1, ?_, ?_, fun i j h1 h2 => holds_flatten w h _ h1 h2⟩
  · unfold xtrans
    simp only [hrgb, Bool.true_eq_false, if_false, e2, ok_bind]
    rw [if_neg (by omega), rows, ok_bind]
  · have := (holds_genRows h w fun r c => (localMean (sample raw dw x y) (colFn s) w h 2 r c 0, localMean (sample raw dw x y) (colFn s) w h 2 r c 1,
          localMean (sample raw dw x y) (colFn s) w h 2 r c 2)).1
    rw [List.flatMap_def] at this
    rw [this, Nat.mul_comm]

end Verif.Demosaic
