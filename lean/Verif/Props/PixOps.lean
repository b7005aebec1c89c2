import Verif.Props.PixArray
import Mathlib.Tactic.Ring
/-! # C28 (slice rotation), C31, C44 -/

namespace Verif.Props
open Verif Verif.Pix Verif.Spec
variable {α : Type}

/-! ## C28: the stand-alone 90 degree rotation -/

/-- Invariant of the rotation loop: the destination keeps its length and its tail, and every position written so far
holds its final sample. `done r c` says that the source sample `(r, c)` was copied. -/
def RotInv (f : Nat → Nat → α) (dst0 : List α) (w h : Nat) (done : Nat → Nat → Prop) (dst : List α) : Prop :=
  dst.length = dst0.length ∧ (∀ i, h * w ≤ i → dst[i]? = dst0[i]?) ∧
    ∀ r c, r < h → c < w → done r c → dst[c * h + (h - 1 - r)]? = some (f r c)

theorem rot_step (f : Nat → Nat → α) (dst0 dst : List α) (w h : Nat) (done done' : Nat → Nat → Prop) (r c : Nat)
    (hr : r < h) (hc : c < w) (hl : h * w ≤ dst0.length) (hi : RotInv f dst0 w h done dst)
    (hd : ∀ r' c', done' r' c' → done r' c' ∨ (r' = r ∧ c' = c)) :
    RotInv f dst0 w h done' (dst.set (c * h + (h - 1 - r)) (f r c)) := by
  obtain ⟨h1, h2, h3⟩ := hi
  have hlt : c * h + (h - 1 - r) < h * w := by
    rw [Nat.mul_comm h w]; exact mul_add_lt hc (by omega)
  refine ⟨by simpa using h1, ?_, ?_⟩
  · intro i hi
    rw [List.getElem?_set_ne (by omega), h2 i hi]
  · intro r' c' hr' hc' hdone
    by_cases e : c * h + (h - 1 - r) = c' * h + (h - 1 - r')
    · have e1 : c = c' := by
        have a1 : (c * h + (h - 1 - r)) / h = c := by
          rw [Nat.mul_comm, Nat.mul_add_div (by omega), Nat.div_eq_of_lt (by omega)]; omega
        have a2 : (c' * h + (h - 1 - r')) / h = c' := by
          rw [Nat.mul_comm, Nat.mul_add_div (by omega), Nat.div_eq_of_lt (by omega)]; omega
        rw [← a1, e, a2]
      subst e1
      have e2 : r = r' := by omega
      subst e2
      rw [List.getElem?_set_self (by omega)]
    · rw [List.getElem?_set_ne e]
      rcases hd r' c' hdone with h | ⟨rfl, rfl⟩
      · exact h3 r' c' hr' hc' h
      · exact absurd rfl e

/-- **C28, slices.** The stand-alone rotation writes into the first `width * height` samples of the destination the image
turned clockwise (output row `r`, column `c` is the input pixel of row `h - 1 - c`, column `r`, the same as
`C28_rotate_cw_geometry`), and leaves the rest of the destination alone. -/
theorem C28_slice_rotation_geometry (src dst : List α) (w h : Nat) (f : Nat → Nat → α) (hd : Holds src w h f) (hw : 0 < w)
    (hl : src.length ≤ dst.length) :
    ∃ out, rotate90 src dst w h = .ok out ∧ Holds (out.take src.length) h w (fun r c => f (h - 1 - c) r) ∧
      out.drop src.length = dst.drop src.length := by
  have hlen := hd.1
  have key : ∃ out, rotate90 src dst w h = .ok out ∧ RotInv f dst w h (fun r _ => r < h) out := by
    rw [rotate90, if_neg (by omega), chunksExact_ok _ _ _ _ hd hw]
    simp only [bind, Except.bind, List.length_map, List.length_range]
    apply forN_inv h _ (fun n d => RotInv f dst w h (fun r _ => r < n) d)
    · exact ⟨rfl, fun _ _ => rfl, fun r c _ _ h => absurd h (by omega)⟩
    · intro row d hrow hd1
      rw [idx_lt _ _ (by simpa using hrow)]
      simp only [List.getElem_map, List.getElem_range, List.length_map, List.length_range]
      obtain ⟨d2, e2, i2⟩ := forN_inv w (fun col dst => do
        let pix ← idx ((List.range w).map (f row)) col
        let a ← usub h 1
        let ocol ← usub a row
        if col * h + ocol < src.length then upd dst (col * h + ocol) pix else panic')
        (fun n d => RotInv f dst w h (fun r c => r < row ∨ (r = row ∧ c < n)) d) d
        (by
          obtain ⟨a, b, c⟩ := hd1
          exact ⟨a, b, fun r' c' h1 h2 h3 => c r' c' h1 h2 (by omega)⟩)
        (by
          intro col s hcol hs
          have hlt : col * h + (h - 1 - row) < h * w := by
            rw [Nat.mul_comm h w]; exact mul_add_lt hcol (by omega)
          refine ⟨s.set (col * h + (h - 1 - row)) (f row col), ?_, ?_⟩
          · rw [idx_lt _ _ (by simpa using hcol)]
            simp only [bind, Except.bind, List.getElem_map, List.getElem_range]
            rw [usub, if_pos (by omega)]
            simp only
            rw [usub, if_pos (by omega)]
            simp only
            rw [if_pos (by omega), upd_lt _ _ _ (by have := hs.1; omega)]
          · exact rot_step f dst s w h _ _ row col hrow hcol (by omega) hs (fun r' c' h => by omega))
      refine ⟨d2, e2, ?_⟩
      obtain ⟨a, b, c⟩ := i2
      exact ⟨a, b, fun r' c' h1 h2 h3 => c r' c' h1 h2 (by omega)⟩
  obtain ⟨out, e, h1, h2, h3⟩ := key
  refine ⟨out, e, ⟨by rw [List.length_take, h1, hlen, Nat.mul_comm h w] ; rw [hlen, Nat.mul_comm h w] at hl; omega, ?_⟩, ?_⟩
  · intro r c hr hc
    have hlt : r * h + c < h * w := by rw [Nat.mul_comm h w]; exact mul_add_lt hr hc
    rw [List.getElem?_take_of_lt (by omega)]
    have := h3 (h - 1 - c) r (by omega) hr (by omega)
    rwa [show h - 1 - (h - 1 - c) = c by omega] at this
  · apply List.ext_getElem?
    intro i
    rw [List.getElem?_drop, List.getElem?_drop, h2 _ (by omega)]

example : rotate90 [1, 2, 3, 4, 5, 6] [0, 0, 0, 0, 0, 0, 9] 3 2 = .ok [4, 1, 5, 2, 6, 3, 9] := by decide

/-! ## C31 -/

theorem zip_interleave (n : Nat) (u v : Nat → α) :
    (((List.range n).map u).zip ((List.range n).map v)).flatMap (fun ab => [ab.1, ab.2]) =
      (List.range (2 * n)).map fun c => if c % 2 = 0 then u (c / 2) else v (c / 2) := by
  induction n with
  | zero => rfl
  | succ n ih =>
    rw [List.range_succ, List.map_append, List.map_append, List.zip_append (by simp), List.flatMap_append, ih,
      show 2 * (n + 1) = 2 * n + 1 + 1 by omega, List.range_succ, List.range_succ]
    simp only [List.map_append, List.map_cons, List.map_nil, List.zip_cons_cons, List.zip_nil_right, List.flatMap_cons,
      List.flatMap_nil, List.append_nil, List.append_assoc, List.cons_append, List.nil_append]
    rw [if_pos (by omega), if_neg (by omega), show 2 * n / 2 = n by omega, show (2 * n + 1) / 2 = n by omega]

/-- Where the row (column) shown at `r` comes from when the image has `2 * b` rows (columns): even ones from the first
half, odd ones from the second. -/
def quadrantPos (b r : Nat) : Nat := r % 2 * b + r / 2

/-- **C31.** For every image of `2b` rows and `2a` columns the sample at `(r, c)` of the result is the one at
`(r/2, c/2)` of the quadrant selected by the parities of `r` and `c` (even rows upper, odd rows lower, even columns left,
odd columns right). -/
theorem C31_deinterleave_geometry_partial (p : Pix α) (d : α) (dbg : Bool) (a b : Nat) (f : Nat → Nat → α)
    (hw : p.width = 2 * a) (hh : p.height = 2 * b) (ha : 0 < a) (hb : 0 < b) (hd : Holds p.data p.width p.height f) :
    ∃ q, p.deinterleave2x2 d dbg = .ok q ∧ q.width = p.width ∧ q.height = p.height ∧
      Holds q.data p.width p.height (fun r c => f (quadrantPos b r) (quadrantPos a c)) := by
  obtain ⟨w, h, data⟩ := p
  simp only at hw hh hd
  subst hw hh
  have hlen : data.length = 2 * (b * (2 * a)) := by rw [hd.1, Nat.mul_assoc]
  have hhalf : data.length / 2 = b * (2 * a) := by omega
  have hbpos : 2 * a ≤ b * (2 * a) := Nat.le_mul_of_pos_left _ hb
  refine ⟨⟨2 * a, 2 * b, (List.range (2 * b)).flatMap fun r => (List.range (2 * a)).map fun c =>
    f (quadrantPos b r) (quadrantPos a c)⟩, ?_, rfl, rfl, holds_genRows _ _ (fun r c => f (quadrantPos b r) (quadrantPos a c))⟩
  rw [Pix.deinterleave2x2]
  simp only
  have h2 : 2 * a / 2 = a := by omega
  rw [h2, hhalf, slice_ok _ _ _ (by omega) (by omega), slice_ok _ _ _ (by omega) (by omega), slice_ok _ _ _ (by omega) (by omega)]
  simp only [bind, Except.bind]
  rw [if_neg (by omega), mapM_ok_of _ (fun r => (List.range (2 * a)).map fun c => f (quadrantPos b r) (quadrantPos a c))]
  · simp only [List.flatMap_def]
  · intro r hr
    rw [List.mem_range] at hr
    have hrb : r / 2 * (2 * a) + 2 * a ≤ b * (2 * a) := by
      have : (r / 2 + 1) * (2 * a) ≤ b * (2 * a) := Nat.mul_le_mul_right _ (by omega)
      rwa [Nat.add_mul, Nat.one_mul] at this
    have pc : ∀ R x, R < 2 * b → x + a ≤ 2 * a → (data.drop (R * (2 * a) + x)).take a = (List.range a).map fun c => f R (x + c) :=
      fun R x h1 h2 => Holds.piece hd h1 h2
    have fin : ∀ (u v : Nat → α), (∀ c, c < a → u c = f (quadrantPos b r) c) → (∀ c, c < a → v c = f (quadrantPos b r) (a + c)) →
        (((List.range a).map u).zip ((List.range a).map v)).flatMap (fun ab => [ab.1, ab.2]) ++ List.replicate (2 * a % 2) d =
        (List.range (2 * a)).map fun c => f (quadrantPos b r) (quadrantPos a c) := by
      intro u v hu hv
      rw [zip_interleave, show 2 * a % 2 = 0 by omega, List.replicate_zero, List.append_nil]
      apply List.map_congr_left
      intro c hc
      rw [List.mem_range] at hc
      by_cases e : c % 2 = 0
      · rw [if_pos e, hu _ (by omega)]; congr 1; rw [quadrantPos, e]; omega
      · rw [if_neg e, hv _ (by omega)]; congr 1; rw [quadrantPos, show c % 2 = 1 by omega, Nat.one_mul]
    have tk : ∀ (l : List α), l.take l.length = l := fun l => List.take_length
    by_cases e : r % 2 = 0
    · rw [if_pos e, if_pos e, slice_ok _ _ _ (by omega) (by omega), slice_ok _ _ _ (by omega) (by
        rw [List.length_take, List.length_drop]; omega)]
      simp only
      rw [List.drop_take, List.take_take, List.drop_drop, Nat.add_sub_cancel_left,
        show min a (data.length - a - r / 2 * (2 * a)) = a by omega, Nat.add_comm a, pc _ a (by omega) (by omega),
        ← Nat.add_zero (r / 2 * (2 * a)), pc _ 0 (by omega) (by omega), if_neg (by simp; omega), fin]
      · intro c hc; rw [quadrantPos, e]; congr 1 <;> omega
      · intro c hc; rw [quadrantPos, e]; congr 1; omega
    · rw [if_neg e, if_neg e, slice_ok _ _ _ (by omega) (by rw [List.length_take, List.length_drop]; omega),
        slice_ok _ _ _ (by omega) (by rw [List.length_take, List.length_drop]; omega)]
      simp only
      rw [List.drop_take, List.take_take, List.drop_drop, Nat.add_sub_cancel_left, List.drop_take, List.take_take, List.drop_drop,
        show min a (data.length - b * (2 * a) - r / 2 * (2 * a)) = a by omega,
        show min a (data.length - (b * (2 * a) + a) - r / 2 * (2 * a)) = a by omega,
        show b * (2 * a) + r / 2 * (2 * a) = (b + r / 2) * (2 * a) + 0 by rw [Nat.add_mul]; rfl,
        show b * (2 * a) + a + r / 2 * (2 * a) = (b + r / 2) * (2 * a) + a by rw [Nat.add_mul]; omega,
        pc _ a (by omega) (by omega), pc _ 0 (by omega) (by omega), if_neg (by simp; omega), fin]
      · intro c hc; rw [quadrantPos, show r % 2 = 1 by omega, Nat.one_mul]; congr 1; omega
      · intro c hc; rw [quadrantPos, show r % 2 = 1 by omega, Nat.one_mul]

/-- **C31, permutation.** The position map is one to one and onto: every source row (column) is shown exactly once. -/
theorem C31_no_sample_lost_partial (b R : Nat) (hR : R < 2 * b) : ∃ r, (r < 2 * b ∧ quadrantPos b r = R) ∧
    ∀ r', r' < 2 * b ∧ quadrantPos b r' = R → r' = r := by
  have hq : ∀ r, r < 2 * b → (r % 2 = 0 ∧ quadrantPos b r = r / 2) ∨ (r % 2 = 1 ∧ quadrantPos b r = b + r / 2) := by
    intro r hr
    rcases Nat.mod_two_eq_zero_or_one r with h | h
    · exact .inl ⟨h, by rw [quadrantPos, h]; omega⟩
    · exact .inr ⟨h, by rw [quadrantPos, h]; omega⟩
  by_cases h : R < b
  · refine ⟨2 * R, ⟨by omega, ?_⟩, ?_⟩
    · rcases hq (2 * R) (by omega) with ⟨_, h⟩ | ⟨_, h⟩ <;> omega
    · rintro r' ⟨h1, h2⟩
      rcases hq r' h1 with ⟨_, h⟩ | ⟨_, h⟩ <;> omega
  · refine ⟨2 * (R - b) + 1, ⟨by omega, ?_⟩, ?_⟩
    · rcases hq (2 * (R - b) + 1) (by omega) with ⟨_, h⟩ | ⟨_, h⟩ <;> omega
    · rintro r' ⟨h1, h2⟩
      rcases hq r' h1 with ⟨_, h⟩ | ⟨_, h⟩ <;> omega

example : (Pix.mk 4 2 [0, 1, 2, 3, 4, 5, 6, 7]).deinterleave2x2 0 true = .ok ⟨4, 2, [0, 2, 1, 3, 4, 6, 5, 7]⟩ := by decide

/-- For odd sizes C31 is false of the code: samples are lost (release build). -/
theorem C31_odd_width_loses_samples :
    (Pix.mk 3 2 [1, 2, 3, 4, 5, 6]).deinterleave2x2 0 false = .ok ⟨3, 2, [1, 2, 0, 4, 5, 0]⟩ := by decide

/-- With an odd height the lower quadrants are cut at the wrong place and the last row is read past the end. -/
theorem C31_odd_height_wrong :
    (Pix.mk 2 3 [1, 2, 3, 4, 5, 6]).deinterleave2x2 0 false = .ok ⟨2, 3, [1, 2, 4, 5, 3, 4]⟩ := by decide

/-! ## C44 -/

theorem corr_line (corr : Nat → α → α) (k w : Nat) (g : Nat → α) :
    (List.range (((List.range w).map g).length / 2)).flatMap (fun i =>
      ((((List.range w).map g).drop (2 * i)).take 1).map (corr k) ++
      ((((List.range w).map g).drop (2 * i + 1)).take 1).map (corr (k + 1))) ++
      ((List.range w).map g).drop (((List.range w).map g).length / 2 * 2) =
    (List.range w).map fun c => if c < w / 2 * 2 then corr (k + c % 2) (g c) else g c := by
  rw [List.length_map, List.length_range]
  have hf : ∀ i, i < w / 2 → (((((List.range w).map g).drop (2 * i)).take 1).map (corr k) ++
      ((((List.range w).map g).drop (2 * i + 1)).take 1).map (corr (k + 1))) = [corr k (g (2 * i)), corr (k + 1) (g (2 * i + 1))] := by
    intro i hi
    rw [map_piece _ _ _ _ (by omega), map_piece _ _ _ _ (by omega)]
    rfl
  have hl := flatMap_len (w / 2) 2 _ (fun r hr => congrArg List.length (hf r hr))
  apply List.ext_getElem?
  intro i
  by_cases hi : i < w / 2 * 2
  · rw [List.getElem?_append_left (by rw [hl]; exact hi), List.getElem?_map, List.getElem?_range (by omega)]
    conv => lhs; rw [show i = i / 2 * 2 + i % 2 by omega]
    rw [flatMap_get (w / 2) 2 _ (fun r hr => congrArg List.length (hf r hr)) (i / 2) (i % 2) (by omega) (by omega), hf _ (by omega)]
    simp only [Option.map_some]
    rw [if_pos hi]
    rcases Nat.mod_two_eq_zero_or_one i with h | h
    · rw [h, List.getElem?_cons_zero, show 2 * (i / 2) = i by omega]; rfl
    · rw [h, List.getElem?_cons_succ, List.getElem?_cons_zero, show 2 * (i / 2) + 1 = i by omega]
  · rw [List.getElem?_append_right (by omega), hl, List.getElem?_drop, show w / 2 * 2 + (i - w / 2 * 2) = i by omega,
      List.getElem?_map, List.getElem?_map]
    by_cases h : i < w
    · rw [List.getElem?_range h]; simp only [Option.map_some]; rw [if_neg hi]
    · rw [List.getElem?_eq_none (by rw [List.length_range]; omega)]; rfl

/-- **C44, exact.** For every image size, the sample at `(r, c)` of the result is the input sample corrected with the levels of
position `(r % 2, c % 2)` of the 2x2 pattern, except in the last row of an odd height and the last column of an odd
width, where it is the input sample. -/
theorem C44_exact_correction_partial (corr : Nat → α → α) (raw : List α) (w h : Nat) (f : Nat → Nat → α) (hw : 0 < w)
    (hd : Holds raw w h f) :
    ∃ out, correctBlacklevelCfa corr raw w = .ok out ∧
      Holds out w h (fun r c => if r < h / 2 * 2 ∧ c < w / 2 * 2 then corr (r % 2 * 2 + c % 2) (f r c) else f r c) := by
  have hdiv : raw.length / (w * 2) = h / 2 := by
    rw [hd.1, Nat.mul_comm w 2, Nat.mul_comm h w, Nat.mul_comm 2 w, Nat.mul_div_mul_left _ _ hw]
  have hle : h / 2 * (w * 2) ≤ h * w := by
    rw [Nat.mul_comm w 2, ← Nat.mul_assoc]; exact Nat.mul_le_mul_right _ (by omega)
  have hlines : ∀ k r, (List.range w).map (fun c => if c < w / 2 * 2 then corr (k + c % 2) (f r c) else f r c) =
      (List.range (((List.range w).map (f r)).length / 2)).flatMap (fun i =>
      ((((List.range w).map (f r)).drop (2 * i)).take 1).map (corr k) ++
      ((((List.range w).map (f r)).drop (2 * i + 1)).take 1).map (corr (k + 1))) ++
      ((List.range w).map (f r)).drop (((List.range w).map (f r)).length / 2 * 2) := fun k r => (corr_line corr k w (f r)).symm
  have hf : ∀ r, r < h / 2 → ((List.range w).map (fun c => if c < w / 2 * 2 then corr (0 + c % 2) (f (2 * r) c) else f (2 * r) c) ++
      (List.range w).map (fun c => if c < w / 2 * 2 then corr (2 + c % 2) (f (2 * r + 1) c) else f (2 * r + 1) c)).length = w * 2 := by
    intro r _
    simp only [List.length_append, List.length_map, List.length_range]; omega
  refine ⟨(List.range (h / 2)).flatMap (fun r =>
    (List.range w).map (fun c => if c < w / 2 * 2 then corr (0 + c % 2) (f (2 * r) c) else f (2 * r) c) ++
    (List.range w).map (fun c => if c < w / 2 * 2 then corr (2 + c % 2) (f (2 * r + 1) c) else f (2 * r + 1) c))
      ++ raw.drop (h / 2 * (w * 2)), ?_, ?_⟩
  · rw [correctBlacklevelCfa, chunksExact, if_neg (by omega), hdiv]
    simp only [bind, Except.bind]
    congr 2
    rw [List.flatMap_def, List.map_map]
    congr 1
    apply List.map_congr_left
    intro r hr
    rw [List.mem_range] at hr
    simp only [Function.comp_apply]
    have e1 : ((raw.drop (r * (w * 2))).take (w * 2)).take w = (List.range w).map (f (2 * r)) := by
      rw [List.take_take, Nat.min_eq_left (by omega), show r * (w * 2) = 2 * r * w + 0 by ring,
        Holds.piece hd (by omega) (by omega)]
      simp
    have e2 : ((raw.drop (r * (w * 2))).take (w * 2)).drop w = (List.range w).map (f (2 * r + 1)) := by
      rw [List.drop_take, List.drop_drop, show r * (w * 2) + w = (2 * r + 1) * w + 0 by ring,
        show w * 2 - w = w by omega, Holds.piece hd (by omega) (by omega)]
      simp
    rw [e1, e2, hlines 0 (2 * r), hlines 2 (2 * r + 1)]
  · refine ⟨by rw [List.length_append, flatMap_len (h / 2) (w * 2) _ hf, List.length_drop, hd.1]; omega, ?_⟩
    intro r c hr hc
    by_cases hr2 : r < h / 2 * 2
    · have hlt : r % 2 * w + c < w * 2 := by
        rcases Nat.mod_two_eq_zero_or_one r with h | h <;> rw [h] <;> omega
      have e : r * w + c = r / 2 * (w * 2) + (r % 2 * w + c) := by
        conv => lhs; rw [← Nat.div_add_mod r 2]
        ring
      have hlt2 := mul_add_lt (r := r / 2) (n := h / 2) (by omega) hlt
      rw [e, List.getElem?_append_left (by rw [flatMap_len (h / 2) (w * 2) _ hf]; exact hlt2),
        flatMap_get (h / 2) (w * 2) _ hf (r / 2) _ (by omega) hlt]
      rcases Nat.mod_two_eq_zero_or_one r with h | h
      · rw [h, Nat.zero_mul, Nat.zero_add, List.getElem?_append_left (by simpa using hc), List.getElem?_map,
          List.getElem?_range hc, show 2 * (r / 2) = r by omega]
        simp [hr2, h]
      · rw [h, Nat.one_mul, List.getElem?_append_right (by simp), List.length_map, List.length_range, Nat.add_sub_cancel_left,
          List.getElem?_map, List.getElem?_range hc, show 2 * (r / 2) + 1 = r by omega]
        simp [hr2, h]
    · have : r = h / 2 * 2 := by omega
      subst this
      rw [List.getElem?_append_right (by
          rw [flatMap_len (h / 2) (w * 2) _ hf, Nat.mul_comm w 2, ← Nat.mul_assoc]; omega),
        flatMap_len (h / 2) (w * 2) _ hf, List.getElem?_drop, Nat.mul_comm w 2, ← Nat.mul_assoc, Nat.add_sub_cancel_left,
        hd.2 _ _ hr hc]
      simp

/-- **C44, even sizes.** For every image with an even number of rows and columns, every sample is corrected with the
levels of its position in the 2x2 pattern. -/
theorem C44_every_pixel_corrected_partial (corr : Nat → α → α) (raw : List α) (a b : Nat) (f : Nat → Nat → α) (ha : 0 < a)
    (hd : Holds raw (2 * a) (2 * b) f) :
    ∃ out, correctBlacklevelCfa corr raw (2 * a) = .ok out ∧
      Holds out (2 * a) (2 * b) (fun r c => corr (r % 2 * 2 + c % 2) (f r c)) := by
  obtain ⟨out, e, h⟩ := C44_exact_correction_partial corr raw (2 * a) (2 * b) f (by omega) hd
  exact ⟨out, e, Holds.congr h (fun r c hr hc => if_pos ⟨by omega, by omega⟩)⟩

example : correctBlacklevelCfa (fun k v => v - k) [10, 10, 10, 10] 2 = .ok [10, 9, 8, 7] := by decide

/-- C44 is false of the code for an odd width: the last column is not corrected. -/
theorem C44_odd_width_uncorrected :
    correctBlacklevelCfa (fun k v => v - k - 1) [10, 10, 10, 10, 10, 10] 3 = .ok [9, 8, 10, 7, 6, 10] := by decide

/-- C44 is false of the code for an odd height: the last row is not corrected. -/
theorem C44_odd_height_uncorrected :
    correctBlacklevelCfa (fun k v => v - k - 1) [10, 10, 10, 10, 10, 10] 2 = .ok [9, 8, 7, 6, 10, 10] := by decide

end Verif.Props
