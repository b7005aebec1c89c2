import Verif.Proofs.PixArray
/-! # C28, C30: rotating and cropping images -/

namespace Verif.Props
open Verif Verif.Pix Verif.Spec
variable {α : Type}

/-! ## C30 -/

/-- **C30.** Cropping an image to any non-empty rectangle inside it gives an image of the requested size whose pixel
`(r, c)` is the source pixel `(y + r, x + c)`; the consuming crop, the crop of colour images and the crop of plain slices
give the same. -/
theorem C30_crop_selects_pixels (p : Pix α) (a : Rect) (f : Nat → Nat → α) (hd : Holds p.data p.width p.height f)
    (hw : 0 < a.w) (hx : a.x + a.w ≤ p.width) (hy : a.y + a.h ≤ p.height) :
    ∃ q, p.crop a = .ok q ∧ q.width = a.w ∧ q.height = a.h ∧ Holds q.data a.w a.h (fun r c => f (a.y + r) (a.x + c)) ∧
      p.intoCrop a = .ok q ∧ p.cropColor a = .ok q ∧ cropSlice p.data p.width a = .ok q.data := by
  refine ⟨_, crop_ok p a f hd hw hx hy, rfl, rfl, holds_genRows _ _ (fun r c => f (a.y + r) (a.x + c)), ?_, ?_, ?_⟩
  · rw [Pix.intoCrop]
    split
    · rename_i h
      obtain ⟨h1, h2, h3, h4⟩ := h
      have h5 := holds_genRows a.h a.w (fun r c => f (a.y + r) (a.x + c))
      obtain ⟨pw, ph, pd⟩ := p
      simp only at h1 h2 hd
      subst h1 h2
      congr 2
      refine Holds.unique hd ?_
      simpa [h3, h4] using h5
    · exact crop_ok p a f hd hw hx hy
  · rw [Pix.cropColor, assert', assert', if_pos (by simpa using hy), if_pos (by simpa using hx),
      cropSlice_ok p.data p.width p.height a f hd (by omega) hx hy]
    rfl
  · exact cropSlice_ok p.data p.width p.height a f hd (by omega) hx hy

/-- **C30, composition.** Cropping twice is one crop with the composed rectangle. -/
theorem C30_crop_twice [Inhabited α] (p : Pix α) (a b : Rect) (hlen : p.data.length = p.height * p.width)
    (hw : 0 < a.w) (hx : a.x + a.w ≤ p.width) (hy : a.y + a.h ≤ p.height)
    (hbw : 0 < b.w) (hbx : b.x + b.w ≤ a.w) (hby : b.y + b.h ≤ a.h) :
    (do let q ← p.crop a; q.crop b) = p.crop ⟨a.x + b.x, a.y + b.y, b.w, b.h⟩ := by
  have hd := holds_self p.data p.width p.height hlen
  rw [crop_ok p a _ hd hw hx hy, crop_ok p ⟨a.x + b.x, a.y + b.y, b.w, b.h⟩ _ hd hbw (by simp only; omega) (by simp only; omega)]
  simp only [bind, Except.bind]
  rw [crop_ok _ b _ (holds_genRows a.h a.w _) hbw hbx hby]
  simp only [Nat.add_assoc]

/-- A rectangle that sticks out of the image is never cropped silently: the call panics. -/
theorem C30_crop_outside_panics (p : Pix α) (a : Rect) (hlen : p.data.length = p.height * p.width) (hw : 0 < a.w)
    (hh : 0 < a.h) (hout : p.width < a.x + a.w ∨ p.height < a.y + a.h) (hpw : 0 < p.width) : p.crop a = panic' := by
  rw [Pix.crop, if_neg (by omega)]
  have key : ∃ r, r < a.h ∧ (do let src ← p.row (a.y + r); slice src a.x (a.x + a.w)) = (panic' : R (List α)) := by
    by_cases hy : p.height < a.y + a.h
    · refine ⟨a.h - 1, by omega, ?_⟩
      rw [Pix.row, slice, if_neg]
      · rfl
      · rintro ⟨_, h⟩
        rw [hlen] at h
        have : (p.height) * p.width ≤ (a.y + (a.h - 1)) * p.width := Nat.mul_le_mul_right _ (by omega)
        omega
    · have hx : p.width < a.x + a.w := by omega
      refine ⟨0, hh, ?_⟩
      cases hr : p.row (a.y + 0) with
      | error e =>
        rw [Pix.row, slice] at hr
        split at hr
        · simp at hr
        · simp only [Except.error.injEq] at hr; subst hr; rfl
      | ok src =>
        rw [Pix.row, slice] at hr
        split at hr
        · simp only [Except.ok.injEq] at hr
          have hl : src.length ≤ p.width := by
            rw [← hr, List.length_take]; omega
          simp only [bind, Except.bind]
          rw [slice, if_neg (by omega)]
        · simp at hr
  obtain ⟨r, hr, he⟩ := key
  have hm : ∀ (l : List Nat) (g : Nat → R (List α)), (∀ x ∈ l, ∀ e, g x = .error e → e = .panic) →
      (∃ x ∈ l, g x = panic') → l.mapM g = panic' := by
    intro l g hg hex
    induction l with
    | nil => simp at hex
    | cons x l ih =>
      rw [List.mapM_cons]
      cases hx : g x with
      | error e => rw [hg x (by simp) e hx]; rfl
      | ok v =>
        simp only [bind, Except.bind]
        rw [ih (fun y hy => hg y (by simp [hy])) (by
          obtain ⟨y, hy, he⟩ := hex
          rcases List.mem_cons.mp hy with rfl | hy
          · rw [hx] at he; simp at he
          · exact ⟨y, hy, he⟩)]
  rw [hm _ _ ?_ ⟨r, List.mem_range.mpr hr, he⟩]
  · rfl
  · intro x _ e hxe
    have hs : ∀ (l : List α) a b e, slice l a b = .error e → e = .panic := by
      intro l a b e h
      rw [slice] at h
      split at h
      · simp at h
      · simp only [Except.error.injEq] at h; exact h.symm
    simp only [bind, Except.bind] at hxe
    split at hxe
    · rename_i e' he'
      simp only [Except.error.injEq] at hxe
      subst hxe
      exact hs _ _ _ _ he'
    · exact hs _ _ _ _ hxe

/-- The plain slice crop, in contrast, silently returns fewer rows when the rectangle reaches below the image. -/
theorem C30_slice_crop_short : cropSlice [1, 2, 3, 4] 2 ⟨0, 1, 2, 2⟩ = .ok [3, 4] := by decide

example : (Pix.mk 3 3 [0, 1, 2, 3, 4, 5, 6, 7, 8]).crop ⟨1, 1, 2, 2⟩ = .ok ⟨2, 2, [4, 5, 7, 8]⟩ := by decide

/-! ## C28 -/

/-- Rotating clockwise: output row `r`, column `c` shows the input pixel of row `h - 1 - c`, column `r`. -/
theorem C28_rotate_cw_geometry (p : Pix α) (f : Nat → Nat → α) (hd : Holds p.data p.width p.height f) (hh : 0 < p.height) :
    ∃ q, p.rotate90cw = .ok q ∧ q.width = p.height ∧ q.height = p.width ∧
      Holds q.data q.width q.height (fun r c => f (p.height - 1 - c) r) := by
  refine ⟨⟨p.height, p.width, _⟩, ?_, rfl, rfl, holds_genRows p.width p.height (fun r c => f (p.height - 1 - c) r)⟩
  rw [Pix.rotate90cw, if_neg (by omega), genRows_ok _ _ _ (fun r c => f (p.height - 1 - c) r)]
  · rfl
  · intro r c hr hc
    rw [usub, if_pos (by omega)]
    simp only [bind, Except.bind]
    rw [usub, if_pos (by omega)]
    exact at_ok p f hd (by omega) hr

/-- Rotating counter-clockwise: output row `r`, column `c` shows the input pixel of row `c`, column `w - 1 - r`. -/
theorem C28_rotate_ccw_geometry (p : Pix α) (f : Nat → Nat → α) (hd : Holds p.data p.width p.height f) (hh : 0 < p.height) :
    ∃ q, p.rotate90ccw = .ok q ∧ q.width = p.height ∧ q.height = p.width ∧
      Holds q.data q.width q.height (fun r c => f c (p.width - 1 - r)) := by
  refine ⟨⟨p.height, p.width, _⟩, ?_, rfl, rfl, holds_genRows p.width p.height (fun r c => f c (p.width - 1 - r))⟩
  rw [Pix.rotate90ccw, if_neg (by omega), genRows_ok _ _ _ (fun r c => f c (p.width - 1 - r))]
  · rfl
  · intro r c hr hc
    rw [usub, if_pos (by omega)]
    simp only [bind, Except.bind]
    rw [usub, if_pos (by omega)]
    exact at_ok p f hd hc (by omega)

/-- Rotating by 180 degrees: output row `r`, column `c` shows the input pixel of row `h - 1 - r`, column `w - 1 - c`. -/
theorem C28_rotate_180_geometry (p : Pix α) (f : Nat → Nat → α) (hd : Holds p.data p.width p.height f) :
    p.rotate180.width = p.width ∧ p.rotate180.height = p.height ∧
      Holds p.rotate180.data p.width p.height (fun r c => f (p.height - 1 - r) (p.width - 1 - c)) := by
  refine ⟨rfl, rfl, by rw [Pix.rotate180, List.length_reverse, hd.1], ?_⟩
  intro r c hr hc
  have hlt := mul_add_lt hr hc
  rw [Pix.rotate180, List.getElem?_reverse (by rw [hd.1]; exact hlt), hd.1]
  rw [← hd.2 (p.height - 1 - r) (p.width - 1 - c) (by omega) (by omega)]
  congr 1
  obtain ⟨a, ha⟩ : ∃ a, p.height = r + 1 + a := ⟨p.height - (r + 1), by omega⟩
  have e1 : p.height - 1 - r = a := by omega
  rw [e1, ha, Nat.add_mul, Nat.add_mul, Nat.one_mul]
  omega

theorem pix_ext (p q : Pix α) (f : Nat → Nat → α) (h1 : Holds p.data p.width p.height f)
    (h2 : Holds q.data q.width q.height f) (hw : p.width = q.width) (hh : p.height = q.height) : p = q := by
  obtain ⟨pw, ph, pd⟩ := p
  obtain ⟨qw, qh, qd⟩ := q
  simp only at *
  subst hw hh
  rw [Holds.unique h1 h2]

theorem Holds.congr {l : List α} {w h : Nat} {f g : Nat → Nat → α} (hd : Holds l w h f)
    (hfg : ∀ r c, r < h → c < w → f r c = g r c) : Holds l w h g :=
  ⟨hd.1, fun r c hr hc => by rw [hd.2 r c hr hc, hfg r c hr hc]⟩

/-- **C28.** For every non-empty image: clockwise then counter-clockwise and counter-clockwise then clockwise give the image
back, twice clockwise is a half turn, four times clockwise gives the image back, and so does a half turn done twice.
(`C28_rotate_cw_geometry`, `C28_rotate_ccw_geometry` and `C28_rotate_180_geometry` say where each pixel goes.) -/
theorem C28_rotations_group [Inhabited α] (p : Pix α) (hlen : p.data.length = p.height * p.width) (hw : 0 < p.width)
    (hh : 0 < p.height) :
    (do let q ← p.rotate90cw; q.rotate90ccw) = .ok p ∧ (do let q ← p.rotate90ccw; q.rotate90cw) = .ok p ∧
    (do let q ← p.rotate90cw; q.rotate90cw) = .ok p.rotate180 ∧
    (do let q ← p.rotate90cw; let q ← q.rotate90cw; let q ← q.rotate90cw; q.rotate90cw) = .ok p ∧
    p.rotate180.rotate180 = p := by
  have hd := holds_self p.data p.width p.height hlen
  have h180 := C28_rotate_180_geometry p _ hd
  obtain ⟨q, e1, qw, qh, hq⟩ := C28_rotate_cw_geometry p _ hd hh
  obtain ⟨q', e1', qw', qh', hq'⟩ := C28_rotate_ccw_geometry p _ hd hh
  obtain ⟨s, e2, sw, sh, hs⟩ := C28_rotate_ccw_geometry q _ hq (by omega)
  obtain ⟨s', e2', sw', sh', hs'⟩ := C28_rotate_cw_geometry q' _ hq' (by omega)
  obtain ⟨t, e3, tw, th, ht⟩ := C28_rotate_cw_geometry q _ hq (by omega)
  have hsp : s = p := pix_ext s p _ (Holds.congr hs (fun r c hr hc => by
    rw [sh] at hr; rw [sw] at hc
    show p.data.getD _ _ = p.data.getD _ _
    rw [show p.height - 1 - (q.width - 1 - r) = r by omega])) hd (by omega) (by omega)
  have hsp' : s' = p := pix_ext s' p _ (Holds.congr hs' (fun r c hr hc => by
    rw [sh'] at hr; rw [sw'] at hc
    show p.data.getD _ _ = p.data.getD _ _
    congr 2
    omega)) hd (by omega) (by omega)
  have htp : t = p.rotate180 := pix_ext t p.rotate180 _ ht (Holds.congr h180.2.2 (fun r c hr hc => by
    show p.data.getD _ _ = p.data.getD _ _
    congr 2
    omega)) (by rw [h180.1]; omega) (by rw [h180.2.1]; omega)
  have hpp : p.rotate180.rotate180 = p := by
    obtain ⟨a, b, c⟩ := p
    simp [Pix.rotate180]
  refine ⟨by simp only [bind, Except.bind]; rw [e1]; simp only; rw [e2, hsp],
    by simp only [bind, Except.bind]; rw [e1']; simp only; rw [e2', hsp'],
    by simp only [bind, Except.bind]; rw [e1]; simp only; rw [e3, htp], ?_, hpp⟩
  obtain ⟨u, e4, uw, uh, hu⟩ := C28_rotate_cw_geometry p.rotate180 _ (by rw [h180.1, h180.2.1]; exact h180.2.2) (by rw [h180.2.1]; exact hh)
  obtain ⟨v, e5, vw, vh, hv⟩ := C28_rotate_cw_geometry u _ hu (by rw [uh, h180.1]; exact hw)
  simp only [bind, Except.bind]
  rw [e1]; simp only
  rw [e3]; simp only
  rw [htp, e4]; simp only
  rw [e5]
  congr 1
  rw [h180.1] at uh
  rw [h180.2.1] at uw
  refine pix_ext v p _ (Holds.congr hv (fun r c hr hc => ?_)) hd (by omega) (by omega)
  rw [vh] at hr; rw [vw] at hc
  rw [h180.2.1]
  show p.data.getD _ _ = p.data.getD _ _
  congr 2
  · congr 1; omega
  · omega

example : (Pix.mk 3 2 [1, 2, 3, 4, 5, 6]).rotate90cw = .ok ⟨2, 3, [4, 1, 5, 2, 6, 3]⟩ := by decide

/-- An image without columns loses its height: rotating it twice panics. -/
theorem C28_empty_image_panics : (do let q ← (Pix.mk 0 2 ([] : List Nat)).rotate90cw; q.rotate90cw) = panic' := by decide

/-! ## the stand-alone 90 degree rotation -/

end Verif.Props
