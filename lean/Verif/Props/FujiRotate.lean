import Verif.Proofs.FujiRotate
import Verif.Proofs.FujiPlace
import Verif.Props.PixArray
/-! # C86: Fuji sensors turned by 45 degrees -/

namespace Verif.Props
open Verif Verif.Pix Verif.Color Verif.Spec Verif.Spec.FujiRotate Verif.FujiRotate

/-! ## The diagonal arrangement

Samples sit on a lattice with every second row shifted by half a step (or every second column). Counted in half steps, the sample `(row, col)` is at height `row`
and at `2 * col + row % 2` from the left. Turned by 45 degrees the lattice is a square one: place `(R, C)` has height `R + C` and distance `C - R`. -/

/-- Shifted rows: every sample of the active area is at its place on the turned lattice, all other places are zero. -/
theorem C86_shifted_rows (src : List Nat) (f : Nat → Nat → Nat) (width x y cw ch : Nat) (h0 : 0 < cw) (h1 : 0 < ch) (hev : ch % 2 = 0) (hx : x + cw ≤ width)
    (hs : ∀ r c, r < ch → c < cw → src[(y + r) * width + (x + c)]? = some (f r c)) :
    ∃ out, rotateImage src width x y cw ch false = .ok (⟨cw + ch / 2, cw + ch / 2 - 1, out⟩, cw) ∧ out.length = (cw + ch / 2) * (cw + ch / 2 - 1) ∧
      (∀ row col R C, row < ch → col < cw → R + C = row + (cw - 1) → C + (cw - 1) = R + (2 * col + row % 2) →
        out[R * (cw + ch / 2) + C]? = some (f row col)) ∧
      (∀ R C, R < cw + ch / 2 - 1 → C < cw + ch / 2 →
        (∀ row col, row < ch → col < cw → ¬ (R + C = row + (cw - 1) ∧ C + (cw - 1) = R + (2 * col + row % 2))) → out[R * (cw + ch / 2) + C]? = some 0) := by
  obtain ⟨out, e, hp⟩ := rotateImage_ok src f width x y cw ch false h0 h1 (by simpa using hev) hx hs
  simp only [Bool.false_eq_true, if_false] at e hp
  refine ⟨out, e, hp.len, ?_, ?_⟩
  · intro row col R C hr hc a b
    have := hp.put row col ⟨hr, hc⟩
    simp only [placeRow, placeCol, Bool.false_eq_true, if_false] at this
    rw [show R = cw - 1 - col + row / 2 by omega, show C = (row + 1) / 2 + col by omega]
    exact this
  · intro R C hR hC hno
    refine hp.rest _ (pair_lt hC hR) ?_
    intro row col hd he
    simp only [placeRow, placeCol, Bool.false_eq_true, if_false] at he
    obtain ⟨e1, e2⟩ := pair_inj (by omega) hC he
    exact hno row col hd.1 hd.2 (by omega)

/-- Shifted columns: the same with height `2 * row + col % 2` and distance `col`. -/
theorem C86_shifted_columns (src : List Nat) (f : Nat → Nat → Nat) (width x y cw ch : Nat) (h0 : 0 < cw) (h1 : 0 < ch) (hev : cw % 2 = 0) (hx : x + cw ≤ width)
    (hs : ∀ r c, r < ch → c < cw → src[(y + r) * width + (x + c)]? = some (f r c)) :
    ∃ out, rotateImage src width x y cw ch true = .ok (⟨ch + cw / 2, ch + cw / 2 - 1, out⟩, ch) ∧ out.length = (ch + cw / 2) * (ch + cw / 2 - 1) ∧
      (∀ row col R C, row < ch → col < cw → R + C + 1 = 2 * row + col % 2 + cw / 2 → C + cw / 2 = R + col + 1 → out[R * (ch + cw / 2) + C]? = some (f row col)) ∧
      (∀ R C, R < ch + cw / 2 - 1 → C < ch + cw / 2 →
        (∀ row col, row < ch → col < cw → ¬ (R + C + 1 = 2 * row + col % 2 + cw / 2 ∧ C + cw / 2 = R + col + 1)) → out[R * (ch + cw / 2) + C]? = some 0) := by
  obtain ⟨out, e, hp⟩ := rotateImage_ok src f width x y cw ch true h0 h1 (by simpa using hev) hx hs
  simp only [if_true] at e hp
  refine ⟨out, e, hp.len, ?_, ?_⟩
  · intro row col R C hr hc a b
    have := hp.put row col ⟨hr, hc⟩
    simp only [placeRow, placeCol, if_true] at this
    rw [show R = cw / 2 - 1 + row - col / 2 by omega, show C = (col + 1) / 2 + row by omega]
    exact this
  · intro R C hR hC hno
    refine hp.rest _ (pair_lt hC hR) ?_
    intro row col hd he
    simp only [placeRow, placeCol, if_true] at he
    obtain ⟨e1, e2⟩ := pair_inj (by omega) hC he
    exact hno row col hd.1 hd.2 (by omega)

/-- An odd number of shifted rows makes the program abort, and so does an odd number of shifted columns. -/
theorem C86_odd_panics : rotateImage (List.range 6) 2 0 0 2 3 false = panic' ∧ rotateImage (List.range 6) 3 0 0 3 2 true = panic' := by
  constructor <;> rfl

/-- The area is what lies within the borders given for the camera. -/
theorem C86_active (src : List Nat) (width height x y right bottom : Nat) (alt : Bool) (hw : x + right ≤ width) (hh : y + bottom ≤ height) :
    rotateActive src width height (x, y, right, bottom) alt = rotateImage src width x y (width - right - x) (height - bottom - y) alt := by
  have e : ∀ a b, b ≤ a → usub a b = .ok (a - b) := fun a b h => by unfold usub; rw [if_pos h]
  unfold rotateActive
  simp only [bind, Except.bind, e width right (by omega), e (width - right) x (by omega), e height bottom (by omega), e (height - bottom) y (by omega)]

example : ∃ out, rotateImage (List.range 40) 8 1 0 6 4 false = .ok (⟨8, 7, out⟩, 6) ∧ out[4 * 8 + 2]? = some (8 * 1 + 1 + 1) := by
  obtain ⟨out, e, _, h, _⟩ := C86_shifted_rows (List.range 40) (fun r c => 8 * r + (1 + c)) 8 1 0 6 4 (by decide) (by decide) (by decide) (by decide)
    (fun r c hr hc => by rw [List.getElem?_range (by omega)]; congr 1; omega)
  exact ⟨out, e, h 1 1 4 2 (by decide) (by decide) (by decide) (by decide)⟩

example : ∃ out, rotateImage (List.range 40) 8 1 0 6 4 true = .ok (⟨7, 6, out⟩, 4) ∧ out[3 * 7 + 2]? = some (8 * 1 + 1 + 1) := by
  obtain ⟨out, e, _, h, _⟩ := C86_shifted_columns (List.range 40) (fun r c => 8 * r + (1 + c)) 8 1 0 6 4 (by decide) (by decide) (by decide) (by decide)
    (fun r c hr hc => by rw [List.getElem?_range (by omega)]; congr 1; omega)
  exact ⟨out, e, h 1 1 3 2 (by decide) (by decide) (by decide) (by decide)⟩

/-! ## Turning back -/

/-- The sides of the result are the diagonals of squares with sides `t` and `w - t`, rounded down, the longer one first. -/
theorem C86_size (w t : Nat) (ht : t ≤ w) (hw : w < 2 ^ 24) : ∃ W H, calcDimension w t = (W, H) ∧ H ≤ W ∧
    (∃ a b, (a = t ∧ b = w - t ∨ a = w - t ∧ b = t) ∧ W ^ 2 ≤ 2 * a ^ 2 ∧ 2 * a ^ 2 < (W + 1) ^ 2 ∧ H ^ 2 ≤ 2 * b ^ 2 ∧ 2 * b ^ 2 < (H + 1) ^ 2) := by
  rw [calcDimension_eq w t ht hw]
  have a1 := Nat.sqrt_le' (2 * t ^ 2)
  have a2 := Nat.lt_succ_sqrt' (2 * t ^ 2)
  have b1 := Nat.sqrt_le' (2 * (w - t) ^ 2)
  have b2 := Nat.lt_succ_sqrt' (2 * (w - t) ^ 2)
  refine ⟨_, _, rfl, min_le_max, ?_⟩
  rcases Nat.le_total (Nat.sqrt (2 * t ^ 2)) (Nat.sqrt (2 * (w - t) ^ 2)) with h | h
  · rw [max_eq_right h, min_eq_left h]
    exact ⟨w - t, t, .inr ⟨rfl, rfl⟩, b1, b2, a1, a2⟩
  · rw [max_eq_left h, min_eq_right h]
    exact ⟨t, w - t, .inl ⟨rfl, rfl⟩, a1, a2, b1, b2⟩

/-- The picture with the diagonal lattice is turned by 45 degrees: every pixel shows the point it comes from. Missing: the lower left pixel when the picture has one
column more than rows, as the pictures of `C86_shifted_rows` have; it is black when its point is less than half a pixel within the picture. -/
theorem C86_turned_partial (src : Pix Rgb) (f : Nat → Nat → Rgb) (hs : Holds src.data src.width src.height f) (t : Nat) (ht : t ≤ src.width)
    (hw : src.width < 2 ^ 24) (hwh : src.width ≤ src.height + 1) :
    ∃ W H out g, calcDimension src.width t = (W, H) ∧ normalizeRotation src t false = .ok ⟨W, H, out⟩ ∧ Holds out W H g ∧
      (∀ row col, row < H → col < W → src.width ≤ src.height ∨ row + 1 < H ∨ 0 < col → ∀ k,
        Shows (fun r c => chan k (f r c)) src.width src.height (fromX src.width W H row col) (fromY src.height W H row col) (chan k (g row col))) ∧
      (0 < H → (src.height : ℚ) - 1 / 2 ≤ fromY src.height W H (H - 1) 0 → 0 < W → g (H - 1) 0 = (0, 0, 0)) := by
  obtain ⟨W, H, hd⟩ : ∃ W H, calcDimension src.width t = (W, H) := ⟨_, _, rfl⟩
  obtain ⟨out, g, e, h1, h2⟩ := rotate45_ok src f hs t W H hd
  refine ⟨W, H, out, g, hd, e, h1, ?_, ?_⟩
  · intro row col hr hc hcorner
    exact (h2 row col hr hc).1 (seen src.width src.height t W H row col ht hw hwh hd hr hc hcorner)
  · intro hH hy hW
    refine (h2 (H - 1) 0 (by omega) hW).2 ?_
    rintro ⟨_, _, _, h⟩
    linarith

/-- With the hint for an extra quarter turn, the picture is first turned clockwise by 90 degrees. The result has no black pixels when it is at least as wide as high. -/
theorem C86_turned_extra (src : Pix Rgb) (f : Nat → Nat → Rgb) (hs : Holds src.data src.width src.height f) (t : Nat) (ht : t ≤ src.height)
    (hw : src.height < 2 ^ 24) (hwh : src.height ≤ src.width) (h0 : 0 < src.height) :
    ∃ W H out g, calcDimension src.height t = (W, H) ∧ normalizeRotation src t true = .ok ⟨W, H, out⟩ ∧ Holds out W H g ∧
      (∀ row col, row < H → col < W → ∀ k,
        Shows (fun r c => chan k (f (src.height - 1 - c) r)) src.height src.width (fromX src.height W H row col) (fromY src.width W H row col) (chan k (g row col))) := by
  obtain ⟨q, e, hqw, hqh, hq⟩ := C28_rotate_cw_geometry src f hs h0
  obtain ⟨W, H, hd⟩ : ∃ W H, calcDimension q.width t = (W, H) := ⟨_, _, rfl⟩
  obtain ⟨out, g, e', h1, h2⟩ := rotate45_ok q (fun r c => f (src.height - 1 - c) r) hq t W H hd
  rw [hqw] at hd
  rw [hqw, hqh] at h2
  refine ⟨W, H, out, g, hd, ?_, h1, ?_⟩
  · unfold normalizeRotation
    rw [if_pos rfl, e]
    exact e'
  · intro row col hr hc
    exact (h2 row col hr hc).1 (seen src.height src.width t W H row col ht hw (by omega) hd hr hc (.inl hwh))

/-- For any size and any rotation width the program ends with a picture; each pixel is black or shows its point. -/
theorem C86_never_panics (src : Pix Rgb) (f : Nat → Nat → Rgb) (hs : Holds src.data src.width src.height f) (t : Nat) :
    ∃ W H out g, normalizeRotation src t false = .ok ⟨W, H, out⟩ ∧ Holds out W H g ∧ ∀ row col, row < H → col < W → g row col = (0, 0, 0) ∨ ∀ k,
      Shows (fun r c => chan k (f r c)) src.width src.height (fromX src.width W H row col) (fromY src.height W H row col) (chan k (g row col)) := by
  obtain ⟨W, H, hd⟩ : ∃ W H, calcDimension src.width t = (W, H) := ⟨_, _, rfl⟩
  obtain ⟨out, g, e, h1, h2⟩ := rotate45_ok src f hs t W H hd
  refine ⟨W, H, out, g, e, h1, fun row col hr hc => ?_⟩
  by_cases hsn : Seen src.width src.height (fromX src.width W H row col) (fromY src.height W H row col)
  · exact .inr ((h2 row col hr hc).1 hsn)
  · exact .inl ((h2 row col hr hc).2 hsn)

/-- What is shown lies between the smallest and the largest number of the picture. -/
theorem C86_between (f : Nat → Nat → ℚ) (w h : Nat) (x y v lo hi : ℚ) (hv : Shows f w h x y v) (hf : ∀ i j, i < h → j < w → lo ≤ f i j ∧ f i j ≤ hi) :
    lo ≤ v ∧ v ≤ hi :=
  ⟨shows_ge f w h x y v lo hv fun i j hi hj => (hf i j hi hj).1, shows_le f w h x y v hi hv fun i j hi hj => (hf i j hi hj).2⟩

/-- A plane picture (the numbers grow evenly to the right and downwards) shows the plane, exactly within the picture and up to half a step at its edge. -/
theorem C86_plane (f : Nat → Nat → ℚ) (w h : Nat) (x y v a b d : ℚ) (hv : Shows f w h x y v) (hf : ∀ i j, i < h → j < w → f i j = a + b * j + d * i) :
    (Enclosed w h x y → v = a + b * x + d * y) ∧ |v - (a + b * x + d * y)| ≤ (|b| + |d|) / 2 := shows_ramp f w h x y v a b d hv hf

/-- A picture of one colour keeps it. -/
theorem C86_flat (src : Pix Rgb) (c : Rgb) (hs : Holds src.data src.width src.height fun _ _ => c) (t : Nat) (ht : t ≤ src.width)
    (hw : src.width < 2 ^ 24) (hwh : src.width ≤ src.height) :
    ∃ W H out, normalizeRotation src t false = .ok ⟨W, H, out⟩ ∧ Holds out W H fun _ _ => c := by
  obtain ⟨W, H, out, g, _, e, h1, h2, _⟩ := C86_turned_partial src _ hs t ht hw (by omega)
  refine ⟨W, H, out, e, h1.1, fun row col hr hc => ?_⟩
  rw [h1.2 row col hr hc]
  have key : ∀ k, chan k (g row col) = chan k c := by
    intro k
    have := C86_between _ _ _ _ _ _ (chan k c) (chan k c) (h2 row col hr hc (.inl hwh) k) (fun _ _ _ _ => ⟨le_refl _, le_refl _⟩)
    exact le_antisymm this.2 this.1
  exact congrArg some (Prod.ext (key 0) (Prod.ext (key 1) (key 2)))

/-- A white picture of ten by nine pixels, as the diagonal arrangement has it, gets a black corner. -/
theorem C86_black_corner : ∃ out, normalizeRotation ⟨10, 9, List.replicate 90 ((1, 1, 1) : Rgb)⟩ 5 false = .ok ⟨7, 7, out⟩ ∧
    out[6 * 7 + 0]? = some (0, 0, 0) ∧ out[0 * 7 + 0]? = some (1, 1, 1) := by
  have hs : Holds (List.replicate 90 ((1, 1, 1) : Rgb)) 10 9 fun _ _ => (1, 1, 1) :=
    ⟨by simp, fun r c hr hc => List.getElem?_replicate_of_lt (by omega)⟩
  have hd : calcDimension 10 5 = (7, 7) := by
    rw [calcDimension_eq 10 5 (by decide) (by decide)]
    decide +kernel
  obtain ⟨W, H, out, g, hd', e, h1, h2, h3⟩ := C86_turned_partial ⟨10, 9, List.replicate 90 ((1, 1, 1) : Rgb)⟩ _ hs 5 (by decide) (by decide) (by decide)
  simp only at hd' h2 h3
  rw [hd] at hd'
  obtain ⟨rfl, rfl⟩ := Prod.mk.inj hd'
  refine ⟨out, e, ?_, ?_⟩
  · rw [h1.2 6 0 (by decide) (by decide), h3 (by decide) (by unfold fromY cos45; norm_num) (by decide)]
  · rw [h1.2 0 0 (by decide) (by decide)]
    have key : ∀ k, chan k (g 0 0) = chan k (1, 1, 1) := by
      intro k
      have := C86_between _ _ _ _ _ _ (chan k (1, 1, 1)) (chan k (1, 1, 1)) (h2 0 0 (by decide) (by decide) (by decide) k) (fun _ _ _ _ => ⟨le_refl _, le_refl _⟩)
      exact le_antisymm this.2 this.1
    exact congrArg some (Prod.ext (key 0) (Prod.ext (key 1) (key 2)))

/-- The size that the crop area is computed for is that of the picture without the extra quarter turn, which can be larger. -/
theorem C86_extra_other_size : calcDimension 4000 3000 = (4242, 1414) ∧ calcDimension 3999 3000 = (4242, 1412) := by
  constructor
  · rw [calcDimension_eq 4000 3000 (by decide) (by decide)]; decide +kernel
  · rw [calcDimension_eq 3999 3000 (by decide) (by decide)]; decide +kernel

example : ∃ W H out, normalizeRotation ⟨10, 10, List.replicate 100 ((1, 1 / 2, 0) : Rgb)⟩ 6 false = .ok ⟨W, H, out⟩ ∧ Holds out W H fun _ _ => (1, 1 / 2, 0) :=
  C86_flat _ _ ⟨by simp, fun r c hr hc => List.getElem?_replicate_of_lt (by simp only at hr hc ⊢; omega)⟩ 6 (by decide) (by decide) (by decide)

example : ∃ W H out g, calcDimension 9 5 = (W, H) ∧ normalizeRotation ⟨10, 9, List.replicate 90 ((1, 1 / 2, 0) : Rgb)⟩ 5 true = .ok ⟨W, H, out⟩ ∧ Holds out W H g := by
  obtain ⟨W, H, out, g, a, b, c, _⟩ := C86_turned_extra ⟨10, 9, List.replicate 90 ((1, 1 / 2, 0) : Rgb)⟩ (fun _ _ => (1, 1 / 2, 0))
    ⟨by simp, fun r c hr hc => List.getElem?_replicate_of_lt (by simp only at hr hc ⊢; omega)⟩ 5 (by decide) (by decide) (by decide) (by decide)
  exact ⟨W, H, out, g, a, b, c⟩

example : Shows (fun i j => (j : ℚ) + 2 * i) 10 9 (5 / 2) 3 (17 / 2) := by
  constructor
  · intro _
    unfold between
    norm_num
    rw [show (Int.toNat 2) = 2 from rfl, show (Int.toNat 3) = 3 from rfl]
    norm_num
  · intro hn
    exfalso
    apply hn
    unfold Enclosed
    norm_num

end Verif.Props
