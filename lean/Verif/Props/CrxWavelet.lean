import Verif.Proofs.CrxPlane

/-!
# C54: decoding a wavelet compressed plane inverts the wavelet transform

Specification: `Verif/Spec/Wavelet.lean` (the forward transform 5/3 of JPEG 2000).
Model: `Verif/Model/CrxWavelet.lean` (the inverse transform as the code performs it, line by line, with its line buffers).
-/

namespace Verif.Props

open Verif.Crx Verif.Wav

/-- No tile next to this one -/
abbrev alone : Flags := ⟨false, false, false, false⟩

/-- C54, one tile: take any image of `h` times `w` samples and any number of levels, transform it, and let the sources give, line
by line, the bands of the transform. Then the decoder returns exactly the lines of the image: no arithmetic overflow, no index out of
range, no missing or additional line. -/
theorem C54_plane {P : Type} (next : P → R (List Int × P)) (k h w : Nat) (hk : 0 < k) (rows : List (List Int)) (hr : Rect h w rows)
    (hs : SizesOK (planeSizes k h w)) (B : Int) (hB : 0 ≤ B) (hbd : RowsBd B rows) (hlim : (B + 2) * 4 ^ (k - 1) ≤ 190000002)
    (ps : List (P × P × P)) (ll : P) (hg : GivesAll next ps (forward k h w rows).1) (hl : Gives next ll (forward k h w rows).2) :
    wavePlane next alone h w (newLevels (planeSizes k h w) ps) ll = .ok rows :=
  plane_ok next k h w hk rows hr hs (levelsBd_of k h w rows B hB hbd hlim) ps ll hg hl

/-- C54, the other direction: whatever the bands contain, as long as they have the right sizes and the coefficients are small enough, they
are the transform of an image, and this image is what the decoder returns. -/
theorem C54_bands {P : Type} (next : P → R (List Int × P)) (bs : List Bands3) (hk : bs ≠ []) (l0 : List (List Int)) (h w : Nat)
    (hsh : Shape bs l0 h w) (hs : SizesOK (planeSizes bs.length h w)) (M : Int) (hM : 0 ≤ M) (h0 : RowsBd M l0)
    (h1 : ∀ b ∈ bs, RowsBd M b.1 ∧ RowsBd M b.2.1 ∧ RowsBd M b.2.2) (hlim : 9 ^ bs.length * (2 * M + 3) ≤ 380000003)
    (ps : List (P × P × P)) (ll : P) (hg : GivesAll next ps bs) (hl : Gives next ll l0) :
    ∃ rows, Rect h w rows ∧ forward bs.length h w rows = (bs, l0) ∧
      wavePlane next alone h w (newLevels (planeSizes bs.length h w) ps) ll = .ok rows := by
  have hpos : 0 < bs.length := List.length_pos_iff.mpr hk
  have hmem : (h, w) ∈ planeSizes bs.length h w := by
    cases bs with
    | nil => exact absurd rfl hk
    | cons b bs => simp [planeSizes]
  have hsz := hs _ hmem
  simp only at hsz
  obtain ⟨rows, B, r, _, _, _, lv, f⟩ := forward_surj bs l0 h w M (by omega) (by omega) hsh hM h0 h1 hlim
  exact ⟨rows, r, f, plane_ok next _ h w hpos rows r hs lv ps ll (by rw [f]; exact hg) (by rw [f]; exact hl)⟩

/-- C54, tiles side by side: if the sources give the part of the bands that belongs to the tile beginning in column `x0` (with the
coefficients it shares with its neighbours), the decoder returns the samples of the tile. -/
theorem C54_tile {P : Type} (next : P → R (List Int × P)) (f : Flags) (ht : f.top = false) (hb : f.bottom = false) (t : TileW) (ts : List TileW)
    (h w x0 wl : Nat) (rows : List (List Int)) (hr : Rect h w rows) (ok : TileOK f.left f.right (t :: ts) h w x0 wl)
    (B : Int) (hB : 0 ≤ B) (hbd : RowsBd B rows) (hlim : (B + 2) * 4 ^ ts.length ≤ 190000002)
    (ps : List (P × P × P)) (ll : P) (hg : GivesAll next ps (tileBands f.left (t :: ts) h w x0 wl rows).1)
    (hl : Gives next ll (tileBands f.left (t :: ts) h w x0 wl rows).2) :
    wavePlane next f h t.w (newLevels (tileSizes (t :: ts) h) ps) ll = .ok (rows.map fun row => (row.drop x0).take t.w) :=
  tile_ok next f ht hb t ts h w x0 wl rows hr.1 hr.2 ok (levelsBd_of _ h w rows B hB hbd (by simpa using hlim)) ps ll hg hl

/-- C54, what cannot be decoded: an image with a level of height 2 or of width 2. -/
theorem C54_size_two {P : Type} (next : P → R (List Int × P)) (f : Flags) (h w : Nat) (sizes : List (Nat × Nat)) (ps : List (P × P × P)) (ll : P)
    (hl : sizes.length ≤ ps.length) (hs : ∃ s ∈ sizes, s.1 = 2 ∨ s.2 = 2) (r : List (List Int)) :
    wavePlane next f h w (newLevels sizes ps) ll ≠ .ok r := by
  intro e
  unfold wavePlane at e
  obtain ⟨⟨ls, ll1⟩, e1, _⟩ := bind_inv _ _ _ e
  exact filterInit_two f sizes ps ll _ hl hs e1

/-- C54, what cannot be decoded: a tile with another tile below. Whatever the bands contain, the decoder does not return the lines of the tile. -/
theorem C54_tile_below {P : Type} (next : P → R (List Int × P)) (f : Flags) (hf : f.bottom = true) (h w : Nat) (hh : 2 ≤ h)
    (sizes : List (Nat × Nat)) (ps : List (P × P × P)) (ll : P) (r : List (List Int)) :
    wavePlane next f h w (newLevels ((h, w) :: sizes) ps) ll ≠ .ok r :=
  wavePlane_bottom f hf h w hh sizes ps ll r

/-! ## The hypotheses are met -/

/-- A source that is a list of lines -/
def listNext : List (List Int) → R (List Int × List (List Int))
  | [] => fail'
  | l :: ls => .ok (l, ls)

theorem listNext_gives (l : List (List Int)) : Gives listNext l l := by
  induction l with
  | nil => trivial
  | cons a l ih => exact ⟨l, rfl, ih⟩

theorem listNext_givesAll (bs : List Bands3) : GivesAll listNext bs bs := by
  induction bs with
  | nil => trivial
  | cons b bs ih => exact ⟨⟨listNext_gives _, listNext_gives _, listNext_gives _⟩, ih⟩

/-- An image with 11 rows of 13 samples of 14 bits -/
def picture : List (List Int) := (List.range 11).map fun r => (List.range 13).map fun c => ((1237 * r * r + 911 * c * c + 3001 * c * r) % 16384 : Nat)

theorem picture_rect : Rect 11 13 picture := by unfold Rect; decide +kernel
theorem picture_bd : RowsBd 16383 picture := by unfold RowsBd; decide +kernel

/-- Three levels, as the code uses them -/
example : wavePlane listNext alone 11 13 (newLevels (planeSizes 3 11 13) (forward 3 11 13 picture).1) (forward 3 11 13 picture).2 = .ok picture :=
  C54_plane listNext 3 11 13 (by decide) picture picture_rect (by decide) 16383 (by decide) picture_bd (by decide) _ _
    (listNext_givesAll _) (listNext_gives _)

/-- The transform is not trivial: the low band of the picture is not a part of the picture. -/
example : ((forward 1 11 13 picture).2.getD 1 []).getD 1 0 ≠ (picture.getD 2 []).getD 2 0 := by decide +kernel

/-- A tile of the same picture: 6 columns at the left, with a neighbour to the right, two levels -/
example : ∃ b, tileBands false [⟨6, 5, 5⟩, ⟨4, 3, 4⟩] 11 13 0 3 picture = b ∧
    wavePlane listNext ⟨false, false, false, true⟩ 11 6 (newLevels (tileSizes [⟨6, 5, 5⟩, ⟨4, 3, 4⟩] 11) b.1) b.2
      = .ok (picture.map fun row => (row.drop 0).take 6) :=
  ⟨_, rfl, C54_tile listNext ⟨false, false, false, true⟩ rfl rfl ⟨6, 5, 5⟩ [⟨4, 3, 4⟩] 11 13 0 3 picture picture_rect
    (by simp [TileOK, needLow, needHigh, belowW]) 16383 (by decide) picture_bd (by decide) _ _ (listNext_givesAll _) (listNext_gives _)⟩

/-- ... and the 5 columns at the right, with a neighbour to the left -/
example : ∃ b, tileBands true [⟨5, 3, 3⟩, ⟨3, 2, 2⟩] 11 13 8 2 picture = b ∧
    wavePlane listNext ⟨false, false, true, false⟩ 11 5 (newLevels (tileSizes [⟨5, 3, 3⟩, ⟨3, 2, 2⟩] 11) b.1) b.2
      = .ok (picture.map fun row => (row.drop 8).take 5) :=
  ⟨_, rfl, C54_tile listNext ⟨false, false, true, false⟩ rfl rfl ⟨5, 3, 3⟩ [⟨3, 2, 2⟩] 11 13 8 2 picture picture_rect
    (by simp [TileOK, needLow, needHigh, belowW]) 16383 (by decide) picture_bd (by decide) _ _ (listNext_givesAll _) (listNext_gives _)⟩

/-- Bands that nobody has transformed -/
def someBands : Bands3 :=
  ([[7, -8], [900, 3], [0, 12]], [[1, 2, 3], [-4, 5, -600]], [[10, -20], [30, -40]])

example : ∃ rows, Rect 5 5 rows ∧ forward 1 5 5 rows = ([someBands], [[100, 200, 300], [-7, 8, 9], [1000, 2000, -3000]]) ∧
    wavePlane listNext alone 5 5 (newLevels (planeSizes 1 5 5) [someBands]) [[100, 200, 300], [-7, 8, 9], [1000, 2000, -3000]] = .ok rows :=
  C54_bands listNext [someBands] (by simp) _ 5 5 (by simp [Shape, Rect, someBands]) (by decide) 3000 (by decide)
    (by unfold RowsBd; decide) (by simp [RowsBd, someBands]) (by decide) [someBands] _ (listNext_givesAll _) (listNext_gives _)

/-- A plane of 6 lines with 2 levels has 3 lines in the second level and can be decoded; with 3 levels it has 2 in the third. -/
example : SizesOK (planeSizes 2 6 9) ∧ ¬SizesOK (planeSizes 3 6 9) := by decide

end Verif.Props
