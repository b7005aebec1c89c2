import Verif.Props.Dng
/-! # Black levels and areas in DNG tags -/

namespace Verif.Props
open Verif Verif.Dng Verif.Spec Verif.Pix

/-! ## Black level (C24) -/

theorem flatten_flatMap' {α : Type} (n : Nat) (f : Nat → List (List α)) :
    ((List.range n).flatMap f).flatten = (List.range n).flatMap (fun r => (f r).flatten) := by
  induction n with
  | zero => rfl
  | succ n ih => rw [List.range_succ, List.flatMap_append, List.flatten_append, ih, List.flatMap_append]; simp

theorem cell_index (r j p w n : Nat) : (r * w + j) * n + p = r * (w * n) + (j * n + p) := by
  rw [Nat.add_mul, Nat.mul_assoc, Nat.add_assoc]

theorem cell_bound {r j h w n : Nat} (hr : r < h) (hj : j < w) : r * w * n + j * n + n ≤ h * w * n := by
  have h1 : r * w + j + 1 ≤ h * w := mul_add_lt hr hj
  have h2 := Nat.mul_le_mul_right n h1
  rw [Nat.add_mul, Nat.add_mul, Nat.one_mul] at h2
  exact h2

/-- `BlackLevel::shift` -/
theorem black_shift (b : BlackLevel) (hw : 0 < b.width) (hh : 0 < b.height) (hl : b.levels.length = b.height * b.width * b.cpp) (x y : Nat) :
    ∃ s, b.shift x y = .ok s ∧ s.width = b.width ∧ s.height = b.height ∧ s.cpp = b.cpp ∧ s.levels.length = b.height * b.width * b.cpp ∧
      (∀ r j p, r < b.height → j < b.width → p < b.cpp →
        s.levels[(r * b.width + j) * b.cpp + p]? = b.levels[((r + y) % b.height * b.width + (j + x) % b.width) * b.cpp + p]?) ∧
      ∀ l ∈ s.levels, l ∈ b.levels := by
  unfold BlackLevel.shift
  split
  · rename_i h1
    have h3 : b.cpp * b.width ∣ 1 := ⟨b.height, h1.symm⟩
    have hh1 : b.height ∣ 1 := ⟨b.cpp * b.width, by rw [Nat.mul_comm]; exact h1.symm⟩
    have hw1 : b.width ∣ 1 := Nat.dvd_trans (Nat.dvd_mul_left _ _) h3
    have eh := Nat.dvd_one.mp hh1
    have ew := Nat.dvd_one.mp hw1
    refine ⟨b, rfl, rfl, rfl, rfl, hl, ?_, fun l h => h⟩
    intro r j p hr hj _
    rw [eh] at hr ⊢
    rw [ew] at hj ⊢
    rw [Nat.mod_one, Nat.mod_one, show r = 0 by omega, show j = 0 by omega]
  · let cell := fun (yn xn : Nat) => (b.levels.drop ((yn + y) % b.height * b.width * b.cpp + (xn + x) % b.width * b.cpp)).take b.cpp
    have hcl : ∀ r j, (cell r j).length = b.cpp := by
      intro r j
      have := cell_bound (n := b.cpp) (Nat.mod_lt (r + y) hh) (Nat.mod_lt (j + x) hw)
      simp only [cell, List.length_take, List.length_drop]
      omega
    rw [genRows_ok b.height b.width _ cell]
    · simp only [bind, Except.bind]
      have hdrop : b.levels.drop (b.height * b.width * b.cpp) = [] := by rw [← hl]; simp
      have hrow : ∀ r, r < b.height → ((List.range b.width).flatMap (cell r)).length = b.width * b.cpp :=
        fun r _ => flatMap_len _ _ _ (fun j _ => hcl r j)
      have hfl : ((List.range b.height).flatMap fun r => (List.range b.width).map (cell r)).flatten =
          (List.range b.height).flatMap fun r => (List.range b.width).flatMap (cell r) := by
        rw [flatten_flatMap']; simp only [List.flatMap_def]
      refine ⟨_, rfl, rfl, rfl, rfl, ?_, ?_, ?_⟩
      · dsimp only
        rw [hdrop, List.append_nil, hfl, flatMap_len _ _ _ hrow, Nat.mul_assoc]
      · intro r j p hr hj hp
        dsimp only
        rw [hdrop, List.append_nil, hfl, cell_index, flatMap_get _ _ _ hrow r _ hr (mul_add_lt hj hp),
          flatMap_get _ _ _ (fun j _ => hcl r j) j p hj hp]
        simp only [cell]
        rw [List.getElem?_take, if_pos hp, List.getElem?_drop, Nat.add_mul]
      · intro l hl'
        dsimp only at hl'
        rw [hdrop, List.append_nil, hfl] at hl'
        simp only [List.mem_flatMap] at hl'
        obtain ⟨_, _, _, _, h⟩ := hl'
        exact List.mem_of_mem_drop (List.mem_of_mem_take h)
    · intro r j _ _
      have := cell_bound (n := b.cpp) (Nat.mod_lt (r + y) hh) (Nat.mod_lt (j + x) hw)
      rw [slice_ok _ _ _ (by omega) (by omega)]
      simp only [cell]
      rw [Nat.add_sub_cancel_left]

/-- The fractions a `BlackLevel` tag stands for -/
def tagLevels : LevelTag → List (Nat × Nat)
  | .short v => v.map fun n => (n, 1)
  | .long v => v.map fun n => (n, 1)
  | .rational v => v

/-- The numbers of a `BlackLevel` tag fit their type -/
def LevelFits : LevelTag → Prop
  | .short v => ∀ n ∈ v, n < 2 ^ 16
  | .long v => ∀ n ∈ v, n < 2 ^ 32
  | .rational v => ∀ n ∈ v, n.1 < 2 ^ 32 ∧ n.2 < 2 ^ 32

/-- A black level pattern of an image: non-empty, 16 bit sizes, 32 bit fractions -/
def IsBlack (b : BlackLevel) : Prop :=
  0 < b.width ∧ 0 < b.height ∧ b.width < 2 ^ 16 ∧ b.height < 2 ^ 16 ∧ b.levels.length = b.height * b.width * b.cpp ∧
    ∀ l ∈ b.levels, l.1 < 2 ^ 32 ∧ l.2 < 2 ^ 32

theorem map_fst_one (l : List (Nat × Nat)) (h : ∀ x ∈ l, x.2 = 1) : (l.map (·.1)).map (fun n => (n, 1)) = l := by
  rw [List.map_map]
  apply List.ext_getElem (by simp)
  intro i h1 h2
  rw [List.getElem_map]
  have := h _ (List.getElem_mem h2)
  rw [Function.comp]
  exact Prod.ext rfl this.symm

/-- the tags written hold the shifted pattern -/
theorem black_write (b : BlackLevel) (hb : IsBlack b) (x y : Nat) :
    ∃ s tags, b.shift x y = .ok s ∧ writeBlack b x y = .ok tags ∧ tags.dim = [b.height, b.width] ∧ tagLevels tags.levels = s.levels ∧
      LevelFits tags.levels := by
  obtain ⟨hw, hh, hw', hh', hl, hv⟩ := hb
  obtain ⟨s, e, e1, e2, e3, e4, -, e6⟩ := black_shift b hw hh hl x y
  rw [writeBlack, e]
  simp only [bind, Except.bind]
  rw [e1, e2, Nat.mod_eq_of_lt hw', Nat.mod_eq_of_lt hh']
  split
  · rename_i h1
    have hone : ∀ l ∈ s.levels, l.2 = 1 := fun l h => by
      have := List.all_eq_true.mp h1 l h
      simpa using this
    split
    · rename_i h2
      refine ⟨s, _, rfl, rfl, rfl, map_fst_one _ hone, ?_⟩
      intro n hn
      obtain ⟨l, hl', rfl⟩ := List.mem_map.mp hn
      have := List.all_eq_true.mp h2 l hl'
      have : l.1 ≤ 65535 := by simpa using this
      omega
    · refine ⟨s, _, rfl, rfl, rfl, map_fst_one _ hone, ?_⟩
      intro n hn
      obtain ⟨l, hl', rfl⟩ := List.mem_map.mp hn
      exact (hv l (e6 l hl')).1
  · exact ⟨s, _, rfl, rfl, rfl, rfl, fun n hn => hv n (e6 n hn)⟩

/-- **C24**, first half: for every repeat size, number of planes and origin of the active area, the black level computed from the tags by the DNG
specification is that of the source, at every position in or right/below of the origin; the numbers fit the type of the tag. -/
theorem C24_tags (b : BlackLevel) (hb : IsBlack b) (left top : Nat) :
    ∃ tags, writeBlack b left top = .ok tags ∧ LevelFits tags.levels ∧
      ∀ row col p, top ≤ row → left ≤ col → p < b.cpp →
        tagCell tags.dim b.cpp (tagLevels tags.levels) top left row col p = levelAt b.levels b.width b.height b.cpp row col p := by
  obtain ⟨s, tags, e, e', hd, hl, hf⟩ := black_write b hb left top
  refine ⟨tags, e', hf, ?_⟩
  intro row col p hr hc hp
  obtain ⟨s', e2, -, -, -, -, hs, -⟩ := black_shift b hb.1 hb.2.1 hb.2.2.2.2.1 left top
  rw [e] at e2; injection e2 with e2; subst e2
  rw [hd, hl]
  simp only [tagCell]
  rw [hs _ _ p (Nat.mod_lt _ hb.2.1) (Nat.mod_lt _ hb.1) hp, mod_shift _ _ _ hr, mod_shift _ _ _ hc, levelAt]

/-- What reading back gives: the source pattern moved by the origin of the active area; it is not moved back. -/
theorem C24_read_back_moved (b : BlackLevel) (hb : IsBlack b) (left top : Nat) :
    ∃ tags back, writeBlack b left top = .ok tags ∧ readBlack tags b.cpp = .ok back ∧ back.width = b.width ∧ back.height = b.height ∧
      back.cpp = b.cpp ∧ ∀ row col p, p < b.cpp →
        levelAt back.levels b.width b.height b.cpp row col p = levelAt b.levels b.width b.height b.cpp (row + top) (col + left) p := by
  obtain ⟨s, tags, e, e', hd, hl, hf⟩ := black_write b hb left top
  obtain ⟨s', e2, -, -, -, hlen, hs, -⟩ := black_shift b hb.1 hb.2.1 hb.2.2.2.2.1 left top
  rw [e] at e2; injection e2 with e2; subst e2
  have hr : readBlack tags b.cpp = BlackLevel.new (tagLevels tags.levels) b.width b.height b.cpp := by
    rw [readBlack, hd]
    cases tags.levels <;> rfl
  have ha : s.levels.length = b.width * b.height * b.cpp := by rw [hlen, Nat.mul_comm b.height]
  refine ⟨tags, ⟨s.levels, b.width, b.height, b.cpp⟩, e', ?_, rfl, rfl, rfl, ?_⟩
  · rw [hr, hl, BlackLevel.new]
    simp only [assert', decide_eq_true ha, if_true, bind, Except.bind]
  · intro row col p hp
    simp only [levelAt]
    rw [hs _ _ p (Nat.mod_lt _ hb.2.1) (Nat.mod_lt _ hb.1) hp, Nat.mod_add_mod, Nat.mod_add_mod]

/-- **C24**, second half, partial: reading back gives the source's levels if the origin is a multiple of the repeat size. Missing: other origins, for
which it is false, `C24_read_back_wrong`. -/
theorem C24_read_back_partial (b : BlackLevel) (hb : IsBlack b) (left top : Nat) (hx : b.width ∣ left) (hy : b.height ∣ top) :
    ∃ tags back, writeBlack b left top = .ok tags ∧ readBlack tags b.cpp = .ok back ∧ back.width = b.width ∧ back.height = b.height ∧
      back.cpp = b.cpp ∧ ∀ row col p, p < b.cpp →
        levelAt back.levels b.width b.height b.cpp row col p = levelAt b.levels b.width b.height b.cpp row col p := by
  obtain ⟨tags, back, h1, h2, h3, h4, h5, h6⟩ := C24_read_back_moved b hb left top
  refine ⟨tags, back, h1, h2, h3, h4, h5, ?_⟩
  intro row col p hp
  rw [h6 row col p hp, levelAt, levelAt]
  obtain ⟨m, rfl⟩ := hx
  obtain ⟨n, rfl⟩ := hy
  rw [Nat.add_mul_mod_self_left, Nat.add_mul_mod_self_left]

/-- The negation: a 2 x 2 pattern with an active area starting in column 1 comes back with its columns swapped. -/
theorem C24_read_back_wrong :
    writeBlack ⟨[(100, 1), (200, 1), (300, 1), (400, 1)], 2, 2, 1⟩ 1 0 = .ok ⟨[2, 2], .short [200, 100, 400, 300]⟩ ∧
    readBlack ⟨[2, 2], .short [200, 100, 400, 300]⟩ 1 = .ok ⟨[(200, 1), (100, 1), (400, 1), (300, 1)], 2, 2, 1⟩ := by decide

example : IsBlack ⟨[(100, 1), (200, 1), (300, 1), (400, 1)], 2, 2, 1⟩ := by unfold IsBlack; decide
example : IsBlack ⟨[(100, 2), (70000, 1), (300, 1), (400, 1), (5, 1), (6, 1)], 1, 2, 3⟩ := by unfold IsBlack; decide

/-! ## Areas (C25) -/

/-- The rectangle lies in an image of this size. -/
def Inside (r : Rect) (width height : Nat) : Prop := r.x + r.w ≤ width ∧ r.y + r.h ≤ height

/-- What the crop mode asks for: the active area (the whole image without one or with `None`) and the crop (none with `None`, the active area with
`ActiveArea`, the recommended crop, else the active area, with `Best`). -/
def requested (width height : Nat) (active crop : Option Rect) : CropMode → Rect × Option Rect
  | .none => (⟨0, 0, width, height⟩, none)
  | .activeArea => (active.getD ⟨0, 0, width, height⟩, some (active.getD ⟨0, 0, width, height⟩))
  | .best => (active.getD ⟨0, 0, width, height⟩, some (crop.getD (active.getD ⟨0, 0, width, height⟩)))

theorem u16_of {x : Nat} (h : x < 2 ^ 16) : u16 x = x := Nat.mod_eq_of_lt h

theorem usub_ok {a b : Nat} (h : b ≤ a) : usub a b = .ok (a - b) := by rw [usub, if_pos h]

theorem newWithPoints_ok {a b c d : Nat} (h1 : a ≤ c) (h2 : b ≤ d) : newWithPoints a b c d = .ok ⟨a, b, c - a, d - b⟩ := by
  rw [newWithPoints]
  simp only [assert', decide_eq_true h1, decide_eq_true h2, if_true, bind, Except.bind]

theorem rectToDngArea_ok (r : Rect) {width height : Nat} (hw : width < 2 ^ 16) (hh : height < 2 ^ 16) (hr : Inside r width height) :
    rectToDngArea r = .ok [r.y, r.x, r.y + r.h, r.x + r.w] := by
  obtain ⟨h1, h2⟩ := hr
  rw [rectToDngArea, u16_of (by omega : r.x < 2 ^ 16), u16_of (by omega : r.y < 2 ^ 16), u16_of (by omega : r.w < 2 ^ 16),
    u16_of (by omega : r.h < 2 ^ 16), addU16, if_pos (by omega), addU16, if_pos (by omega)]
  rfl

theorem ltrb_ok (r : Rect) {width height : Nat} (hr : Inside r width height) :
    ltrbOffsets r width height = .ok [r.x, r.y, width - (r.x + r.w), height - (r.y + r.h)] := by
  rw [ltrbOffsets, usub_ok hr.1, usub_ok hr.2]; rfl

theorem borders_ok (r : Rect) {width height : Nat} (hr : Inside r width height) :
    newWithBorders width height [r.x, r.y, width - (r.x + r.w), height - (r.y + r.h)] = .ok r := by
  obtain ⟨h1, h2⟩ := hr
  rw [newWithBorders]
  rw [idx_of_get (a := r.x) rfl, idx_of_get (a := r.y) rfl, idx_of_get (a := width - (r.x + r.w)) rfl, idx_of_get (a := height - (r.y + r.h)) rfl]
  simp only [bind, Except.bind]
  rw [usub_ok (by omega), usub_ok (by omega)]
  simp only []
  rw [newWithPoints_ok (by omega) (by omega)]
  congr 2 <;> omega

theorem writeCrop_ok (a c : Rect) {width height : Nat} (hw : width < 2 ^ 16) (hh : height < 2 ^ 16) (hc : Inside c width height) (hx : a.x ≤ c.x)
    (hy : a.y ≤ c.y) : writeCrop a c = .ok ([c.x - a.x, c.y - a.y], [c.w, c.h]) := by
  obtain ⟨h1, h2⟩ := hc
  rw [writeCrop, u16_of (by omega : c.x - a.x < 2 ^ 16), u16_of (by omega : c.y - a.y < 2 ^ 16), u16_of (by omega : c.w < 2 ^ 16),
    u16_of (by omega : c.h < 2 ^ 16)]
  simp only [assert', decide_eq_true hx, decide_eq_true hy, if_true, bind, Except.bind]

theorem readAreas_ok (a : Rect) (c : Option Rect) {width height : Nat} (ha : Inside a width height)
    (hc : ∀ r, c = some r → Inside r width height ∧ a.x ≤ r.x ∧ a.y ≤ r.y) :
    readAreas ⟨width, height, [a.y, a.x, a.y + a.h, a.x + a.w], c.map fun r => ([r.x - a.x, r.y - a.y], [r.w, r.h])⟩ = .ok (a, c) := by
  rw [readAreas, readActive, idx_of_get (a := a.y) rfl, idx_of_get (a := a.x) rfl, idx_of_get (a := a.y + a.h) rfl, idx_of_get (a := a.x + a.w) rfl]
  simp only [bind, Except.bind]
  rw [newWithPoints_ok (by omega) (by omega)]
  simp only []
  have e : (⟨a.x, a.y, a.x + a.w - a.x, a.y + a.h - a.y⟩ : Rect) = a := by
    rw [Nat.add_sub_cancel_left, Nat.add_sub_cancel_left]
  rw [e, ltrb_ok a ha]
  simp only []
  cases c with
  | none =>
    rw [readCrop]
    simp only [Option.map_none]
    rw [borders_ok a ha]
  | some r =>
    obtain ⟨hr, hx, hy⟩ := hc r rfl
    have er : (⟨r.x - a.x + a.x, r.y - a.y + a.y, r.w, r.h⟩ : Rect) = r := by
      rw [Nat.sub_add_cancel hx, Nat.sub_add_cancel hy]
    rw [readCrop]
    simp only [Option.map_some]
    rw [idx_of_get (a := r.x - a.x) rfl, idx_of_get (a := r.y - a.y) rfl, idx_of_get (a := r.w) rfl, idx_of_get (a := r.h) rfl,
      idx_of_get (a := a.x) rfl, idx_of_get (a := a.y) rfl]
    simp only [bind, Except.bind]
    rw [er, ltrb_ok r hr]
    simp only []
    rw [borders_ok a ha]
    simp only []
    rw [borders_ok r hr]

/-- **C25**, partial: for images below 65536 x 65536 with areas inside and the crop not starting before the active area, every crop mode writes tags
from which exactly the requested areas are read. Missing: larger images, `C25_large_image_cut` and `C25_large_image_panics`, and crops that start
outside of the active area, `C25_crop_before_active_panics`. -/
theorem C25_areas_partial (width height : Nat) (active crop : Option Rect) (mode : CropMode) (hw : width < 2 ^ 16) (hh : height < 2 ^ 16)
    (ha : Inside (active.getD ⟨0, 0, width, height⟩) width height)
    (hc : ∀ r, crop = some r → Inside r width height ∧ (active.getD ⟨0, 0, width, height⟩).x ≤ r.x ∧ (active.getD ⟨0, 0, width, height⟩).y ≤ r.y) :
    ∃ tags, writeAreas width height active crop mode = .ok tags ∧ readAreas tags = .ok (requested width height active crop mode) := by
  have hfull : Inside ⟨0, 0, width, height⟩ width height := by constructor <;> simp
  have main : ∀ (a : Rect) (c : Option Rect), Inside a width height → (∀ r, c = some r → Inside r width height ∧ a.x ≤ r.x ∧ a.y ≤ r.y) →
      readAreas ⟨width % 2 ^ 32, height % 2 ^ 32, [a.y, a.x, a.y + a.h, a.x + a.w], c.map fun r => ([r.x - a.x, r.y - a.y], [r.w, r.h])⟩ = .ok (a, c) := by
    intro a c h1 h2
    rw [Nat.mod_eq_of_lt (by omega), Nat.mod_eq_of_lt (by omega)]
    exact readAreas_ok a c h1 h2
  cases mode with
  | none =>
    refine ⟨_, ?_, main ⟨0, 0, width, height⟩ none hfull (fun r h => by cases h)⟩
    rw [writeAreas, activeOf, rectToDngArea_ok _ hw hh hfull]
    simp only [assert', decide_eq_true hfull.1, decide_eq_true hfull.2, if_true, bind, Except.bind, Option.map_none]
  | activeArea =>
    generalize hA : active.getD ⟨0, 0, width, height⟩ = A at *
    have hm := main A (some A) ha (fun r h => by cases h; exact ⟨ha, Nat.le_refl _, Nat.le_refl _⟩)
    refine ⟨_, ?_, by rw [requested, hA]; exact hm⟩
    rw [writeAreas, activeOf, hA, rectToDngArea_ok _ hw hh ha, writeCrop_ok A A hw hh ha (Nat.le_refl _) (Nat.le_refl _)]
    · simp only [assert', decide_eq_true ha.1, decide_eq_true ha.2, if_true, bind, Except.bind, Option.map_some, Except.map]
    · exact fun h => nomatch h
  | best =>
    generalize hA : active.getD ⟨0, 0, width, height⟩ = A at *
    have hC : Inside (crop.getD A) width height ∧ A.x ≤ (crop.getD A).x ∧ A.y ≤ (crop.getD A).y := by
      cases crop with
      | none => exact ⟨ha, Nat.le_refl _, Nat.le_refl _⟩
      | some r => exact hc r rfl
    have hm := main A (some (crop.getD A)) ha (fun r h => by cases h; exact hC)
    refine ⟨_, ?_, by rw [requested, hA]; exact hm⟩
    rw [writeAreas, activeOf, hA, rectToDngArea_ok _ hw hh ha, writeCrop_ok A (crop.getD A) hw hh hC.1 hC.2.1 hC.2.2]
    · simp only [assert', decide_eq_true ha.1, decide_eq_true ha.2, if_true, bind, Except.bind, Option.map_some, Except.map]
    · exact fun h => nomatch h

example : ∃ tags, writeAreas 6000 4000 (some ⟨10, 20, 5900, 3900⟩) (some ⟨12, 24, 5800, 3800⟩) .best = .ok tags ∧
    readAreas tags = .ok (⟨10, 20, 5900, 3900⟩, some ⟨12, 24, 5800, 3800⟩) :=
  C25_areas_partial 6000 4000 (some ⟨10, 20, 5900, 3900⟩) (some ⟨12, 24, 5800, 3800⟩) .best (by decide) (by decide) ⟨by decide, by decide⟩
    (fun r h => by cases h; exact ⟨⟨by decide, by decide⟩, by decide, by decide⟩)

/-- The negation for large images: a panorama 70000 columns wide comes back with an active area 4464 columns wide. -/
theorem C25_large_image_cut : ∃ tags, writeAreas 70000 100 none none .none = .ok tags ∧ readAreas tags = .ok (⟨0, 0, 4464, 100⟩, none) :=
  ⟨⟨70000, 100, [0, 0, 100, 4464], none⟩, by decide, by decide⟩

/-- Another large image makes the writer panic: the sum of two truncated sizes overflows. -/
theorem C25_large_image_panics : writeAreas 65536 100 (some ⟨1, 0, 65535, 100⟩) none .best = panic' := by decide

/-- A recommended crop that starts left of the active area makes the writer panic. -/
theorem C25_crop_before_active_panics : writeAreas 6000 4000 (some ⟨10, 20, 5900, 3900⟩) (some ⟨9, 24, 5800, 3800⟩) .best = panic' := by decide

end Verif.Props
