import Verif.Proofs.Develop
import Verif.Proofs.Demosaic4
/-! # C84: a developed picture shows the part of the sensor it should

`Develop.Develops env steps p out`: developing the photo `p` in the given steps may have the outcome `out`. `env` holds functions the model leaves open; every
theorem is for all of them. -/

namespace Verif.Props
open Verif Verif.Pix Verif.Dng Verif.Demosaic Verif.Color Verif.Develop Verif.Spec Verif.Spec.Demosaic Verif.Spec.Develop

private theorem facts {steps : List Step} {p : Photo} {f : Nat → Nat → ℚ} (M : Mosaic steps p f) :
    Within (used steps p) (whole p) ∧ 0 < (used steps p).w ∧ 0 < p.width ∧ fullWidth p / 2 < (used steps p).w := by
  have hu : Within (used steps p) (whole p) := by
    unfold used
    split
    · cases e : p.active with
      | none => exact ⟨Nat.le_refl _, Nat.le_refl _, Nat.le_refl _, Nat.le_refl _⟩
      | some a => exact M.active a e
    · exact ⟨Nat.le_refl _, Nat.le_refl _, Nat.le_refl _, Nat.le_refl _⟩
  have h2 := M.shownWide
  obtain ⟨s1, s2, s3, s4⟩ := M.shownInside
  have hw : 0 < (used steps p).w := by omega
  obtain ⟨u1, u2, u3, u4⟩ := id hu
  simp only [whole, Nat.zero_add] at u3
  refine ⟨hu, hw, by omega, ?_⟩
  unfold fullWidth
  cases e : p.active with
  | none =>
    have : used steps p = whole p := by simp [used, e]
    rw [this] at hw ⊢
    simp only [whole] at hw ⊢
    omega
  | some a =>
    simp only
    by_cases hc : Step.cropActiveArea ∈ steps
    · have : used steps p = a := by simp [used, e, hc]
      rw [this] at hw ⊢
      omega
    · have : used steps p = whole p := by simp [used, hc]
      have ha := (M.active a e).2.2.1
      rw [this] at hw ⊢
      simp only [whole, Nat.zero_add] at hw ha ⊢
      omega

private theorem start {steps : List Step} {p : Photo} {f : Nat → Nat → ℚ} (M : Mosaic steps p f) {sensor : Sensor} {pattern : CFA}
    (hp : p.photometric = .cfa sensor pattern) :
    ∃ raw, (do let d ← rescale steps p; initial p d : R Inter) = .ok (.mono ⟨p.width, p.height, raw⟩) ∧
      Holds raw p.width p.height (corrected steps p f) := by
  obtain ⟨raw, e, h⟩ := rescaled hp M.black M.white (facts M).2.2.1 M.even f M.data
  exact ⟨raw, by rw [e, okb, initial_mono M.one h], h⟩

/-- Bayer sensors. Developing succeeds, whatever the threads do, and the picture shows what it should: the default crop if there is one, else the active area,
else all. Each pixel is what PPG makes of the corrected samples of the used part of the sensor, at that place of the sensor. -/
theorem C84_bayer (env : Env) (steps : List Step) (p : Photo) (f : Nat → Nat → ℚ) (M : Mosaic steps p f) (name : List Char) (hb : IsBayer name)
    (cfa : CFA) (hcfa : CFA.new name = .ok cfa) (hp : p.photometric = .cfa .bayer cfa) (n : Nat) (m : Mat)
    (hm : .calibrate ∈ steps → xyzToCam p.matrices = .ok (n, m)) (A T : Rect) (hA : A = used steps p) (hT : T = shown steps p A) (hw : 6 ≤ A.w) (hh : 6 ≤ A.h) :
    (∃ out, Develops env steps p out) ∧ ∀ out, Develops env steps p out → ∃ res raw, out = .ok (.three res) ∧ res.width = T.w ∧ res.height = T.h ∧
      Holds raw p.width p.height (corrected steps p f) ∧
      Holds res.data T.w T.h fun r c =>
        let rgb := ppg (sample raw p.width A.x A.y) (fun r c => colour name 2 (A.y + r) (A.x + c)) A.w A.h (T.y - A.y + r) (T.x - A.x + c)
        finished env steps p m (rgb 0, rgb 1, rgb 2) := by
  obtain ⟨hu, -, h0, hfw⟩ := facts M
  have hsi := M.shownInside
  have hsw := M.shownWide
  have hcut := cuts_used M.demosaic M.shownInside
  obtain ⟨raw, e, hraw⟩ := start M hp
  have hins := inside_of hraw hu
  have harea := area_ok (steps := steps) (p := p) (fun _ => .inr M.unrotated)
  rw [← hA] at hu hfw hsi hsw hcut hins harea
  obtain ⟨cfa', e1, hex, hall⟩ := C83_ppg_partial name hb raw p.width _ _ _ _ hins hw hh
  have : cfa' = cfa := by rw [hcfa] at e1; injection e1 with e1; exact e1.symm
  subst this
  have hrgb : isRgb cfa' = true := by
    obtain ⟨c2, s, h1, h2, -⟩ := ppg_setup hb 0 0
    rw [hcfa] at h1; injection h1 with h1; rw [h1]; exact h2
  have hdem : ∀ o, Demosaics env steps p (.mono ⟨p.width, p.height, raw⟩) o ↔ ∃ mem, PpgRuns raw p.width cfa' ⟨A.x, A.y, A.w, A.h⟩ mem ∧
      o = .ok (.three ⟨A.w, A.h, pixels mem A.w A.h⟩) := by
    intro o
    unfold Demosaics
    rw [if_pos (by simpa using M.demosaic), hp]
    simp only
    rw [harea]
    simp only
    rw [if_pos ⟨hrgb, trivial⟩, M.unrotated]
    refine exists_congr fun mem => and_congr Iff.rfl ?_
    cases steps.contains Step.fujiRotate <;> exact Iff.rfl
  obtain ⟨P, hP⟩ : ∃ P : Nat → Nat → Rgb, P = fun r c =>
      (ppg (sample raw p.width A.x A.y) (fun r c => colour name 2 (A.y + r) (A.x + c)) A.w A.h r c 0,
        ppg (sample raw p.width A.x A.y) (fun r c => colour name 2 (A.y + r) (A.x + c)) A.w A.h r c 1,
        ppg (sample raw p.width A.x A.y) (fun r c => colour name 2 (A.y + r) (A.x + c)) A.w A.h r c 2) := ⟨_, rfl⟩
  have hfin : ∀ mem, PpgRuns raw p.width cfa' ⟨A.x, A.y, A.w, A.h⟩ mem →
      ∃ res : Pix Rgb, finish env steps p (.three ⟨A.w, A.h, pixels mem A.w A.h⟩) = .ok (.three res) ∧ res.width = (shown steps p A).w ∧
        res.height = (shown steps p A).h ∧ Holds res.data (shown steps p A).w (shown steps p A).h fun r c =>
          finished env steps p m (P ((shown steps p A).y - A.y + r) ((shown steps p A).x - A.x + c)) := by
    intro mem hmem
    have hpix : Holds (pixels mem A.w A.h) A.w A.h P := by
      refine Holds.same (holds_flatMap _ _ _) fun r c hr hc => ?_
      rw [hP]
      simp only
      rw [hall mem hmem r c 0 hr hc (by omega), hall mem hmem r c 1 hr hc (by omega), hall mem hmem r c 2 hr hc (by omega)]
    exact finish_three env hm hsi hsw hcut hfw ⟨A.w, A.h, pixels mem A.w A.h⟩ ⟨rfl, rfl⟩ P hpix
  rw [← hT] at hfin
  constructor
  · obtain ⟨mem, hmem⟩ := hex
    refine ⟨finish env steps p (.three ⟨A.w, A.h, pixels mem A.w A.h⟩), ?_⟩
    unfold Develops
    rw [e]
    exact ⟨_, (hdem _).2 ⟨mem, hmem, rfl⟩, rfl⟩
  · intro out ho
    unfold Develops at ho
    rw [e] at ho
    obtain ⟨o, h1, h2⟩ := ho
    obtain ⟨mem, hmem, rfl⟩ := (hdem o).1 h1
    obtain ⟨res, e3, w1, w2, hr⟩ := hfin mem hmem
    rw [okb, e3] at h2
    exact ⟨res, raw, h2, w1, w2, hraw, Holds.same hr fun r c _ _ => by rw [hP]⟩

/-- So, before colours are converted: in the channel the sensor has at a place, the picture holds the corrected sample of that very place. -/
theorem C84_bayer_measured (env : Env) (steps : List Step) (p : Photo) (f : Nat → Nat → ℚ) (M : Mosaic steps p f) (name : List Char) (hb : IsBayer name)
    (cfa : CFA) (hcfa : CFA.new name = .ok cfa) (hp : p.photometric = .cfa .bayer cfa) (hc : .calibrate ∉ steps) (hg : .srgb ∉ steps)
    (T : Rect) (hT : T = shown steps p (used steps p)) (hw : 6 ≤ (used steps p).w) (hh : 6 ≤ (used steps p).h) (out : R Inter)
    (ho : Develops env steps p out) :
    ∃ res, out = .ok (.three res) ∧ res.width = T.w ∧ res.height = T.h ∧ ∀ r c, r < T.h → c < T.w → ∃ v, res.data[r * T.w + c]? = some v ∧
      chan v (colour name 2 (T.y + r) (T.x + c)) = corrected steps p f (T.y + r) (T.x + c) := by
  obtain ⟨-, hall⟩ := C84_bayer env steps p f M name hb cfa hcfa hp 0 (fun _ _ => 0) (fun h => absurd h hc) (used steps p) T rfl hT hw hh
  obtain ⟨res, raw, e, w1, w2, hraw, hr⟩ := hall out ho
  refine ⟨res, e, w1, w2, fun r c h1 h2 => ⟨_, hr.2 r c h1 h2, ?_⟩⟩
  obtain ⟨s1, s2, s3, s4⟩ := M.shownInside
  obtain ⟨u1, u2, u3, u4⟩ := (facts M).1
  rw [← hT] at s1 s2 s3 s4
  simp only [whole, Nat.zero_add] at u3 u4
  have lt : colour name 2 (T.y + r) (T.x + c) < 3 := by
    have := (bayer_colour hb 0 0).lt (T.y + r) (T.x + c)
    simpa using this
  have hch : ∀ (k : Nat) (F : Nat → ℚ), k < 3 → chan (F 0, F 1, F 2) k = F k := by
    intro k F hk; interval_cases k <;> rfl
  simp only [finished, hc, hg, if_false]
  rw [hch _ (ppg _ _ _ _ _ _) lt]
  have hs := sample_of (x := (used steps p).x) (y := (used steps p).y) (r := T.y - (used steps p).y + r) (c := T.x - (used steps p).x + c) hraw
    (by omega) (by omega)
  have hy : (used steps p).y + (T.y - (used steps p).y + r) = T.y + r := by omega
  have hx : (used steps p).x + (T.x - (used steps p).x + c) = T.x + c := by omega
  rw [hy, hx] at hs
  rw [← hs, ppg]
  simp only [hy, hx, if_true]

/-- X-Trans sensors: likewise, with means over the samples of each colour in the 5 x 5 surroundings. -/
theorem C84_xtrans (env : Env) (steps : List Step) (p : Photo) (f : Nat → Nat → ℚ) (M : Mosaic steps p f) (name : List Char) (k : Nat)
    (hb : IsRgbPattern name k) (cfa : CFA) (hcfa : CFA.new name = .ok cfa) (hrgb : isRgb cfa = true)
    (hp : p.photometric = .cfa .xtrans cfa) (n : Nat) (m : Mat) (hm : .calibrate ∈ steps → xyzToCam p.matrices = .ok (n, m)) (A T : Rect)
    (hA : A = used steps p) (hT : T = shown steps p A) :
    ∃ res raw, (∀ out, Develops env steps p out ↔ out = .ok (.three res)) ∧ res.width = T.w ∧ res.height = T.h ∧
      Holds raw p.width p.height (corrected steps p f) ∧
      Holds res.data T.w T.h fun r c =>
        let rgb := localMean (sample raw p.width A.x A.y) (fun r c => colour name k (A.y + r) (A.x + c)) A.w A.h 2 (T.y - A.y + r) (T.x - A.x + c)
        finished env steps p m (rgb 0, rgb 1, rgb 2) := by
  obtain ⟨hu, hw0, h0, hfw⟩ := facts M
  have hsi := M.shownInside
  have hsw := M.shownWide
  have hcut := cuts_used M.demosaic M.shownInside
  obtain ⟨raw, e, hraw⟩ := start M hp
  have hins := inside_of hraw hu
  have harea := area_ok (steps := steps) (p := p) (fun _ => .inr M.unrotated)
  rw [← hA] at hu hw0 hfw hsi hsw hcut hins harea
  obtain ⟨cfa', px, e1, e2, hl, hpx⟩ := C83_xtrans name k hb raw p.width _ _ _ _ hins hw0
  have : cfa' = cfa := by rw [hcfa] at e1; injection e1 with e1; exact e1.symm
  subst this
  have hdem : ∀ o, Demosaics env steps p (.mono ⟨p.width, p.height, raw⟩) o ↔ o = .ok (.three ⟨A.w, A.h, px⟩) := by
    intro o
    unfold Demosaics
    rw [if_pos (by simpa using M.demosaic), hp]
    simp only
    rw [harea]
    simp only [and_false, and_true, if_false]
    rw [if_neg (by simp), if_neg (by simp), if_pos hrgb, e2]
    exact Iff.rfl
  obtain ⟨res, e3, w1, w2, hr⟩ := finish_three env hm hsi hsw hcut hfw ⟨A.w, A.h, px⟩ ⟨rfl, rfl⟩ (fun r c =>
      (localMean (sample raw p.width A.x A.y) (fun r c => colour name k (A.y + r) (A.x + c)) A.w A.h 2 r c 0,
        localMean (sample raw p.width A.x A.y) (fun r c => colour name k (A.y + r) (A.x + c)) A.w A.h 2 r c 1,
        localMean (sample raw p.width A.x A.y) (fun r c => colour name k (A.y + r) (A.x + c)) A.w A.h 2 r c 2))
    ⟨by rw [hl, Nat.mul_comm], hpx⟩
  rw [← hT] at w1 w2 hr
  refine ⟨res, raw, fun out => ?_, w1, w2, hraw, hr⟩
  unfold Develops
  rw [e]
  constructor
  · rintro ⟨o, h1, h2⟩
    rw [(hdem o).1 h1, okb, e3] at h2
    exact h2
  · intro h
    exact ⟨_, (hdem _).2 rfl, by rw [okb, e3]; exact h⟩

/-- Sensors with four colours, such as red, green, blue and emerald: likewise, with means over the samples of each colour at most one row and one column
away, and the conversion for four colours (`C85` says what `map4` is). `planes` spells the order of the colours in the colour matrix. -/
theorem C84_four (env : Env) (steps : List Step) (p : Photo) (f : Nat → Nat → ℚ) (M : Mosaic steps p f) (name planes : List Char) (hb : IsFour name planes)
    (colors : List Nat) (hcol : planeColor planes = .ok colors) (henv : env.quad = bilinear4 colors) (cfa : CFA) (hcfa : CFA.new name = .ok cfa)
    (hp : p.photometric = .cfa .bayer cfa) (n : Nat) (m : Mat) (hcal : .calibrate ∈ steps) (hm : xyzToCam p.matrices = .ok (n, m)) (A T : Rect)
    (hA : A = used steps p) (hT : T = shown steps p A) (hw : 2 ≤ A.w) (hh : 2 ≤ A.h) :
    ∃ res raw, (∀ out, Develops env steps p out ↔ out = .ok (.three res)) ∧ res.width = T.w ∧ res.height = T.h ∧
      Holds raw p.width p.height (corrected steps p f) ∧
      Holds res.data T.w T.h fun r c =>
        let v := localMean (sample raw p.width A.x A.y) (fun r c => colour4 name planes (A.y + r) (A.x + c)) A.w A.h 1 (T.y - A.y + r) (T.x - A.x + c)
        let u := map4 env.norm m (wbOf steps p) (v 0, v 1, v 2, v 3)
        if .srgb ∈ steps then (env.gamma u.1, env.gamma u.2.1, env.gamma u.2.2) else u := by
  obtain ⟨hu, -, h0, hfw⟩ := facts M
  have hsi := M.shownInside
  have hsw := M.shownWide
  have hcut := cuts_used M.demosaic M.shownInside
  obtain ⟨raw, e, hraw⟩ := start M hp
  have hins := inside_of hraw hu
  have harea := area_ok (steps := steps) (p := p) (fun _ => .inr M.unrotated)
  rw [← hA] at hu hfw hsi hsw hcut hins harea
  obtain ⟨cfa', px, e1, e2, hpx⟩ := bilinear4_ok hb hins hw hh
  have : cfa' = cfa := by rw [hcfa] at e1; injection e1 with e1; exact e1.symm
  subst this
  have : colors = planes.map codeOf := by rw [planeColor_ok hb] at hcol; injection hcol with hcol; exact hcol.symm
  subst this
  obtain ⟨u4, nrgb⟩ := four_unique hb hcfa
  have hdem : ∀ o, Demosaics env steps p (.mono ⟨p.width, p.height, raw⟩) o ↔ o = .ok (.four ⟨A.w, A.h, px⟩) := by
    intro o
    unfold Demosaics
    rw [if_pos (by simpa using M.demosaic), hp]
    simp only
    rw [harea]
    simp only
    rw [if_neg (by simp [nrgb]), if_pos ⟨u4, trivial⟩, henv, e2]
    exact Iff.rfl
  have hg := Holds.map' (map4 env.norm m (wbOf steps p)) hpx
  have ecal : calibrate env steps p (.four ⟨A.w, A.h, px⟩) = .ok (.three ⟨A.w, A.h, px.map (map4 env.norm m (wbOf steps p))⟩) := by
    rw [calibrate, if_pos (by simpa using hcal), hm, balance_eq]
    rfl
  obtain ⟨res, ecr, w1, w2, hr⟩ := crop_three hsi hsw hcut hfw ⟨A.w, A.h, px.map (map4 env.norm m (wbOf steps p))⟩ ⟨rfl, rfl⟩ _ hg
  rw [← hT] at w1 w2 hr
  have done : ∀ (out : R Inter) (fin : Inter), finish env steps p (.four ⟨A.w, A.h, px⟩) = .ok fin → (Develops env steps p out ↔ out = .ok fin) := by
    intro out fin e3
    unfold Develops
    rw [e]
    constructor
    · rintro ⟨o, h1, h2⟩
      rw [(hdem o).1 h1, okb, e3] at h2
      exact h2
    · intro h
      exact ⟨_, (hdem _).2 rfl, by rw [okb, e3]; exact h⟩
  by_cases h : Step.srgb ∈ steps
  · refine ⟨⟨res.width, res.height, res.data.map fun x => (env.gamma x.1, env.gamma x.2.1, env.gamma x.2.2)⟩, raw, fun out => done out _ ?_, w1, w2, hraw, ?_⟩
    · rw [finish, ecal, okb, ecr, okb, srgb, if_pos (by simpa using h)]
    · have := Holds.map' (fun x : Rgb => ((env.gamma x.1, env.gamma x.2.1, env.gamma x.2.2) : Rgb)) hr
      simpa only [h, if_true] using this
  · refine ⟨res, raw, fun out => done out _ ?_, w1, w2, hraw, ?_⟩
    · rw [finish, ecal, okb, ecr, okb, srgb, if_neg (by simpa using h)]
    · simpa only [h, if_false] using hr

private theorem linear_core {env : Env} {steps : List Step} {p : Photo} {g : Nat → Nat → Rgb} (L : Linear steps p g) {n : Nat} {m : Mat}
    (hm : .calibrate ∈ steps → xyzToCam p.matrices = .ok (n, m)) (A : Rect) (hA : A.w = p.width ∧ A.h = p.height)
    (hT : Within (shown steps p A) A) (hw : 0 < (shown steps p A).w) (hc : Cuts steps p A) :
    ∃ res, (∀ out, Develops env steps p out ↔ out = .ok (.three res)) ∧ res.width = (shown steps p A).w ∧ res.height = (shown steps p A).h ∧
      Holds res.data (shown steps p A).w (shown steps p A).h fun r c =>
        finished env steps p m (correctedPixel steps p (g ((shown steps p A).y - A.y + r) ((shown steps p A).x - A.x + c))) := by
  obtain ⟨raw, e1, hraw⟩ := rescaled_linear L
  obtain ⟨l, e2, hl⟩ := initial_three L.three (g := fun r c => correctedPixel steps p (g r c)) hraw
  have hfw : fullWidth p / 2 < A.w := by
    rw [hA.1]
    have := L.wide
    unfold fullWidth
    cases e : p.active with
    | none => simp only; omega
    | some a =>
      have := (L.active a e).2.2.1
      simp only [whole, Nat.zero_add] at this ⊢
      omega
  obtain ⟨res, e3, w1, w2, hr⟩ := finish_three env hm hT hw hc hfw ⟨p.width, p.height, l⟩ ⟨hA.1.symm, hA.2.symm⟩
    (fun r c => correctedPixel steps p (g r c)) (by rw [hA.1, hA.2]; exact hl)
  refine ⟨res, fun out => ?_, w1, w2, hr⟩
  have hdem : ∀ o, Demosaics env steps p (.three ⟨p.width, p.height, l⟩) o ↔ o = .ok (.three ⟨p.width, p.height, l⟩) := by
    intro o
    unfold Demosaics
    rw [L.photometric]
    split <;> exact Iff.rfl
  unfold Develops
  rw [e1, okb, e2]
  constructor
  · rintro ⟨o, h1, h2⟩
    rw [(hdem o).1 h1, okb, e3] at h2
    exact h2
  · intro h
    exact ⟨_, (hdem _).2 rfl, by rw [okb, e3]; exact h⟩

/-- Pictures already in three colours, such as linear DNG files: the picture shows the part it should if there is no active area, if it starts at the upper
left corner or if one of the steps is left out. Missing: other active areas, see `C84_linear_shifted`. -/
theorem C84_linear_partial (env : Env) (steps : List Step) (p : Photo) (g : Nat → Nat → Rgb) (L : Linear steps p g) (n : Nat) (m : Mat)
    (hm : .calibrate ∈ steps → xyzToCam p.matrices = .ok (n, m)) (T : Rect) (hT : T = shown steps p (whole p)) (hin : Within T (whole p)) (hw : 0 < T.w)
    (ha : .demosaic ∈ steps → .cropActiveArea ∈ steps → ∀ a, p.active = some a → a.x = 0 ∧ a.y = 0 ∧ (.cropDefault ∈ steps → Within T a)) :
    ∃ res, (∀ out, Develops env steps p out ↔ out = .ok (.three res)) ∧ res.width = T.w ∧ res.height = T.h ∧
      Holds res.data T.w T.h fun r c => finished env steps p m (correctedPixel steps p (g (T.y + r) (T.x + c))) := by
  have hc : Cuts steps p (whole p) := by
    intro hs c e
    have hsh : T = c := by rw [hT]; simp [shown, hs, e]
    unfold cutArea
    cases ea : p.active with
    | none => simp [rel, whole]
    | some a =>
      simp only
      split
      · next h =>
        obtain ⟨a1, a2, a3⟩ := ha (by simpa using h.1) (by simpa using h.2) a ea
        obtain ⟨b1, b2, b3, b4⟩ := a3 hs
        rw [hsh] at b1 b2 b3 b4
        rw [adapt, if_pos (by omega), a1, a2]
        rfl
      · simp [rel, whole]
  subst hT
  obtain ⟨res, h1, h2, h3, h4⟩ := linear_core (env := env) L hm (whole p) ⟨rfl, rfl⟩ hin hw hc
  exact ⟨res, h1, h2, h3, Holds.same h4 fun r c _ _ => by simp only [whole, Nat.sub_zero]⟩

/-- With an active area that starts elsewhere, the crop is moved by it although the active area was never cut out: the picture shows the part of the sensor
that lies as much further left and up. -/
theorem C84_linear_shifted (env : Env) (steps : List Step) (p : Photo) (g : Nat → Nat → Rgb) (L : Linear steps p g) (n : Nat) (m : Mat)
    (hm : .calibrate ∈ steps → xyzToCam p.matrices = .ok (n, m)) (h1 : .demosaic ∈ steps) (h2 : .cropActiveArea ∈ steps) (h3 : .cropDefault ∈ steps)
    (a T : Rect) (ha : p.active = some a) (hT : T = p.crop.getD a) (hin : Within T a) (hw : 0 < T.w) :
    ∃ res, (∀ out, Develops env steps p out ↔ out = .ok (.three res)) ∧ res.width = T.w ∧ res.height = T.h ∧
      Holds res.data T.w T.h fun r c => finished env steps p m (correctedPixel steps p (g (T.y - a.y + r) (T.x - a.x + c))) := by
  have hor : p.crop.or p.active = some T := by rw [hT, ha]; cases p.crop <;> rfl
  have hsh : ∀ A, shown steps p A = T := by intro A; simp [shown, h3, hor]
  obtain ⟨b1, b2, b3, b4⟩ := hin
  obtain ⟨w1, w2, w3, w4⟩ := L.active a ha
  simp only [whole, Nat.zero_add] at w3 w4
  have hc : Cuts steps p ⟨a.x, a.y, p.width, p.height⟩ := by
    intro _ c e
    have : T = c := by rw [hor] at e; injection e
    subst this
    unfold cutArea
    rw [ha]
    simp only
    rw [if_pos ⟨by simpa using h1, by simpa using h2⟩, adapt, if_pos (by omega)]
    rfl
  obtain ⟨res, r1, r2, r3, r4⟩ := linear_core (env := env) L hm ⟨a.x, a.y, p.width, p.height⟩ ⟨rfl, rfl⟩
    (by rw [hsh]; exact ⟨b1, b2, by simp only; omega, by simp only; omega⟩) (by rw [hsh]; exact hw) hc
  rw [hsh] at r2 r3 r4
  exact ⟨res, r1, r2, r3, r4⟩

/-- Grey pictures without an active area, as linear DNG files can hold: black becomes 0, white 1, and the part to show is cut out. -/
theorem C84_grey (env : Env) (steps : List Step) (p : Photo) (f : Nat → Nat → ℚ) (hd : Holds p.data p.width p.height f) (h1 : p.cpp = 1)
    (hp : p.photometric = .linear) (b w : ℚ) (hb : p.black = [b]) (hwh : p.white = [w]) (ha : p.active = none) (n : Nat) (m : Mat)
    (hm : .calibrate ∈ steps → xyzToCam p.matrices = .ok (n, m)) (T : Rect) (hT : T = shown steps p (whole p)) (hin : Within T (whole p)) (hw : 0 < T.w) :
    ∃ res, (∀ out, Develops env steps p out ↔ out = .ok (.mono res)) ∧ res.width = T.w ∧ res.height = T.h ∧
      Holds res.data T.w T.h fun r c =>
        let v := if .rescale ∈ steps then scaled b w (f (T.y + r) (T.x + c)) else f (T.y + r) (T.x + c)
        if .srgb ∈ steps then env.gamma v else v := by
  subst hT
  have hpw : 0 < p.width := by
    have h3 : (shown steps p (whole p)).x + (shown steps p (whole p)).w ≤ 0 + p.width := hin.2.2.1
    omega
  have hr : ∃ raw, rescale steps p = .ok raw ∧ Holds raw p.width p.height fun r c => if .rescale ∈ steps then scaled b w (f r c) else f r c := by
    by_cases hs : Step.rescale ∈ steps
    · refine ⟨p.data.map (scaled b w), ?_, ?_⟩
      · rw [rescale, if_pos (by simpa using hs), hp]
        simp only
        rw [correctLinear, hb, hwh, if_neg (by simp), if_neg (by simp)]
        congr 1
        refine List.ext_getElem (by simp) fun i h1 h2 => ?_
        simp only [List.length_mapIdx] at h1
        simp only [List.getElem_mapIdx, List.getElem_map, List.length_singleton, Nat.div_one, Nat.mul_one]
        rw [if_pos h1, Nat.mod_one]
        simp only [level, scaled, List.getD_cons_zero]
        congr 1
        split
        · rw [max_eq_left (by linarith)]
        · rw [max_eq_right (by linarith)]
      · simp only [hs, if_true]
        exact Holds.map' _ hd
    · refine ⟨p.data, by rw [rescale, if_neg (by simpa using hs)], ?_⟩
      simp only [hs, if_false]
      exact hd
  obtain ⟨raw, e1, hraw⟩ := hr
  have e2 : initial p raw = .ok (.mono ⟨p.width, p.height, raw⟩) := by
    rw [initial, if_pos h1, assert', hraw.1, if_pos (by simp)]
    rfl
  have hc : Cuts steps p (whole p) := by
    intro _ c _
    unfold cutArea
    rw [ha]
    simp [rel, whole]
  obtain ⟨res, e3, w1, w2, hres⟩ := crop_mono hin hw hc (by simp only [fullWidth, ha, whole]; omega) ⟨p.width, p.height, raw⟩ ⟨rfl, rfl⟩ _ hraw
  simp only [whole, Nat.sub_zero] at hres
  have e4 : calibrate env steps p (.mono ⟨p.width, p.height, raw⟩) = .ok (.mono ⟨p.width, p.height, raw⟩) := by
    rw [calibrate]
    split
    · next h => rw [hm (by simpa using h), okb]
    · rfl
  have hdem : ∀ o, Demosaics env steps p (.mono ⟨p.width, p.height, raw⟩) o ↔ o = .ok (.mono ⟨p.width, p.height, raw⟩) := by
    intro o
    unfold Demosaics
    rw [hp]
    split <;> exact Iff.rfl
  have key : ∀ out, Develops env steps p out ↔ out = .ok (srgb env steps (.mono res)) := by
    intro out
    unfold Develops
    rw [e1, okb, e2]
    constructor
    · rintro ⟨o, h1, h2⟩
      rw [(hdem o).1 h1, okb, finish, e4, okb, e3, okb] at h2
      exact h2
    · intro h
      exact ⟨_, (hdem _).2 rfl, by rw [okb, finish, e4, okb, e3, okb]; exact h⟩
  by_cases hs : Step.srgb ∈ steps
  · refine ⟨⟨res.width, res.height, res.data.map env.gamma⟩, fun out => ?_, w1, w2, ?_⟩
    · rw [key, srgb, if_pos (by simpa using hs)]
    · simp only [hs, if_true]
      exact Holds.map' _ hres
  · refine ⟨res, fun out => ?_, w1, w2, ?_⟩
    · rw [key, srgb, if_neg (by simpa using hs)]
    · simp only [hs, if_false]
      exact hres

/-- A picture whose number of samples does not fit its size is never developed. -/
theorem C84_length_checked (env : Env) (steps : List Step) (p : Photo) (hp : p.photometric = .linear ∨ .rescale ∉ steps) (i : Inter)
    (hd : Develops env steps p (.ok i)) : p.data.length / p.cpp = p.height * p.width ∧ (p.cpp = 1 ∨ p.cpp = 3 ∨ p.cpp = 4) := by
  have hr : ∀ raw, rescale steps p = .ok raw → raw.length = p.data.length := by
    intro raw e
    unfold rescale at e
    split at e
    · next hs =>
      rcases hp with hp | hp
      · rw [hp] at e
        simp only [correctLinear] at e
        split at e
        · injection e with e; rw [e]
        · split at e
          · cases e
          · injection e with e; rw [← e, List.length_mapIdx]
      · exact absurd (by simpa using hs) hp
    · injection e with e; rw [e]
  unfold Develops at hd
  split at hd
  · cases hd
  · next j e =>
    cases er : rescale steps p with
    | error e' => rw [er] at e; cases e
    | ok raw =>
      rw [er, okb] at e
      have hl := hr raw er
      unfold initial at e
      have hg : ∀ {α : Type} (n : Nat) (mk : List ℚ → α) (q : Pix α), 0 < n → group n mk raw p.width p.height = .ok q → raw.length / n = p.height * p.width := by
        intro α n mk q hn hq
        rw [group, chunksExact, if_neg (by omega), okb, assert'] at hq
        split at hq
        · next h => simpa using h
        · cases hq
      split at e
      · next hc =>
        rw [assert'] at e
        split at e
        · next h =>
          rw [hc, Nat.div_one, ← hl]
          exact ⟨by simpa using h, .inl rfl⟩
        · cases e
      · split at e
        · next hc =>
          cases eq : group 3 (fun x => ((x.getD 0 0, x.getD 1 0, x.getD 2 0) : Rgb)) raw p.width p.height with
          | error e' => rw [eq] at e; cases e
          | ok q => rw [hc, ← hl]; exact ⟨hg 3 _ q (by decide) eq, .inr (.inl rfl)⟩
        · split at e
          · next hc =>
            cases eq : group 4 (fun x => ((x.getD 0 0, x.getD 1 0, x.getD 2 0, x.getD 3 0) : Quad)) raw p.width p.height with
            | error e' => rw [eq] at e; cases e
            | ok q => rw [hc, ← hl]; exact ⟨hg 4 _ q (by decide) eq, .inr (.inr rfl)⟩
          · cases e

private theorem no_ok {env : Env} {steps : List Step} {p : Photo} (h : ∀ i j, calibrate env steps p i = .ok j → ∀ k, cropDefault steps p j ≠ .ok k) (i : Inter) :
    ¬ Develops env steps p (.ok i) := by
  unfold Develops
  intro ho
  split at ho
  · cases ho
  · obtain ⟨o, -, h2⟩ := ho
    cases o with
    | error e => cases h2
    | ok j =>
      rw [okb, finish] at h2
      cases e : calibrate env steps p j with
      | error e' => rw [e] at h2; cases h2
      | ok j' =>
        rw [e, okb] at h2
        cases e2 : cropDefault steps p j' with
        | error e' => rw [e2] at h2; cases h2
        | ok k => exact h _ _ e k e2

/-- A crop that leaves the active area (or starts before it) cannot be developed with all steps. -/
theorem C84_crop_leaves_active (env : Env) (steps : List Step) (p : Photo) (h1 : .demosaic ∈ steps) (h2 : .cropActiveArea ∈ steps) (h3 : .cropDefault ∈ steps)
    (a c : Rect) (ha : p.active = some a) (hc : p.crop = some c) (hout : c.x < a.x ∨ c.y < a.y ∨ a.w < c.w ∨ a.h < c.h) (i : Inter) :
    ¬ Develops env steps p (.ok i) := by
  apply no_ok
  intro i j _ k hk
  rw [cropDefault, if_pos (by simpa using h3), hc] at hk
  simp only [Option.or] at hk
  have : cutArea steps p c = .error .panic := by
    rw [cutArea, ha]
    simp only
    rw [if_pos ⟨by simpa using h1, by simpa using h2⟩, adapt, if_neg (by omega)]
  rw [this] at hk
  cases hk

/-- Monochrome pictures (black is zero) cannot be developed when levels are to be corrected. -/
theorem C84_black_is_zero (env : Env) (steps : List Step) (p : Photo) (h : .rescale ∈ steps) (hp : p.photometric = .blackIsZero) (out : R Inter) :
    Develops env steps p out ↔ out = .error .panic := by
  unfold Develops
  rw [rescale, if_pos (by simpa using h), hp]
  exact Iff.rfl

/-- A Fuji sensor that is to be rotated must not have an active area. -/
theorem C84_fuji_active (env : Env) (steps : List Step) (p : Photo) (h1 : .demosaic ∈ steps) (h2 : .cropActiveArea ∈ steps) (ha : p.active.isSome)
    (hf : p.fujiWidth.isSome) (s : Sensor) (cfa : CFA) (hp : p.photometric = .cfa s cfa) (hc : p.cpp = 1) (i : Inter) : ¬ Develops env steps p (.ok i) := by
  unfold Develops
  intro ho
  split at ho
  · cases ho
  · next i0 e =>
    obtain ⟨o, hd, h3⟩ := ho
    have hmono : ∃ q, i0 = .mono q := by
      cases er : rescale steps p with
      | error e' => rw [er] at e; cases e
      | ok d =>
        rw [er, okb, initial, if_pos hc, assert'] at e
        split at e
        · simp only [okb] at e
          injection e with e
          exact ⟨_, e.symm⟩
        · cases e
    obtain ⟨q, rfl⟩ := hmono
    unfold Demosaics at hd
    rw [if_pos (by simpa using h1), hp] at hd
    simp only at hd
    rw [area, if_pos (by simpa using h2), if_pos ⟨ha, hf⟩] at hd
    simp only [panic'] at hd
    rw [hd] at h3
    cases h3

/-! ## Examples -/

/-- A sensor of 10 x 8 places with four black levels; the outermost columns and rows are not part of the picture. -/
def exMosaic (cfa : CFA) : Photo where
  width := 10
  height := 8
  cpp := 1
  data := (List.range 8).flatMap fun r => (List.range 10).map fun c => ((100 * r + c : Nat) : ℚ)
  photometric := .cfa .bayer cfa
  black := [1, 2, 3, 4]
  white := [1000]
  active := some ⟨1, 1, 8, 7⟩
  crop := some ⟨2, 1, 6, 4⟩
  fujiWidth := none
  extraRotate := false
  matrices := fun _ => none
  wb := some (2, 1, 3, 1)

example (cfa : CFA) : Mosaic defaultSteps (exMosaic cfa) (fun r c => ((100 * r + c : Nat) : ℚ)) where
  one := rfl
  data := holds_flatMap 10 8 _
  black := by simp [exMosaic]
  white := by simp [exMosaic]
  even := fun _ => ⟨(rfl : 10 % 2 = 0), (rfl : 8 % 2 = 0)⟩
  demosaic := by simp [defaultSteps]
  unrotated := rfl
  active := by
    intro a h
    have : a = ⟨1, 1, 8, 7⟩ := by simpa [exMosaic] using h.symm
    subst this
    show Within _ ⟨0, 0, 10, 8⟩
    decide
  shownInside := by
    show Within ⟨2, 1, 6, 4⟩ ⟨1, 1, 8, 7⟩
    decide
  shownWide := by show 0 < 6; decide

example (cfa : CFA) : (used defaultSteps (exMosaic cfa)).w = 8 ∧ (used defaultSteps (exMosaic cfa)).h = 7 := ⟨rfl, rfl⟩

/-- Matrices with four rows are accepted by `C84_four`. -/
example : ∃ m, xyzToCam (fun i => if i = .d65 then some [1, 2, 3, 4, 5, 6, 7, 8, 10, 1, 1, 0] else none) = .ok (4, m) := ⟨_, rfl⟩

/-- A picture of 4 x 1 pixels in three colours whose first column is not part of it: the picture shows columns 0 and 1 instead of 1 and 2. -/
def exLinear : Photo where
  width := 4
  height := 1
  cpp := 3
  data := [0, 1, 2, 10, 11, 12, 20, 21, 22, 30, 31, 32]
  photometric := .linear
  black := [0]
  white := [1]
  active := some ⟨1, 0, 3, 1⟩
  crop := some ⟨1, 0, 2, 1⟩
  fujiWidth := none
  extraRotate := false
  matrices := fun _ => none
  wb := none

example (env : Env) : ∃ res : Pix Rgb, (∀ out, Develops env [.demosaic, .cropActiveArea, .cropDefault] exLinear out ↔ out = .ok (.three res)) ∧
    res.data = [(0, 1, 2), (10, 11, 12)] := by
  have hd : Spec.Holds exLinear.data (4 * 3) 1 fun r c => chan ((10 * (c / 3 : Nat), 10 * (c / 3 : Nat) + 1, 10 * (c / 3 : Nat) + 2) : Rgb) (c % 3) := by
    refine ⟨rfl, fun r c hr hc => ?_⟩
    have : r = 0 := by omega
    subst this
    have : ∀ c < 12, exLinear.data[0 * 12 + c]? = some (chan ((10 * (c / 3 : Nat), 10 * (c / 3 : Nat) + 1, 10 * (c / 3 : Nat) + 2) : Rgb) (c % 3)) := by
      decide +kernel
    exact this c hc
  have L : Linear [.demosaic, .cropActiveArea, .cropDefault] exLinear fun _ c => ((10 * (c : ℚ), 10 * (c : ℚ) + 1, 10 * (c : ℚ) + 2) : Rgb) :=
    { three := rfl, photometric := rfl, data := hd, levels := fun _ => .inl rfl, wide := by decide,
      active := fun a h => by
        have : a = ⟨1, 0, 3, 1⟩ := by simpa [exLinear] using h.symm
        subst this
        show Within _ ⟨0, 0, 4, 1⟩
        decide }
  obtain ⟨res, h1, h2, h3, h4⟩ := C84_linear_shifted env _ exLinear _ L 0 (fun _ _ => 0) (by simp) (by simp) (by simp) (by simp) ⟨1, 0, 3, 1⟩ ⟨1, 0, 2, 1⟩
    rfl rfl (by decide) (by decide)
  refine ⟨res, h1, ?_⟩
  have hl := h4.1
  have g0 := h4.2 0 0 (by decide) (by decide)
  have g1 := h4.2 0 1 (by decide) (by decide)
  simp [finished, correctedPixel, chan] at hl g0 g1
  match hr : res.data, hl with
  | [x, y], _ =>
    rw [hr] at g0 g1
    simp at g0 g1
    rw [g0, g1]
    norm_num

/-- A grey picture of 3 x 2 pixels of which the right two columns are shown. -/
def exGrey : Photo where
  width := 3
  height := 2
  cpp := 1
  data := [10, 20, 30, 40, 50, 60]
  photometric := .linear
  black := [10]
  white := [110]
  active := none
  crop := some ⟨1, 0, 2, 2⟩
  fujiWidth := none
  extraRotate := false
  matrices := fun _ => none
  wb := none

example (env : Env) : ∃ res : Pix ℚ, (∀ out, Develops env [.rescale, .cropDefault, .srgb] exGrey out ↔ out = .ok (.mono res)) ∧
    res.data[1 * 2 + 0]? = some (env.gamma (2 / 5)) := by
  have hd : Spec.Holds exGrey.data 3 2 fun r c => ((10 + 10 * (3 * r + c) : Nat) : ℚ) := by
    refine ⟨rfl, fun r c hr hc => ?_⟩
    interval_cases r <;> interval_cases c <;> rfl
  obtain ⟨res, h1, h2, h3, h4⟩ := C84_grey env [.rescale, .cropDefault, .srgb] exGrey _ hd rfl rfl 10 110 rfl rfl rfl 0 (fun _ _ => 0) (by simp) ⟨1, 0, 2, 2⟩
    rfl (by show Within ⟨1, 0, 2, 2⟩ ⟨0, 0, 3, 2⟩; decide) (by decide)
  refine ⟨res, h1, ?_⟩
  rw [h4.2 1 0 (by decide) (by decide)]
  have : scaled 10 110 (((10 + 10 * (3 * (0 + 1) + (1 + 0)) : Nat)) : ℚ) = 2 / 5 := by
    unfold scaled
    norm_num
  simp only [List.mem_cons, true_or, or_true, if_true, this]

end Verif.Props
