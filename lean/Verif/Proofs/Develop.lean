import Verif.Spec.Develop
import Verif.Props.Demosaic
import Verif.Props.PixArray
import Verif.Props.PixOps
import Verif.Proofs.Holds
import Mathlib.Tactic.IntervalCases
/-! # Developing: steps -/

namespace Verif.Develop
open Verif Verif.Pix Verif.Dng Verif.Demosaic Verif.Color Verif.Spec Verif.Spec.Demosaic Verif.Spec.Develop Verif.Props

theorem okb {α β : Type} (a : α) (f : α → R β) : ((.ok a : R α) >>= f) = f a := rfl

theorem Holds.map' {α β : Type} {l : List α} {w h : Nat} {f : Nat → Nat → α} (g : α → β) (hd : Holds l w h f) :
    Holds (l.map g) w h fun r c => g (f r c) :=
  ⟨by rw [List.length_map, hd.1], fun r c hr hc => by rw [List.getElem?_map, hd.2 r c hr hc]; rfl⟩

/-- The area as seen from the origin of `A` -/
def rel (c A : Rect) : Rect := ⟨c.x - A.x, c.y - A.y, c.w, c.h⟩

/-- What `cropDefault` cuts with -/
def Cuts (steps : List Step) (p : Photo) (A : Rect) : Prop :=
  .cropDefault ∈ steps → ∀ c, p.crop.or p.active = some c → cutArea steps p c = .ok (rel c A)

theorem crop_cases {steps : List Step} {p : Photo} {A : Rect} (hc : Cuts steps p A)
    (hAa : fullWidth p / 2 < A.w) (i : Inter) (hi : i.dim = (A.w, A.h)) :
    cropDefault steps p i =
      if (((shown steps p A).w, (shown steps p A).h) ≠ (A.w, A.h)) then cutWith (rel (shown steps p A) A) i else .ok i := by
  unfold cropDefault
  by_cases hs : Step.cropDefault ∈ steps
  · rw [if_pos (by simpa using hs)]
    cases e : p.crop.or p.active with
    | none =>
      have : shown steps p A = A := by simp [shown, hs, e]
      rw [this]; simp
    | some c =>
      have hsh : shown steps p A = c := by simp [shown, hs, e]
      rw [hsh]
      show (cutArea steps p c >>= _) = _
      rw [hc hs c e, okb]
      simp only
      have hhalf : ¬ i.dim.1 = fullWidth p / 2 := by
        rw [hi]
        simp only
        omega
      rw [if_neg hhalf, hi]
      rfl
  · rw [if_neg (by simpa using hs)]
    have : shown steps p A = A := by simp [shown, hs]
    rw [this]; simp

theorem shown_rel {steps : List Step} {p : Photo} {A : Rect} (hT : Within (shown steps p A) A)
    (he : ((shown steps p A).w, (shown steps p A).h) = (A.w, A.h)) : (shown steps p A).x - A.x = 0 ∧ (shown steps p A).y - A.y = 0 := by
  obtain ⟨h1, h2, h3, h4⟩ := hT
  simp only [Prod.mk.injEq] at he
  omega

theorem crop_three {steps : List Step} {p : Photo} {A : Rect} (hT : Within (shown steps p A) A) (hw : 0 < (shown steps p A).w) (hc : Cuts steps p A)
    (hAa : fullWidth p / 2 < A.w) (q : Pix Rgb) (hq : q.width = A.w ∧ q.height = A.h) (g : Nat → Nat → Rgb)
    (hg : Holds q.data A.w A.h g) :
    ∃ res : Pix Rgb, cropDefault steps p (.three q) = .ok (.three res) ∧ res.width = (shown steps p A).w ∧ res.height = (shown steps p A).h ∧
      Holds res.data (shown steps p A).w (shown steps p A).h fun r c => g ((shown steps p A).y - A.y + r) ((shown steps p A).x - A.x + c) := by
  rw [crop_cases hc hAa (.three q) (by simp [Inter.dim, hq])]
  by_cases he : ((shown steps p A).w, (shown steps p A).h) = (A.w, A.h)
  · rw [if_neg (by simpa using he)]
    obtain ⟨h1, h2⟩ := shown_rel hT he
    simp only [Prod.mk.injEq] at he
    refine ⟨q, rfl, by rw [hq.1, he.1], by rw [hq.2, he.2], ?_⟩
    rw [h1, h2, he.1, he.2]
    simpa using hg
  · rw [if_pos he]
    obtain ⟨h1, h2, h3, h4⟩ := hT
    obtain ⟨res, -, e1, e2, e3, -, e4, -⟩ := C30_crop_selects_pixels q (rel (shown steps p A) A) g (by rw [hq.1, hq.2]; exact hg) hw
      (by rw [hq.1]; simp only [rel]; omega) (by rw [hq.2]; simp only [rel]; omega)
    refine ⟨res, ?_, e1, e2, e3⟩
    simp only [cutWith, e4]
    rfl

theorem crop_mono {steps : List Step} {p : Photo} {A : Rect} (hT : Within (shown steps p A) A) (hw : 0 < (shown steps p A).w) (hc : Cuts steps p A)
    (hAa : fullWidth p / 2 < A.w) (q : Pix ℚ) (hq : q.width = A.w ∧ q.height = A.h) (g : Nat → Nat → ℚ)
    (hg : Holds q.data A.w A.h g) :
    ∃ res : Pix ℚ, cropDefault steps p (.mono q) = .ok (.mono res) ∧ res.width = (shown steps p A).w ∧ res.height = (shown steps p A).h ∧
      Holds res.data (shown steps p A).w (shown steps p A).h fun r c => g ((shown steps p A).y - A.y + r) ((shown steps p A).x - A.x + c) := by
  rw [crop_cases hc hAa (.mono q) (by simp [Inter.dim, hq])]
  by_cases he : ((shown steps p A).w, (shown steps p A).h) = (A.w, A.h)
  · rw [if_neg (by simpa using he)]
    obtain ⟨h1, h2⟩ := shown_rel hT he
    simp only [Prod.mk.injEq] at he
    refine ⟨q, rfl, by rw [hq.1, he.1], by rw [hq.2, he.2], ?_⟩
    rw [h1, h2, he.1, he.2]
    simpa using hg
  · rw [if_pos he]
    obtain ⟨h1, h2, h3, h4⟩ := hT
    obtain ⟨res, e4, e1, e2, e3, -⟩ := C30_crop_selects_pixels q (rel (shown steps p A) A) g (by rw [hq.1, hq.2]; exact hg) hw
      (by rw [hq.1]; simp only [rel]; omega) (by rw [hq.2]; simp only [rel]; omega)
    refine ⟨res, ?_, e1, e2, e3⟩
    simp only [cutWith, e4]
    rfl

theorem balance_eq (steps : List Step) (p : Photo) : balance p.wb (steps.contains .whiteBalance) = wbOf steps p := by
  by_cases h : Step.whiteBalance ∈ steps <;> cases e : p.wb <;> simp [balance, wbOf, h, e]

/-- After demosaicing, three colours -/
theorem finish_three (env : Env) {steps : List Step} {p : Photo} {A : Rect} {n : Nat} {m : Mat} (hm : .calibrate ∈ steps → xyzToCam p.matrices = .ok (n, m))
    (hT : Within (shown steps p A) A) (hw : 0 < (shown steps p A).w) (hc : Cuts steps p A)
    (hAa : fullWidth p / 2 < A.w) (q : Pix Rgb) (hq : q.width = A.w ∧ q.height = A.h) (g : Nat → Nat → Rgb)
    (hg : Holds q.data A.w A.h g) :
    ∃ res : Pix Rgb, finish env steps p (.three q) = .ok (.three res) ∧ res.width = (shown steps p A).w ∧ res.height = (shown steps p A).h ∧
      Holds res.data (shown steps p A).w (shown steps p A).h fun r c =>
        finished env steps p m (g ((shown steps p A).y - A.y + r) ((shown steps p A).x - A.x + c)) := by
  have h1 : ∃ q' : Pix Rgb, calibrate env steps p (.three q) = .ok (.three q') ∧ (q'.width = A.w ∧ q'.height = A.h) ∧
      Holds q'.data A.w A.h fun r c => if .calibrate ∈ steps then map3 env.norm m (wbOf steps p) (g r c) else g r c := by
    by_cases h : Step.calibrate ∈ steps
    · refine ⟨⟨q.width, q.height, q.data.map (map3 env.norm m (wbOf steps p))⟩, ?_, hq, ?_⟩
      · rw [calibrate, if_pos (by simpa using h), hm h, balance_eq]
        rfl
      · simp only [h, if_true]
        exact Holds.map' _ hg
    · refine ⟨q, ?_, hq, ?_⟩
      · rw [calibrate, if_neg (by simpa using h)]
      · simp only [h, if_false]
        exact hg
  obtain ⟨q', e1, hq', hg'⟩ := h1
  obtain ⟨res, e2, w1, w2, hr⟩ := crop_three hT hw hc hAa q' hq' _ hg'
  by_cases h : Step.srgb ∈ steps
  · refine ⟨⟨res.width, res.height, res.data.map fun x => (env.gamma x.1, env.gamma x.2.1, env.gamma x.2.2)⟩, ?_, w1, w2, ?_⟩
    · rw [finish, e1, okb, e2, okb, srgb, if_pos (by simpa using h)]
    · have := Holds.map' (fun x : Rgb => ((env.gamma x.1, env.gamma x.2.1, env.gamma x.2.2) : Rgb)) hr
      simpa only [finished, h, if_true] using this
  · refine ⟨res, ?_, w1, w2, ?_⟩
    · rw [finish, e1, okb, e2, okb, srgb, if_neg (by simpa using h)]
    · simpa only [finished, h, if_false] using hr

/-- What is cut, when the active area was cut out or there is none -/
theorem cuts_used {steps : List Step} {p : Photo} (hd : .demosaic ∈ steps) (hT : Within (shown steps p (used steps p)) (used steps p)) :
    Cuts steps p (used steps p) := by
  intro hs c e
  have hd' : steps.contains .demosaic = true := by simpa using hd
  have hsh : shown steps p (used steps p) = c := by simp [shown, hs, e]
  rw [hsh] at hT
  obtain ⟨t1, t2, t3, t4⟩ := hT
  unfold cutArea
  cases ea : p.active with
  | none =>
    have : used steps p = whole p := by simp [used, ea]
    simp only [this, rel, whole, Nat.sub_zero]
  | some a =>
    simp only [hd', true_and]
    by_cases hca : Step.cropActiveArea ∈ steps
    · have hu : used steps p = a := by simp [used, ea, hca]
      rw [hu] at t1 t2 t3 t4
      rw [if_pos (by simpa using hca), hu, adapt, if_pos (by omega)]
      rfl
    · have : used steps p = whole p := by simp [used, hca]
      rw [if_neg (by simpa using hca)]
      simp only [this, rel, whole, Nat.sub_zero]

theorem bayerLevels_ok {l : List ℚ} (h : l ≠ []) : ∃ b, bayerLevels l = .ok b ∧ ∀ r c, b.getD (r % 2 * 2 + c % 2) 0 = levelOf l r c := by
  unfold bayerLevels levelOf
  by_cases h4 : l.length = 4
  · exact ⟨l, by rw [if_pos h4], fun r c => by rw [if_pos h4]⟩
  · obtain ⟨a, t, rfl⟩ := List.exists_cons_of_ne_nil h
    refine ⟨[a, a, a, a], by rw [if_neg h4]; rfl, fun r c => ?_⟩
    rw [if_neg h4]
    have : r % 2 * 2 + c % 2 < 4 := by omega
    interval_cases (r % 2 * 2 + c % 2) <;> rfl

/-- The samples before demosaicing -/
theorem rescaled {steps : List Step} {p : Photo} {sensor : Sensor} {pattern : CFA} (hp : p.photometric = .cfa sensor pattern) (hb : p.black ≠ [])
    (hw : p.white ≠ []) (h0 : 0 < p.width) (he : .rescale ∈ steps → p.width % 2 = 0 ∧ p.height % 2 = 0) (f : Nat → Nat → ℚ)
    (hd : Holds p.data p.width p.height f) :
    ∃ raw, rescale steps p = .ok raw ∧ Holds raw p.width p.height (corrected steps p f) := by
  by_cases hs : Step.rescale ∈ steps
  · obtain ⟨b, e1, h1⟩ := bayerLevels_ok hb
    obtain ⟨w, e2, h2⟩ := bayerLevels_ok hw
    obtain ⟨out, e3, h3⟩ := C44_exact_correction_partial (level b w) p.data p.width p.height f h0 hd
    refine ⟨out, ?_, Holds.same h3 ?_⟩
    · rw [rescale, if_pos (by simpa using hs), hp]
      simp only [e1, e2, okb]
      exact e3
    · intro r c hr hc
      obtain ⟨q1, q2⟩ := he hs
      rw [if_pos (by omega), corrected, if_pos hs, level, h1 r c, h2 r c, scaled, max_def]
      by_cases hn : f r c - levelOf p.black r c < 0
      · rw [if_pos hn, if_neg (not_le.2 hn)]
      · rw [if_neg hn, if_pos (not_lt.1 hn)]
  · refine ⟨p.data, by rw [rescale, if_neg (by simpa using hs)], Holds.same hd fun r c _ _ => by rw [corrected, if_neg hs]⟩

theorem initial_mono {p : Photo} {raw : List ℚ} (hc : p.cpp = 1) {f : Nat → Nat → ℚ} (hd : Holds raw p.width p.height f) :
    initial p raw = .ok (.mono ⟨p.width, p.height, raw⟩) := by
  rw [initial, if_pos hc, assert', if_pos (by simpa using hd.1)]
  rfl

theorem area_ok {steps : List Step} {p : Photo} (h : .cropActiveArea ∈ steps → p.active = none ∨ p.fujiWidth = none) :
    area steps p p.width p.height = .ok (used steps p) := by
  unfold area used whole
  by_cases hs : Step.cropActiveArea ∈ steps
  · rw [if_pos (by simpa using hs), if_pos hs, if_neg]
    rintro ⟨h1, h2⟩
    rcases h hs with e | e
    · rw [e] at h1; simp at h1
    · rw [e] at h2; simp at h2
  · rw [if_neg (by simpa using hs), if_neg hs]

theorem inside_of {steps : List Step} {p : Photo} {raw : List ℚ} {f : Nat → Nat → ℚ} (hd : Holds raw p.width p.height f)
    (hu : Within (used steps p) (whole p)) : Inside raw p.width (used steps p).x (used steps p).y (used steps p).w (used steps p).h := by
  obtain ⟨h1, h2, h3, h4⟩ := hu
  simp only [whole, Nat.zero_add] at h3 h4
  exact ⟨h3, by rw [hd.1]; exact Nat.mul_le_mul_right _ h4⟩

theorem sample_of {p : Photo} {raw : List ℚ} {f : Nat → Nat → ℚ} (hd : Holds raw p.width p.height f) {x y r c : Nat} (hr : y + r < p.height)
    (hc : x + c < p.width) : sample raw p.width x y r c = f (y + r) (x + c) := by
  rw [sample, List.getD, hd.2 (y + r) (x + c) hr hc]
  rfl

theorem scaled_eq (b w v : ℚ) : (if v - b < 0 then 0 else v - b) / (w - b) = scaled b w v := by
  rw [scaled, max_def]
  by_cases hn : v - b < 0
  · rw [if_pos hn, if_neg (not_le.2 hn)]
  · rw [if_neg hn, if_pos (not_lt.1 hn)]

/-- The samples of a picture in three colours -/
theorem rescaled_linear {steps : List Step} {p : Photo} {g : Nat → Nat → Rgb} (L : Linear steps p g) :
    ∃ raw, rescale steps p = .ok raw ∧ Holds raw (p.width * 3) p.height fun r c => chan (correctedPixel steps p (g r (c / 3))) (c % 3) := by
  have hch : ∀ (v : Rgb) (k : Nat), k < 3 → chan (correctedPixel steps p v) k =
      if .rescale ∈ steps ∧ p.black.length = p.white.length then
      scaled (p.black.getD (if p.black.length = 1 then 0 else k) 0) (p.white.getD (if p.black.length = 1 then 0 else k) 0) (chan v k) else chan v k := by
    intro v k hk
    interval_cases k <;> rfl
  by_cases hs : Step.rescale ∈ steps
  · by_cases hl : p.black.length = p.white.length
    · have hlen := L.levels hl
      refine ⟨_, by rw [rescale, if_pos (by simpa using hs), L.photometric]; simp only; rw [correctLinear, if_neg (by simpa using hl), if_neg (by omega)], ?_⟩
      refine ⟨by rw [List.length_mapIdx, L.data.1], fun r c hr hc => ?_⟩
      have hlt : r * (p.width * 3) + c < p.height * (p.width * 3) := mul_add_lt hr hc
      have hmod : (r * (p.width * 3) + c) % 3 = c % 3 := by
        rw [← Nat.mul_assoc]; omega
      have hdiv : p.height * (p.width * 3) = p.height * p.width * 3 := by rw [Nat.mul_assoc]
      rw [List.getElem?_mapIdx, L.data.2 r c hr hc, Option.map_some]
      dsimp only
      rw [hch _ _ (Nat.mod_lt _ (by omega)), if_pos (show Step.rescale ∈ steps ∧ p.black.length = p.white.length from ⟨hs, hl⟩), L.data.1]
      congr 1
      rcases hlen with h | h
      · rw [h, if_pos (by omega), Nat.mod_one, level, scaled_eq, if_pos rfl]
      · rw [h, if_pos (by omega), hmod, level, scaled_eq, if_neg (by omega)]
    · refine ⟨p.data, ?_, Holds.same L.data fun r c _ _ => ?_⟩
      · rw [rescale, if_pos (by simpa using hs), L.photometric]; simp only; rw [correctLinear, if_pos hl]
      · rw [hch _ _ (Nat.mod_lt _ (by omega)), if_neg (fun h => hl h.2)]
  · refine ⟨p.data, by rw [rescale, if_neg (by simpa using hs)], Holds.same L.data fun r c _ _ => ?_⟩
    rw [hch _ _ (Nat.mod_lt _ (by omega)), if_neg (fun h => hs h.1)]

theorem initial_three {p : Photo} {raw : List ℚ} (hc : p.cpp = 3) {g : Nat → Nat → Rgb}
    (hd : Holds raw (p.width * 3) p.height fun r c => chan (g r (c / 3)) (c % 3)) :
    ∃ l, initial p raw = .ok (.three ⟨p.width, p.height, l⟩) ∧ Holds l p.width p.height g := by
  have hlen : raw.length / 3 = p.height * p.width := by rw [hd.1, ← Nat.mul_assoc]; omega
  refine ⟨((List.range (raw.length / 3)).map fun i => (raw.drop (i * 3)).take 3).map fun x => (x.getD 0 0, x.getD 1 0, x.getD 2 0), ?_, ?_, ?_⟩
  · rw [initial, if_neg (by omega), if_pos hc, group, chunksExact, if_neg (by omega), okb, assert',
      if_pos (by simp [hlen])]
    rfl
  · simp [hlen]
  · intro r c hr hcw
    have hlt : r * p.width + c < raw.length / 3 := by rw [hlen]; exact mul_add_lt hr hcw
    rw [List.getElem?_map, List.getElem?_map, List.getElem?_range hlt]
    simp only [Option.map_some]
    congr 1
    have get : ∀ k, k < 3 → ((raw.drop ((r * p.width + c) * 3)).take 3).getD k 0 = chan (g r c) k := by
      intro k hk
      have := hd.2 r (c * 3 + k) hr (by omega)
      dsimp only at this
      rw [List.getD, List.getElem?_take, if_pos hk, List.getElem?_drop,
        show (r * p.width + c) * 3 + k = r * (p.width * 3) + (c * 3 + k) by rw [Nat.add_mul, Nat.mul_assoc, Nat.add_assoc], this,
        show (c * 3 + k) / 3 = c by omega, show (c * 3 + k) % 3 = k by omega]
      rfl
    rw [get 0 (by omega), get 1 (by omega), get 2 (by omega)]
    rfl

end Verif.Develop
