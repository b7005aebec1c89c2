import Verif.Proofs.DemosaicOther
/-! # Demosaicing (C83) -/

namespace Verif.Props
open Verif Verif.Dng Verif.Demosaic Verif.Spec.Demosaic

/-! ## PPG -/

theorem ppg_setup {name : List Char} (hb : IsBayer name) (x y : Nat) :
    ∃ cfa s, CFA.new name = .ok cfa ∧ isRgb cfa = true ∧ cfa.shift x y = .ok s ∧ (colFn s = fun r c => colour name 2 (y + r) (x + c)) ∧
      BayerCol (colFn s) := by
  obtain ⟨hp, hl, hR, hG, hB⟩ := bayer_pattern hb
  obtain ⟨cfa, s, e1, en, e2, -, hcol⟩ := cfa_colFn hp hl x y
  refine ⟨cfa, s, e1, isRgb_of (by rw [en]; exact hl) (by rw [en]; exact hR) (by rw [en]; exact hG) (by rw [en]; exact hB), e2, ?_, ?_⟩
  · funext r c; rw [hcol, Nat.add_comm r, Nat.add_comm c]
  · have : colFn s = fun r c => colour name 2 (r + y) (c + x) := by funext r c; exact hcol r c
    rw [this]
    exact bayer_colour hb x y

theorem expand_ok {raw : List ℚ} {dw x y w h : Nat} (hi : Inside raw dw x y w h) (hw : 0 < w) (col : Nat → Nat → Nat) :
    ∃ m, expand raw dw col ⟨x, y, w, h⟩ = .ok m ∧ Meas (sample raw dw x y) col w h m := by
  have e : expand raw dw col ⟨x, y, w, h⟩ =
      .ok fun (r, c, k) => if r < h ∧ c < w ∧ k = col r c then raw.getD ((y + r) * dw + x + c) 0 else 0 := by
    unfold expand
    simp only []
    rw [if_neg (by omega), if_neg]
    rw [Bool.not_eq_true, List.any_eq_false]
    intro r hr
    rw [List.mem_range] at hr
    have h1 : (y + r + 1) * dw ≤ (y + h) * dw := Nat.mul_le_mul_right _ (by omega)
    have h2 := hi.1; have h3 := hi.2
    rw [Nat.add_mul (y + r) 1] at h1
    simp only [decide_eq_true_eq]
    omega
  refine ⟨_, e, ?_⟩
  intro r c hr hc
  simp only [hr, hc, true_and, if_true, sample, Nat.add_assoc]

/-- **C83**, the PPG picture: for every Bayer pattern, every area of at least 6 x 6 pixels inside the sensor and all samples, the demosaicing ends, and
whatever the order in which the row tasks of the three parallel passes make their loads and stores, every channel of every pixel is the value of
`Spec.ppg`, computed from the samples of the area and the colours the sensor has there. -/
theorem C83_ppg_partial (name : List Char) (hb : IsBayer name) (raw : List ℚ) (dw x y w h : Nat) (hi : Inside raw dw x y w h) (hw : 6 ≤ w) (hh : 6 ≤ h) :
    ∃ cfa, CFA.new name = .ok cfa ∧ (∃ out, PpgRuns raw dw cfa ⟨x, y, w, h⟩ out) ∧
      ∀ out, PpgRuns raw dw cfa ⟨x, y, w, h⟩ out → ∀ r c k, r < h → c < w → k < 3 →
        out (r, c, k) = ppg (sample raw dw x y) (fun r c => colour name 2 (y + r) (x + c)) w h r c k := by
  obtain ⟨cfa, s, e1, e2, e3, hcol, B⟩ := ppg_setup hb x y
  obtain ⟨m0, e4, hm⟩ := expand_ok hi (by omega) (colFn s)
  refine ⟨cfa, e1, ?_, ?_⟩
  · obtain ⟨m1, e5⟩ := borders_some (col := colFn s) (h := h) hw m0
    obtain ⟨m2, e6⟩ := par_exists (inv2 B w h m1)
    obtain ⟨m3, e7⟩ := par_exists (inv3 B w h m2)
    obtain ⟨out, e8⟩ := par_exists (inv4 B w h m3)
    exact ⟨out, e2, s, m0, m1, m2, m3, _, e3, e4, e5, hh, hw, e6, e7, e8⟩
  · rintro out ⟨-, s', m0', m1, m2, m3, fuel, f3, f4, f5, -, -, f6, f7, f8⟩ r c k hr hc hk
    simp only at f3 f4 f5 f6 f7 f8
    rw [e3] at f3
    cases f3
    rw [e4] at f4
    cases f4
    rw [← hcol]
    exact stages B hw hh hm f5 f6 f7 f8 hr hc hk

/-- The samples of the sensor are kept: in the channel of its own colour every pixel of the picture holds what was measured there. -/
theorem C83_measured (name : List Char) (hb : IsBayer name) (raw : List ℚ) (dw x y w h : Nat) (hi : Inside raw dw x y w h) (hw : 6 ≤ w) (hh : 6 ≤ h) :
    ∃ cfa, CFA.new name = .ok cfa ∧ ∀ out, PpgRuns raw dw cfa ⟨x, y, w, h⟩ out → ∀ r c, r < h → c < w →
      out (r, c, colour name 2 (y + r) (x + c)) = sample raw dw x y r c := by
  obtain ⟨cfa, e, -, ho⟩ := C83_ppg_partial name hb raw dw x y w h hi hw hh
  refine ⟨cfa, e, fun out h' r c hr hc => ?_⟩
  have lt := (bayer_colour hb x y).lt r c
  rw [Nat.add_comm r, Nat.add_comm c] at lt
  rw [ho out h' r c _ hr hc lt]
  simp [ppg]

/-- A field of one colour comes back as that colour, up to the very edge. -/
theorem C83_flat (name : List Char) (hb : IsBayer name) (raw : List ℚ) (dw x y w h : Nat) (hi : Inside raw dw x y w h) (hw : 6 ≤ w) (hh : 6 ≤ h)
    (v : Nat → ℚ) (hv : ∀ r c, r < h → c < w → sample raw dw x y r c = v (colour name 2 (y + r) (x + c))) :
    ∃ cfa, CFA.new name = .ok cfa ∧ ∀ out, PpgRuns raw dw cfa ⟨x, y, w, h⟩ out → ∀ r c k, r < h → c < w → k < 3 → out (r, c, k) = v k := by
  obtain ⟨cfa, e, -, ho⟩ := C83_ppg_partial name hb raw dw x y w h hi hw hh
  refine ⟨cfa, e, fun out h' r c k hr hc hk => ?_⟩
  obtain ⟨-, s, -, -, -, hcol, B⟩ := ppg_setup hb x y
  rw [ho out h' r c k hr hc hk]
  rw [hcol] at B
  exact ppg_flat B (by omega) (by omega) hv hr hc hk

/-- Grey that changes evenly over the picture, in whatever direction, comes back exactly: no colour appears, except in the outermost row or column. -/
theorem C83_ramp (name : List Char) (hb : IsBayer name) (raw : List ℚ) (dw x y w h : Nat) (hi : Inside raw dw x y w h) (hw : 6 ≤ w) (hh : 6 ≤ h)
    (α β γ : ℚ) (hv : ∀ r c, r < h → c < w → sample raw dw x y r c = α * r + β * c + γ) :
    ∃ cfa, CFA.new name = .ok cfa ∧ ∀ out, PpgRuns raw dw cfa ⟨x, y, w, h⟩ out →
      ∀ r c k, 1 ≤ r → r + 1 < h → 1 ≤ c → c + 1 < w → k < 3 → out (r, c, k) = α * r + β * c + γ := by
  obtain ⟨cfa, e, -, ho⟩ := C83_ppg_partial name hb raw dw x y w h hi hw hh
  refine ⟨cfa, e, fun out h' r c k r1 r2 c1 c2 hk => ?_⟩
  obtain ⟨-, s, -, -, -, hcol, B⟩ := ppg_setup hb x y
  rw [ho out h' r c k (by omega) (by omega) hk]
  rw [hcol] at B
  rw [ppg_ramp B hv r1 r2 c1 c2 hk, hv r c (by omega) (by omega)]

/-- The cell a task is about to access, and whether it stores -/
def nextAccess : Prog → Option (Cell × Bool)
  | .done => none
  | .read c _ => some (c, false)
  | .write c _ _ => some (c, true)

/-- No stray access and no data race: in each of the three passes, after any number of accesses in any order, every task is about to access a cell of the
picture, and no two tasks are about to access the same cell unless both load it. -/
theorem C83_no_race (name : List Char) (hb : IsBayer name) (x y w h : Nat) (pixel : (Nat → Nat → Nat) → Nat → Nat → Prog → Prog)
    (hp : pixel = greenPixel ∨ pixel = rbAtGreenPixel ∨ pixel = rbAtNonGreenPixel) (m : Mem) (sched : List Nat) :
    let tasks := (runSched sched (rowTasks w h (pixel fun r c => colour name 2 (r + y) (c + x)), m)).1
    (∀ p ∈ tasks, ∀ cell st, nextAccess p = some (cell, st) → cell.1 < h ∧ cell.2.1 < w ∧ cell.2.2 < 3) ∧
      ∀ (i j : Nat) p q cell st, i ≠ j → tasks[i]? = some p → tasks[j]? = some q → nextAccess p = some (cell, true) → nextAccess q ≠ some (cell, st) := by
  have B := bayer_colour hb x y
  have main : ∀ {S : Cell → Prop} {fin : Cell → ℚ} {ps : List Prog}, PInv m S fin (inImg w h) (fun i d => d.1 = i + 3) (ps, m) →
      let tasks := (runSched sched (ps, m)).1
      (∀ p ∈ tasks, ∀ cell st, nextAccess p = some (cell, st) → cell.1 < h ∧ cell.2.1 < w ∧ cell.2.2 < 3) ∧
      ∀ (i j : Nat) p q cell st, i ≠ j → tasks[i]? = some p → tasks[j]? = some q → nextAccess p = some (cell, true) → nextAccess q ≠ some (cell, st) := by
    intro S fin ps hI
    have hI' := hI.run sched
    constructor
    · intro p hp cell st hn
      obtain ⟨i, hi, e⟩ := List.getElem_of_mem hp
      have hg := hI'.good i p (by rw [List.getElem?_eq_getElem hi, e])
      cases p with
      | done => cases hn
      | read c k => cases hn; exact hg.2.1
      | write c v q => cases hn; exact hg.2.2.1
    · intro i j p q cell st hij hpi hqj hn hn'
      have gp := hI'.good i p hpi
      have gq := hI'.good j q hqj
      cases p with
      | done => cases hn
      | read c k => cases hn
      | write c v p' =>
        cases hn
        cases q with
        | done => cases hn'
        | read c' k => cases hn'; exact gq.1 gp.1
        | write c' v' q' =>
          cases hn'
          have h1 : cell.1 = i + 3 := gp.2.1
          have h2 : cell.1 = j + 3 := gq.2.1
          omega
  rcases hp with rfl | rfl | rfl
  · exact main (inv2 B w h m)
  · exact main (inv3 B w h m)
  · exact main (inv4 B w h m)

/-- Pictures 4 or 5 pixels wide and more than 6 high: the frame is never finished, the program hangs. -/
theorem C83_narrow_hangs (w h fuel : Nat) (hw : w = 4 ∨ w = 5) (hh : 7 ≤ h) (col : Nat → Nat → Nat) (m : Mem) : borders fuel w h col m = none :=
  foldlM_none _ _ 3 (List.mem_range.mpr (by omega)) (fun b => borderRow_hang hw ⟨by omega, by omega⟩ fuel 0 b (by omega)) m

/-- ...whereas from 6 pixels on it always is. -/
theorem C83_frame_ends (w h : Nat) (hw : 6 ≤ w) (col : Nat → Nat → Nat) (m : Mem) : ∃ m', borders (w + 1) w h col m = some m' := borders_some hw m

/-! A mosaic for the examples: 7 x 7 samples of an RGGB sensor that is dark but for one red place -/

def spot : List ℚ := (List.range 49).map fun i => if i = 2 * 7 + 4 then 1 else 0

/-- The result may leave the range of the samples: here all of them lie between 0 and 1, yet a green value is negative. -/
theorem C83_overshoot : ∃ cfa, CFA.new ['R', 'G', 'G', 'B'] = .ok cfa ∧ ∃ raw : List ℚ, (∀ v ∈ raw, 0 ≤ v ∧ v ≤ 1) ∧
      (∃ out, PpgRuns raw 10 cfa ⟨0, 0, 10, 10⟩ out) ∧ ∀ out, PpgRuns raw 10 cfa ⟨0, 0, 10, 10⟩ out → out (4, 4, 1) = -1 / 4 := by
  let raw : List ℚ := (List.range 100).map fun i => if i = 24 ∨ i = 46 ∨ i = 42 ∨ i = 64 ∨ i = 35 then 1 else 0
  have hi : Inside raw 10 0 0 10 10 := ⟨by decide, by simp [raw]⟩
  obtain ⟨cfa, e, hex, ho⟩ := C83_ppg_partial ['R', 'G', 'G', 'B'] (.inl rfl) raw 10 0 0 10 10 hi (by decide) (by decide)
  refine ⟨cfa, e, raw, by decide +kernel, hex, fun out h' => ?_⟩
  rw [ho out h' 4 4 1 (by decide) (by decide) (by decide)]
  decide +kernel

/-- A pattern whose greens stand in columns passes the check for RGB patterns, but the passes then are a race: depending on which of two row tasks comes
first, one pixel of the picture differs. -/
theorem C83_green_columns : (∃ cfa, CFA.new ['R', 'G', 'B', 'G'] = .ok cfa ∧ isRgb cfa = true) ∧
    ∃ (m : Mem) (s1 s2 : List Nat),
      let tasks := rowTasks 7 8 (rbAtGreenPixel fun r c => colour ['R', 'G', 'B', 'G'] 2 r c)
      (∀ p ∈ (runSched s1 (tasks, m)).1, nextAccess p = none) ∧ (∀ p ∈ (runSched s2 (tasks, m)).1, nextAccess p = none) ∧
      (runSched s1 (tasks, m)).2 (3, 3, 1) ≠ (runSched s2 (tasks, m)).2 (3, 3, 1) := by
  constructor
  · obtain ⟨cfa, s, e1, en, -⟩ := cfa_colFn (name := ['R', 'G', 'B', 'G']) (n := 2) (by decide) (by decide) 0 0
    refine ⟨cfa, e1, isRgb_of ?_ ?_ ?_ ?_⟩ <;> rw [en] <;> decide
  · refine ⟨fun d => if d = (5, 3, 1) then 4 else 0, List.replicate 11 0 ++ List.replicate 11 1, List.replicate 11 1 ++ List.replicate 11 0, ?_⟩
    decide +kernel

/-! ## Superpixels -/

/-- **C83**, superpixels: for every Bayer pattern and every area inside the sensor the picture has half the width and height (rounded down), and its
pixels hold for each channel the mean of the samples of that colour in the 2 x 2 block. -/
theorem C83_superpixel (name : List Char) (hb : IsBayer name) (raw : List ℚ) (dw x y w h : Nat) (hi : Inside raw dw x y w h) (hd : 0 < dw) :
    ∃ cfa px, CFA.new name = .ok cfa ∧ superpixel3 raw dw cfa ⟨x, y, w, h⟩ = .ok (w / 2, h / 2, px) ∧ px.length = w / 2 * (h / 2) ∧
      ∀ i j, i < h / 2 → j < w / 2 → px[i * (w / 2) + j]? =
        some (blockMean (sample raw dw x y) (fun r c => colour name 2 (y + r) (x + c)) (2 * i) (2 * j) 0,
          blockMean (sample raw dw x y) (fun r c => colour name 2 (y + r) (x + c)) (2 * i) (2 * j) 1,
          blockMean (sample raw dw x y) (fun r c => colour name 2 (y + r) (x + c)) (2 * i) (2 * j) 2) :=
  superpixel_ok hb hi hd

/-! ## X-Trans -/

/-- **C83**, X-Trans: for every pattern of red, green and blue filters and every area inside the sensor, each channel of each pixel is the mean of the
samples of that colour at most two rows and two columns away. -/
theorem C83_xtrans (name : List Char) (n : Nat) (hn : IsRgbPattern name n) (raw : List ℚ) (dw x y w h : Nat) (hi : Inside raw dw x y w h) (hw : 0 < w) :
    ∃ cfa px, CFA.new name = .ok cfa ∧ Demosaic.xtrans raw dw cfa ⟨x, y, w, h⟩ = .ok px ∧ px.length = w * h ∧
      ∀ r c, r < h → c < w → px[r * w + c]? =
        some (localMean (sample raw dw x y) (fun r c => colour name n (y + r) (x + c)) w h 2 r c 0,
          localMean (sample raw dw x y) (fun r c => colour name n (y + r) (x + c)) w h 2 r c 1,
          localMean (sample raw dw x y) (fun r c => colour name n (y + r) (x + c)) w h 2 r c 2) :=
  xtrans_ok hn hi hw

def xtransName : List Char := "GBGGRGRGRBGBGBGGRGGRGGBGBGBRGRGRGGBG".toList

/-- In the pattern of Fujifilm's sensors every colour stands within two rows and columns of every place. -/
theorem xtrans_near (i j k : Nat) (hi : i < 6) (hj : j < 6) (hk : k < 3) :
    ∃ a < 3, ∃ b < 3, colour xtransName 6 (i + a) (j + b) = k := by
  have : ∀ i < 6, ∀ j < 6, ∀ k < 3, ∃ a < 3, ∃ b < 3, colour xtransName 6 (i + a) (j + b) = k := by decide +kernel
  exact this i hi j hj k hk

/-- So a field of one colour comes back as that colour, in areas of at least 3 x 3 pixels. -/
theorem C83_xtrans_flat (raw : List ℚ) (dw x y w h : Nat) (hi : Inside raw dw x y w h) (hw : 3 ≤ w) (hh : 3 ≤ h)
    (v : Nat → ℚ) (hv : ∀ r c, r < h → c < w → sample raw dw x y r c = v (colour xtransName 6 (y + r) (x + c))) :
    ∃ cfa px, CFA.new xtransName = .ok cfa ∧ Demosaic.xtrans raw dw cfa ⟨x, y, w, h⟩ = .ok px ∧
      ∀ r c, r < h → c < w → px[r * w + c]? = some (v 0, v 1, v 2) := by
  obtain ⟨cfa, px, e1, e2, -, hp⟩ := C83_xtrans xtransName 6 (by unfold IsRgbPattern xtransName; decide) raw dw x y w h hi (by omega)
  refine ⟨cfa, px, e1, e2, fun r c hr hc => ?_⟩
  rw [hp r c hr hc]
  have near : ∀ k, k < 3 → localMean (sample raw dw x y) (fun r c => colour xtransName 6 (y + r) (x + c)) w h 2 r c k = v k := by
    intro k hk
    apply localMean_flat hv
    -- a corner of a 3 x 3 square that holds the place and lies in the area
    obtain ⟨r0, hr0, hr1, hr2⟩ : ∃ r0, r0 + 2 < h ∧ r0 ≤ r ∧ r ≤ r0 + 2 := by
      by_cases e : r + 2 < h
      · exact ⟨r, e, by omega, by omega⟩
      · exact ⟨h - 3, by omega, by omega, by omega⟩
    obtain ⟨c0, hc0, hc1, hc2⟩ : ∃ c0, c0 + 2 < w ∧ c0 ≤ c ∧ c ≤ c0 + 2 := by
      by_cases e : c + 2 < w
      · exact ⟨c, e, by omega, by omega⟩
      · exact ⟨w - 3, by omega, by omega, by omega⟩
    obtain ⟨a, ha, b, hb, e⟩ := xtrans_near ((y + r0) % 6) ((x + c0) % 6) k (Nat.mod_lt _ (by omega)) (Nat.mod_lt _ (by omega)) hk
    refine ⟨r0 + a, c0 + b, by omega, by omega, by omega, by omega, by omega, by omega, ?_⟩
    rw [← e]
    simp only [colour, Nat.mod_add_mod, Nat.add_assoc]
  rw [near 0 (by omega), near 1 (by omega), near 2 (by omega)]

/-- But the samples are not kept: one bright green place in the dark has its own value spread over its surroundings. -/
theorem C83_xtrans_measured_lost : ∃ cfa px raw, CFA.new xtransName = .ok cfa ∧ Demosaic.xtrans raw 6 cfa ⟨0, 0, 6, 6⟩ = .ok px ∧
    colour xtransName 6 0 0 = 1 ∧ sample raw 6 0 0 0 0 = 1 ∧ (px[0]?.map (·.2.1)) = some (1 / 5) := by
  let raw : List ℚ := (List.range 36).map fun i => if i = 0 then 1 else 0
  obtain ⟨cfa, px, e1, e2, -, hp⟩ := C83_xtrans xtransName 6 (by unfold IsRgbPattern xtransName; decide) raw 6 0 0 6 6 ⟨by decide, by simp [raw]⟩ (by decide)
  refine ⟨cfa, px, raw, e1, e2, by decide, by decide +kernel, ?_⟩
  have := hp 0 0 (by decide) (by decide)
  simp only [Nat.zero_mul, Nat.add_zero] at this
  rw [this]
  decide +kernel

/-! ## The hypotheses can be met -/

example : Inside spot 7 0 0 7 7 ∧ IsBayer ['G', 'R', 'B', 'G'] := ⟨⟨by decide, by simp [spot]⟩, .inr (.inr (.inr rfl))⟩

example : ∃ cfa, CFA.new ['R', 'G', 'G', 'B'] = .ok cfa ∧ ∃ out, PpgRuns spot 7 cfa ⟨0, 0, 7, 7⟩ out ∧ out (2, 4, 0) = 1 ∧ out (2, 3, 0) = 1 / 2 := by
  obtain ⟨cfa, e, ⟨out, h⟩, ho⟩ := C83_ppg_partial ['R', 'G', 'G', 'B'] (.inl rfl) spot 7 0 0 7 7 ⟨by decide, by simp [spot]⟩ (by decide) (by decide)
  refine ⟨cfa, e, out, h, ?_, ?_⟩
  · rw [ho out h 2 4 0 (by decide) (by decide) (by decide)]; decide +kernel
  · rw [ho out h 2 3 0 (by decide) (by decide) (by decide)]; decide +kernel

end Verif.Props
