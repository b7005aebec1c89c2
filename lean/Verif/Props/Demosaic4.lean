import Verif.Proofs.Demosaic4
/-! # C87: demosaicing sensors with four colours

`bilinear4 colors raw dw cfa area` (used for developing) and `superpixel4` (half size); `colors` are the colours of the channels of a pixel. -/

namespace Verif.Props
open Verif Verif.Dng Verif.Demosaic Verif.Spec Verif.Spec.Demosaic
open Verif.Color (Quad)

/-- **C87.** For every block of four different filters, every order of the channels and every area inside the sensor with at least two rows and columns,
each channel of each pixel is the mean of the samples of that colour at most one row and one column away. -/
theorem C87_bilinear (name planes : List Char) (hn : IsFour name planes) (raw : List ℚ) (dw x y w h : Nat) (hi : Inside raw dw x y w h) (hw : 2 ≤ w) (hh : 2 ≤ h) :
    ∃ cfa colors px, CFA.new name = .ok cfa ∧ planeColor planes = .ok colors ∧ bilinear4 colors raw dw cfa ⟨x, y, w, h⟩ = .ok px ∧ Holds px w h fun r c =>
      (localMean (sample raw dw x y) (fun r c => colour4 name planes (y + r) (x + c)) w h 1 r c 0,
        localMean (sample raw dw x y) (fun r c => colour4 name planes (y + r) (x + c)) w h 1 r c 1,
        localMean (sample raw dw x y) (fun r c => colour4 name planes (y + r) (x + c)) w h 1 r c 2,
        localMean (sample raw dw x y) (fun r c => colour4 name planes (y + r) (x + c)) w h 1 r c 3) := by
  obtain ⟨cfa, px, e1, e2, h⟩ := bilinear4_ok hn hi hw hh
  exact ⟨cfa, _, px, e1, planeColor_ok hn, e2, h⟩

/-- The channel of a pixel -/
def quadChan (q : Quad) (k : Nat) : ℚ := match k with | 0 => q.1 | 1 => q.2.1 | 2 => q.2.2.1 | _ => q.2.2.2

/-- So the samples are kept: in the channel of the colour measured at a place the picture holds that very sample. -/
theorem C87_measured (name planes : List Char) (hn : IsFour name planes) (raw : List ℚ) (dw x y w h : Nat) (hi : Inside raw dw x y w h) (hw : 2 ≤ w) (hh : 2 ≤ h)
    (cfa : CFA) (hc : CFA.new name = .ok cfa) (colors : List Nat) (hp : planeColor planes = .ok colors) (px : List Quad)
    (e : bilinear4 colors raw dw cfa ⟨x, y, w, h⟩ = .ok px) (r c : Nat) (hr : r < h) (hcw : c < w) :
    ∃ q, px[r * w + c]? = some q ∧ quadChan q (colour4 name planes (y + r) (x + c)) = raw.getD ((y + r) * dw + (x + c)) 0 := by
  obtain ⟨cfa', colors', px', e1, e2, e3, H⟩ := C87_bilinear name planes hn raw dw x y w h hi hw hh
  rw [hc] at e1; injection e1 with e1; subst e1
  rw [hp] at e2; injection e2 with e2; subst e2
  rw [e] at e3; injection e3 with e3; subst e3
  refine ⟨_, H.2 r c hr hcw, ?_⟩
  have F := four_col hn x y
  have lt := F.lt r c
  have hq : ∀ (k : Nat) (G : Nat → ℚ), k < 4 → quadChan (G 0, G 1, G 2, G 3) k = G k := by
    intro k G hk; interval_cases k <;> rfl
  rw [hq _ (localMean _ _ _ _ _ _ _) lt, localMean_four F (a := r) (b := c) (window_same hh hr) (window_same hw hcw)]
  simp [mean, sample]

/-- A field of one colour, in which the samples of each of the four colours are alike, comes back as that colour. -/
theorem C87_flat (name planes : List Char) (hn : IsFour name planes) (raw : List ℚ) (dw x y w h : Nat) (hi : Inside raw dw x y w h) (hw : 2 ≤ w) (hh : 2 ≤ h)
    (v : Nat → ℚ) (hv : ∀ r c, r < h → c < w → sample raw dw x y r c = v (colour4 name planes (y + r) (x + c))) :
    ∃ cfa colors px, CFA.new name = .ok cfa ∧ planeColor planes = .ok colors ∧ bilinear4 colors raw dw cfa ⟨x, y, w, h⟩ = .ok px ∧
      Holds px w h fun _ _ => (v 0, v 1, v 2, v 3) := by
  obtain ⟨cfa, colors, px, e1, e2, e3, H⟩ := C87_bilinear name planes hn raw dw x y w h hi hw hh
  refine ⟨cfa, colors, px, e1, e2, e3, Holds.same H fun r c hr hc => ?_⟩
  have F := four_col hn x y
  have near : ∀ k, k < 4 → localMean (sample raw dw x y) (fun r c => colour4 name planes (y + r) (x + c)) w h 1 r c k = v k := by
    intro k hk
    apply localMean_flat hv
    have some4 : ∃ a b, a < 2 ∧ b < 2 ∧ colour4 name planes (y + a) (x + b) = k := by
      have l0 := F.lt 0 0; have l1 := F.lt 0 1; have l2 := F.lt 1 0; have l3 := F.lt 1 1
      have n01 := mt (F.eq 0 0 0 1).mp (by decide)
      have n02 := mt (F.eq 0 0 1 0).mp (by decide)
      have n03 := mt (F.eq 0 0 1 1).mp (by decide)
      have n12 := mt (F.eq 0 1 1 0).mp (by decide)
      have n13 := mt (F.eq 0 1 1 1).mp (by decide)
      have n23 := mt (F.eq 1 0 1 1).mp (by decide)
      by_cases h0 : colour4 name planes (y + 0) (x + 0) = k
      · exact ⟨0, 0, by omega, by omega, h0⟩
      by_cases h1 : colour4 name planes (y + 0) (x + 1) = k
      · exact ⟨0, 1, by omega, by omega, h1⟩
      by_cases h2 : colour4 name planes (y + 1) (x + 0) = k
      · exact ⟨1, 0, by omega, by omega, h2⟩
      exact ⟨1, 1, by omega, by omega, by omega⟩
    obtain ⟨a, b, ha, hb, e⟩ := some4
    have near1 : ∀ n i a, 2 ≤ n → i < n → a < 2 → ∃ j, j < n ∧ j ≤ i + 1 ∧ i ≤ j + 1 ∧ j % 2 = a := by
      intro n i a hn hi ha
      by_cases h : i % 2 = a
      · exact ⟨i, hi, by omega, by omega, h⟩
      · by_cases h0 : i = 0
        · exact ⟨1, by omega, by omega, by omega, by omega⟩
        · exact ⟨i - 1, by omega, by omega, by omega, by omega⟩
    obtain ⟨r', r1, r2, r3, r4⟩ := near1 h r a hh hr ha
    obtain ⟨c', c1, c2, c3, c4⟩ := near1 w c b hw hc hb
    exact ⟨r', c', r1, c1, r2, r3, c2, c3, e ▸ (F.eq _ _ _ _).mpr ⟨by omega, by omega⟩⟩
  rw [near 0 (by omega), near 1 (by omega), near 2 (by omega), near 3 (by omega)]

/-- Nothing is made of an area of a single row or column. -/
theorem C87_narrow_panics (colors : List Nat) (raw : List ℚ) (dw : Nat) (cfa : CFA) (roi : Roi) (h : roi.w < 2 ∨ roi.h < 2) (px : List Quad) :
    bilinear4 colors raw dw cfa roi ≠ .ok px := by
  unfold bilinear4
  split
  · intro e; cases e
  · cases cfa.shift roi.x roi.y with
    | error e => intro e; cases e
    | ok s =>
      simp only [bind, Except.bind]
      cases ep : (Pix.Pix.mk dw (raw.length / dw) raw).crop ⟨roi.x, roi.y, roi.w, roi.h⟩ with
      | error e => intro e; cases e
      | ok p =>
        have hp : p.width = roi.w ∧ p.height = roi.h := by
          unfold Pix.Pix.crop at ep
          split at ep
          · cases ep
          · simp only [bind, Except.bind] at ep
            split at ep
            · cases ep
            · injection ep with ep
              subst ep
              exact ⟨rfl, rfl⟩
        simp only
        rw [if_pos (by rw [hp.1, hp.2]; exact h)]
        intro e; cases e

theorem table_miss (colors : List Nat) (k : Nat) (h : k ∉ colors) : planeTable colors k = 255 := by
  have : ∀ (l : List Nat) (i m : Nat), k ∉ l → (l.zipIdx i).foldl (fun m p => if k = p.1 then p.2 else m) m = m := by
    intro l
    induction l with
    | nil => intro i m _; rfl
    | cons a l ih =>
      intro i m hm
      rw [List.zipIdx_cons, List.foldl_cons, if_neg (fun e => hm (by rw [e]; simp))]
      exact ih _ _ (fun e => hm (by simp [e]))
  exact this colors 0 255 h

theorem put_ok_lt {q q' : Quad} {ch : Nat} {v : ℚ} (h : put q ch v = .ok q') : ch < 4 := by
  unfold put at h
  split at h
  · omega
  · split at h
    · omega
    · split at h
      · omega
      · split at h
        · omega
        · cases h

theorem puts_lt (f : Nat × Nat → Nat) (l : List ((Nat × Nat) × ℚ)) (q q' : Quad) (h : l.foldlM (fun q e => put q (f e.1) e.2) q = .ok q') :
    ∀ e ∈ l, f e.1 < 4 := by
  induction l generalizing q with
  | nil => intro e he; cases he
  | cons a l ih =>
    rw [List.foldlM_cons] at h
    cases e1 : put q (f a.1) a.2 with
    | error x => rw [e1] at h; cases h
    | ok q1 =>
      rw [e1] at h
      intro e he
      rcases List.mem_cons.mp he with he | he
      · rw [he]; exact put_ok_lt e1
      · exact ih q1 h e he

theorem mapM_first {α β : Type} (f : β → R α) (a : β) (l : List β) (r : List α) (h : (a :: l).mapM f = .ok r) : ∃ x, f a = .ok x := by
  rw [List.mapM_cons] at h
  cases e : f a with
  | error x => rw [e] at h; cases h
  | ok x => exact ⟨x, rfl⟩

theorem genRows_first (h w : Nat) (f : Nat → Nat → R Quad) (px : List Quad) (hh : 0 < h) (hw : 0 < w) (e : genRows h w f = .ok px) : ∃ x, f 0 0 = .ok x := by
  unfold genRows at e
  cases e1 : (List.range h).mapM fun r => (List.range w).mapM fun c => f r c with
  | error x => rw [e1] at e; cases e
  | ok rows =>
    obtain ⟨n, rfl⟩ : ∃ n, h = n + 1 := ⟨h - 1, by omega⟩
    obtain ⟨m, rfl⟩ : ∃ m, w = m + 1 := ⟨w - 1, by omega⟩
    rw [List.range_succ_eq_map (n := n)] at e1
    obtain ⟨row, e2⟩ := mapM_first _ _ _ _ e1
    rw [List.range_succ_eq_map (n := m)] at e2
    exact mapM_first _ _ _ _ e2

/-- Nor of a sensor with a colour that has no channel. -/
theorem C87_foreign_colour_panics (name : List Char) (hn : Spec.IsPattern name 2 2) (cfa : CFA) (hc : CFA.new name = .ok cfa) (colors : List Nat)
    (ch : Char) (hm : ch ∈ name) (hk : ∀ k, Spec.letterCode ch = some k → k ∉ colors) (raw : List ℚ) (dw : Nat) (roi : Roi) (px : List Quad) :
    bilinear4 colors raw dw cfa roi ≠ .ok px := by
  obtain ⟨c, e, en, hcc⟩ := cfa_new hn
  rw [hc] at e; injection e with e; subst e
  obtain ⟨s, e', hs, -⟩ := cfa_shift hcc (by omega) (by omega) (by decide) (by decide) (fun r j hr hj => colours_lt hn hr hj) roi.x roi.y
  obtain ⟨i, hi, hich⟩ := List.mem_iff_getElem.mp hm
  have h4 : i < 4 := by have := hn.1; omega
  have key : colFn s ((i / 2 + roi.y) % 2) ((i % 2 + roi.x) % 2) = (Spec.letterCode ch).getD 0 := by
    rw [colFn, cfa_colorAt hs (by decide) (by decide)]
    have e1 : ((i / 2 + roi.y) % 2 % 2 + roi.y) % 2 * 2 + ((i % 2 + roi.x) % 2 % 2 + roi.x) % 2 = i := by omega
    simp only [Props.colours]
    rw [e1, List.getElem?_eq_getElem hi, hich]
    rfl
  intro h
  unfold bilinear4 at h
  split at h
  · cases h
  · rw [e'] at h
    simp only [bind, Except.bind] at h
    cases ep : (Pix.Pix.mk dw (raw.length / dw) raw).crop ⟨roi.x, roi.y, roi.w, roi.h⟩ with
    | error x => rw [ep] at h; cases h
    | ok p =>
      rw [ep] at h
      simp only at h
      split at h
      · cases h
      · obtain ⟨q, hq⟩ := genRows_first _ _ _ _ (by omega) (by omega) h
        have hl := puts_lt (fun e => planeTable colors (colFn s e.1 e.2)) _ _ _ hq
        have h0 : planeTable colors (colFn s ((i / 2 + roi.y) % 2) ((i % 2 + roi.x) % 2)) < 4 := by
          have a1 := hl ((0, 0), _) (by simp only [stores, if_true]; exact List.mem_cons_self)
          have a2 := hl ((0, 1), _) (by simp only [stores, if_true]; exact List.mem_cons_of_mem _ List.mem_cons_self)
          have a3 := hl ((1, 0), _) (by simp only [stores, if_true]; exact List.mem_cons_of_mem _ (List.mem_cons_of_mem _ List.mem_cons_self))
          have a4 := hl ((1, 1), _) (by
            simp only [stores, if_true]; exact List.mem_cons_of_mem _ (List.mem_cons_of_mem _ (List.mem_cons_of_mem _ List.mem_cons_self)))
          rcases (by omega : (i / 2 + roi.y) % 2 = 0 ∨ (i / 2 + roi.y) % 2 = 1) with u | u <;>
            rcases (by omega : (i % 2 + roi.x) % 2 = 0 ∨ (i % 2 + roi.x) % 2 = 1) with v | v <;> rw [u, v]
          · exact a1
          · exact a2
          · exact a3
          · exact a4
        have hsome := hn.2.2 ch hm
        obtain ⟨k, hkk⟩ := Option.isSome_iff_exists.mp hsome
        rw [key, hkk, Option.getD_some, table_miss colors k (hk k hkk)] at h0
        omega

example : Spec.IsPattern ['R', 'G', 'G', 'B'] 2 2 ∧ ∀ k, Spec.letterCode 'R' = some k → k ∉ [1, 2, 4, 5] := ⟨by decide, by decide⟩

/-- Nor with another number of channels than four. -/
theorem C87_planes_panic (colors : List Nat) (h : colors.length ≠ 4) (raw : List ℚ) (dw : Nat) (cfa : CFA) (roi : Roi) :
    bilinear4 colors raw dw cfa roi = panic' ∧ superpixel4 colors raw dw cfa roi = panic' := by
  unfold bilinear4 superpixel4
  rw [if_pos h, if_pos h]
  exact ⟨rfl, rfl⟩

/-- **C87**, half size: the picture has half the width and height, rounded down, and its pixels hold the samples of the 2 x 2 blocks: the mean in a block is
over the one sample of that colour. -/
theorem C87_superpixel (name planes : List Char) (hn : IsFour name planes) (raw : List ℚ) (dw x y w h : Nat) (hi : Inside raw dw x y w h) (hd : 0 < dw) :
    ∃ cfa colors px, CFA.new name = .ok cfa ∧ planeColor planes = .ok colors ∧
      superpixel4 colors raw dw cfa ⟨x, y, w, h⟩ = .ok (w / 2, h / 2, px) ∧ Holds px (w / 2) (h / 2) fun i j =>
        (blockMean (sample raw dw x y) (fun r c => colour4 name planes (y + r) (x + c)) (2 * i) (2 * j) 0,
          blockMean (sample raw dw x y) (fun r c => colour4 name planes (y + r) (x + c)) (2 * i) (2 * j) 1,
          blockMean (sample raw dw x y) (fun r c => colour4 name planes (y + r) (x + c)) (2 * i) (2 * j) 2,
          blockMean (sample raw dw x y) (fun r c => colour4 name planes (y + r) (x + c)) (2 * i) (2 * j) 3) := by
  obtain ⟨cfa, px, e1, e2, h⟩ := superpixel4_ok hn hi hd
  exact ⟨cfa, _, px, e1, planeColor_ok hn, e2, h⟩

/-- All four samples of each block are in its pixel. -/
theorem C87_superpixel_all (name planes : List Char) (hn : IsFour name planes) (raw : List ℚ) (dw x y w h : Nat) (hi : Inside raw dw x y w h) (hd : 0 < dw)
    (cfa : CFA) (hc : CFA.new name = .ok cfa) (colors : List Nat) (hp : planeColor planes = .ok colors) (w' h' : Nat) (px : List Quad)
    (e : superpixel4 colors raw dw cfa ⟨x, y, w, h⟩ = .ok (w', h', px)) (i j a b : Nat) (hih : i < h / 2) (hjw : j < w / 2) (ha : a < 2) (hb : b < 2) :
    ∃ q, px[i * w' + j]? = some q ∧
      quadChan q (colour4 name planes (y + a) (x + b)) = raw.getD ((y + (2 * i + a)) * dw + (x + (2 * j + b))) 0 := by
  obtain ⟨cfa', colors', px', e1, e2, e3, H⟩ := C87_superpixel name planes hn raw dw x y w h hi hd
  rw [hc] at e1; injection e1 with e1; subst e1
  rw [hp] at e2; injection e2 with e2; subst e2
  rw [e] at e3; injection e3 with e3
  simp only [Prod.mk.injEq] at e3
  obtain ⟨rfl, rfl, rfl⟩ := e3
  refine ⟨_, H.2 i j hih hjw, ?_⟩
  have F := four_col hn x y
  have lt := F.lt a b
  have hq : ∀ (k : Nat) (G : Nat → ℚ), k < 4 → quadChan (G 0, G 1, G 2, G 3) k = G k := by
    intro k G hk; interval_cases k <;> rfl
  rw [hq _ (blockMean _ _ _ _) lt, blockMean_four F ha hb ((F.eq _ _ _ _).mpr (by omega))]
  rfl

/-! ## Examples -/

example : IsFour "RGEB".toList "RGBE".toList := by unfold IsFour; decide

/-- An area of 3 x 2 places that starts in the second column: the pattern there is `GRG/BEB`. -/
example : ∃ cfa colors px, CFA.new "RGEB".toList = .ok cfa ∧ planeColor "RGBE".toList = .ok colors ∧
    bilinear4 colors [0, 1, 2, 5, 10, 11, 17, 13] 4 cfa ⟨1, 0, 3, 2⟩ = .ok px ∧ px[0 * 3 + 1]? = some (2, 3, 12, 17) := by
  obtain ⟨cfa, colors, px, e1, e2, e3, H⟩ := C87_bilinear "RGEB".toList "RGBE".toList (by unfold IsFour; decide)
    [0, 1, 2, 5, 10, 11, 17, 13] 4 1 0 3 2 ⟨by decide, by decide⟩ (by decide) (by decide)
  refine ⟨cfa, colors, px, e1, e2, e3, ?_⟩
  rw [H.2 0 1 (by decide) (by decide)]
  dsimp only
  have : ∀ k < 4, localMean (sample [0, 1, 2, 5, 10, 11, 17, 13] 4 1 0) (fun r c => colour4 "RGEB".toList "RGBE".toList (0 + r) (1 + c)) 3 2 1 0 1 k =
      [2, 3, 12, 17].getD k 0 := by decide +kernel
  rw [this 0 (by decide), this 1 (by decide), this 2 (by decide), this 3 (by decide)]
  rfl

end Verif.Props
