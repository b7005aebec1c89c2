import Verif.Proofs.CrxSynth
import Verif.Props.CrxRange

/-! A whole plane is its only tile; sizes and flags for which nothing can be decoded. -/

namespace Verif.Crx

open Verif.Wav Verif.Props

/-- The widths of the only tile of a plane -/
def planeTiles : Nat → Nat → List TileW
  | 0, _ => []
  | k + 1, w => ⟨w, w / 2, (w + 1) / 2⟩ :: planeTiles k ((w + 1) / 2)

def lastW : Nat → Nat → Nat
  | 0, w => w
  | k + 1, w => lastW k ((w + 1) / 2)

theorem window_rect (n m : Nat) (s : Int) (Y : Img) : Rect n m (window n m s Y) := by
  refine ⟨by simp [window], ?_⟩
  intro row h
  simp only [window, List.mem_map] at h
  obtain ⟨r, _, e⟩ := h
  subst e; simp

theorem forward_eq : ∀ (k h w : Nat) (rows : List (List Int)), Rect h w rows →
    tileBands false (planeTiles k w) h w 0 (lastW k w) rows = forward k h w rows := by
  intro k
  induction k with
  | zero =>
    intro h w rows hr
    simp only [planeTiles, tileBands, lastW, forward, Prod.mk.injEq, true_and]
    apply window_eq hr
    intro r c h1 h2
    simp only [ext, at2]
    rw [reflect_id (by omega) (by omega), reflect_id (by omega) (by omega)]
    simp
  | succ k ih =>
    intro h w rows hr
    have := ih ((h + 1) / 2) ((w + 1) / 2) (window ((h + 1) / 2) ((w + 1) / 2) 0 (LL (ext h w rows))) (window_rect _ _ _ _)
    simp only [planeTiles, tileBands, lastW, forward, Nat.zero_div, this]
    rfl

theorem belowW_plane (k w : Nat) : belowW (planeTiles k w) (lastW k w) = w := by cases k <;> rfl

theorem tileOK_plane : ∀ (k h w : Nat), SizesOK (planeSizes k h w) → TileOK false false (planeTiles k w) h w 0 (lastW k w) := by
  intro k
  induction k with
  | zero => intros; trivial
  | succ k ih =>
    intro h w hs
    have h0 := hs (h, w) (by simp [planeSizes])
    simp only at h0
    refine ⟨by omega, ?_, by simp, rfl, fun _ => rfl, by simp, by simp [needHigh], by simp [needLow], ?_, ?_⟩
    · simp only []; omega
    · rw [show lastW (k + 1) w = lastW k ((w + 1) / 2) from rfl, belowW_plane]; simp [needLow]
    · exact ih _ _ (fun s h => hs s (by simp [planeSizes, h]))

theorem tileSizes_plane : ∀ (k h w : Nat), tileSizes (planeTiles k w) h = planeSizes k h w := by
  intro k
  induction k with
  | zero => intros; rfl
  | succ k ih => intro h w; simp only [planeTiles, tileSizes, planeSizes, ih]

theorem planeTiles_length (k w : Nat) : (planeTiles k w).length = k := by
  induction k generalizing w with
  | zero => rfl
  | succ k ih => simp [planeTiles, ih]

theorem forward_length (k h w : Nat) (rows) : (forward k h w rows).1.length = k := by
  induction k generalizing h w rows with
  | zero => rfl
  | succ k ih => simp [forward, ih]

theorem plane_ok {P : Type} (next : P → R (List Int × P)) (k h w : Nat) (hk : 0 < k) (rows : List (List Int)) (hr : Rect h w rows)
    (hs : SizesOK (planeSizes k h w)) (hbd : LevelsBd k h w rows) (ps : List (P × P × P)) (ll : P)
    (hg : GivesAll next ps (forward k h w rows).1) (hl : Gives next ll (forward k h w rows).2) :
    wavePlane next ⟨false, false, false, false⟩ h w (newLevels (planeSizes k h w) ps) ll = .ok rows := by
  have hf := forward_eq k h w rows hr
  have ht := tileSizes_plane k h w
  obtain ⟨k, rfl⟩ : ∃ k', k = k' + 1 := ⟨k - 1, by omega⟩
  have hlen := planeTiles_length (k + 1) w
  have := tile_ok next ⟨false, false, false, false⟩ rfl rfl ⟨w, w / 2, (w + 1) / 2⟩ (planeTiles k ((w + 1) / 2)) h w 0 (lastW (k + 1) w) rows hr.1 hr.2
    (tileOK_plane (k + 1) h w hs) (by
      rw [show ((⟨w, w / 2, (w + 1) / 2⟩ : TileW) :: planeTiles k ((w + 1) / 2)) = planeTiles (k + 1) w from rfl, hlen]; exact hbd) ps ll
    (by
      have := hf; simp only [planeTiles] at this; simp only []; rw [this]; exact hg)
    (by
      have := hf; simp only [planeTiles] at this; simp only []; rw [this]; exact hl)
  rw [show ((⟨w, w / 2, (w + 1) / 2⟩ : TileW) :: planeTiles k ((w + 1) / 2)) = planeTiles (k + 1) w from rfl, ht] at this
  rw [this]
  congr 1
  conv => rhs; rw [← List.map_id rows]
  apply List.map_congr_left
  intro row hrow
  have := hr.2 row hrow
  simp only [List.drop_zero, id]
  rw [← this, List.take_length]

/-! ## Sizes that cannot be decoded -/

theorem usub_inv {a b c : Nat} (h : usub a b = .ok c) : b ≤ a := by
  unfold usub at h; split at h
  · assumption
  · cases h

theorem setLine_inv {w w' : Wt} {i f} (h : setLine w i f = .ok w') : (∃ l l', f l = .ok l') ∧ w' = { w with lines := w'.lines } := by
  unfold setLine at h
  obtain ⟨l, _, h⟩ := bind_inv _ _ _ h
  obtain ⟨l', h1, h⟩ := bind_inv _ _ _ h
  obtain ⟨ls, _, h⟩ := bind_inv _ _ _ h
  cases h
  exact ⟨⟨l, l', h1⟩, rfl⟩

theorem swap12_inv {w w' : Wt} (h : swap12 w = .ok w') : w' = { w with lines := w'.lines } := by
  unfold swap12 at h
  obtain ⟨_, _, h⟩ := bind_inv _ _ _ h
  obtain ⟨_, _, h⟩ := bind_inv _ _ _ h
  obtain ⟨_, _, h⟩ := bind_inv _ _ _ h
  obtain ⟨_, _, h⟩ := bind_inv _ _ _ h
  cases h; rfl

theorem horiz_two {site f lo hi line l'} : horiz site f 2 lo hi line ≠ .ok l' := by
  intro h
  rw [horiz, if_neg (by omega)] at h
  obtain ⟨⟨_, _⟩, _, h⟩ := bind_inv _ _ _ h
  obtain ⟨_, h1, h⟩ := bind_inv _ _ _ h
  have := usub_inv h1
  omega

variable {P : Type} {next : P → R (List Int × P)}

/-- The size of a level does not change. -/
def Same (a b : Wt) : Prop := a.height = b.height ∧ a.width = b.width ∧ a.curLine = b.curLine ∧ a.curH = b.curH

theorem load0_inv {l l' : Lvl P} {ll ll'} (h : load0 next l ll = .ok (l', ll')) : Same l'.wt l.wt := by
  unfold load0 at h
  obtain ⟨⟨_, _⟩, _, h⟩ := bind_inv _ _ _ h
  cases h; exact ⟨rfl, rfl, rfl, rfl⟩

theorem load1_inv {l l' : Lvl P} (h : load1 next l = .ok l') : Same l'.wt l.wt := by
  unfold load1 at h
  obtain ⟨⟨_, _⟩, _, h⟩ := bind_inv _ _ _ h
  cases h; exact ⟨rfl, rfl, rfl, rfl⟩

theorem load23_inv {l l' : Lvl P} (h : load23 next l = .ok l') : Same l'.wt l.wt := by
  unfold load23 at h
  obtain ⟨⟨_, _⟩, _, h⟩ := bind_inv _ _ _ h
  obtain ⟨⟨_, _⟩, _, h⟩ := bind_inv _ _ _ h
  cases h; exact ⟨rfl, rfl, rfl, rfl⟩

theorem fromBelow_inv {l l' : Lvl P} {rest rest'} (h : fromBelow l rest = .ok (l', rest')) : Same l'.wt l.wt := by
  cases rest with
  | nil => cases h; exact ⟨rfl, rfl, rfl, rfl⟩
  | cons b rest =>
    simp only [fromBelow] at h
    obtain ⟨⟨_, _⟩, _, h⟩ := bind_inv _ _ _ h
    cases h; exact ⟨rfl, rfl, rfl, rfl⟩

theorem initLow_inv {l l' : Lvl P} {rest rest' ll ll'} (h : initLow next l rest ll = .ok (l', rest', ll')) : Same l'.wt l.wt := by
  unfold initLow at h
  cases rest with
  | nil =>
    obtain ⟨⟨_, _⟩, h1, h⟩ := bind_inv _ _ _ h
    cases h; exact load0_inv h1
  | cons b rest =>
    obtain ⟨⟨_, _⟩, h1, h⟩ := bind_inv _ _ _ h
    cases h; exact fromBelow_inv h1

theorem Same.trans {a b c : Wt} (h : Same a b) (g : Same b c) : Same a c :=
  ⟨h.1.trans g.1, h.2.1.trans g.2.1, h.2.2.1.trans g.2.2.1, h.2.2.2.trans g.2.2.2⟩

theorem initMany_inv {f w w'} (h : initMany f w = .ok w') : w.width ≠ 2 ∧ Same w' w := by
  unfold initMany at h
  obtain ⟨w1, h1, h⟩ := bind_inv _ _ _ h
  obtain ⟨w2, h2, h⟩ := bind_inv _ _ _ h
  obtain ⟨_, _, h⟩ := bind_inv _ _ _ h
  obtain ⟨_, _, h⟩ := bind_inv _ _ _ h
  obtain ⟨_, _, h⟩ := bind_inv _ _ _ h
  obtain ⟨⟨l, l', e1⟩, s1⟩ := setLine_inv h1
  obtain ⟨_, s2⟩ := setLine_inv h2
  obtain ⟨_, s3⟩ := setLine_inv h
  refine ⟨fun e => ?_, ?_⟩
  · rw [e] at e1; exact horiz_two e1
  · rw [s3, s2, s1]; exact ⟨rfl, rfl, rfl, rfl⟩

theorem initSingle_inv {f w w'} (h : initSingle f w = .ok w') : w.width ≠ 2 := by
  unfold initSingle at h
  obtain ⟨w1, h1, h⟩ := bind_inv _ _ _ h
  obtain ⟨⟨l, l', e1⟩, s1⟩ := setLine_inv h1
  intro e; rw [e] at e1; exact horiz_two e1

theorem filterDecode_height {f} {l : Lvl P} {rest ll r} (h0 : l.wt.curH = 0) (h : filterDecode next f (l :: rest) ll = .ok r) : 3 ≤ l.wt.height := by
  unfold filterDecode at h
  rw [if_neg (by omega)] at h
  obtain ⟨_, h1, _⟩ := bind_inv _ _ _ h
  exact usub_inv h1

/-- A level of height or width 2 stops the decoder. -/
theorem filterInit_two (f : Flags) : ∀ (sizes : List (Nat × Nat)) (ps : List (P × P × P)) (ll : P) (r),
    sizes.length ≤ ps.length → (∃ s ∈ sizes, s.1 = 2 ∨ s.2 = 2) → filterInit next f (newLevels sizes ps) ll ≠ .ok r := by
  intro sizes
  induction sizes with
  | nil => intro ps ll r _ h; simp at h
  | cons s sizes ih =>
    intro ps ll r hl hs h
    cases ps with
    | nil => simp at hl
    | cons p ps =>
      simp only [newLevels, List.zipWith_cons_cons, filterInit] at h
      obtain ⟨⟨rest, ll1⟩, h1, h⟩ := bind_inv _ _ _ h
      by_cases hr : ∃ s ∈ sizes, s.1 = 2 ∨ s.2 = 2
      · exact ih ps ll _ (by simpa using hl) hr h1
      have hs : s.1 = 2 ∨ s.2 = 2 := by
        obtain ⟨s', h1, h2⟩ := hs
        rcases List.mem_cons.mp h1 with e | e
        · subst e; exact h2
        · exact absurd ⟨s', e, h2⟩ hr
      obtain ⟨⟨l2, rest2, ll2⟩, h2, h⟩ := bind_inv _ _ _ h
      obtain ⟨l3, h3, h⟩ := bind_inv _ _ _ h
      have s2 := initLow_inv h2
      have s3 := (load1_inv h3).trans s2
      simp only at h s2
      split at h
      · obtain ⟨l4, h4, h⟩ := bind_inv _ _ _ h
        obtain ⟨_, _, h⟩ := bind_inv _ _ _ h
        obtain ⟨w5, h5, h⟩ := bind_inv _ _ _ h
        obtain ⟨⟨ls6, ll6⟩, h6, h⟩ := bind_inv _ _ _ h
        have s4 := (load23_inv h4).trans s3
        obtain ⟨n5, s5⟩ := initMany_inv h5
        have s5 := s5.trans s4
        have := filterDecode_height (by simp only []; exact s5.2.2.2) h6
        have e1 : w5.height = s.1 := s5.1
        have e2 : l4.wt.width = s.2 := s4.2.1
        simp only [] at this
        omega
      · rename_i hh
        obtain ⟨w5, h5, h⟩ := bind_inv _ _ _ h
        have := initSingle_inv h5
        have e1 : l3.wt.height = s.1 := s3.1
        have e2 : l3.wt.width = s.2 := s3.2.1
        omega

/-! ## Tiles with a tile below -/

theorem filterDecode_same {f} {l : Lvl P} {rest ll r ll'} (h : filterDecode next f (l :: rest) ll = .ok (r, ll')) :
    ∃ l' rest', r = l' :: rest' ∧ Same l'.wt l.wt := by
  unfold filterDecode at h
  split at h
  · cases h; exact ⟨_, _, rfl, rfl, rfl, rfl, rfl⟩
  · obtain ⟨_, _, h⟩ := bind_inv _ _ _ h
    dsimp only at h
    split at h
    · cases h; exact ⟨_, _, rfl, rfl, rfl, rfl, rfl⟩
    · obtain ⟨⟨l1, rest1, ll1⟩, h1, h⟩ := bind_inv _ _ _ h
      have s1 : Same l1.wt l.wt := by
        split at h1
        · obtain ⟨⟨_, _⟩, h2, h1⟩ := bind_inv _ _ _ h1
          cases h1; exact load0_inv h2
        · obtain ⟨⟨_, _⟩, h2, h1⟩ := bind_inv _ _ _ h1
          cases h1; exact ⟨rfl, rfl, rfl, rfl⟩
      obtain ⟨l2, h2, h⟩ := bind_inv _ _ _ h
      have s2 := (load1_inv h2).trans s1
      split at h
      · cases h; exact ⟨_, _, rfl, s2⟩
      · obtain ⟨l3, h3, h⟩ := bind_inv _ _ _ h
        cases h; exact ⟨_, _, rfl, (load23_inv h3).trans s2⟩

/-- With a tile below, the level never gets past its last line but one. -/
def Low (h t : Nat) (w : Wt) : Prop := w.height = h ∧ w.curLine = t + w.curH ∧ w.curLine + 2 ≤ h

theorem middle_low {f w w' h t} (hi : Low h t w) (hc : w.curLine < h - 3) (e : middle f w = .ok w') : Low h t w' := by
  unfold middle at e
  obtain ⟨w1, h1, e⟩ := bind_inv _ _ _ e
  obtain ⟨w2, h2, e⟩ := bind_inv _ _ _ e
  obtain ⟨w3, h3, e⟩ := bind_inv _ _ _ e
  obtain ⟨_, _, e⟩ := bind_inv _ _ _ e
  obtain ⟨_, _, e⟩ := bind_inv _ _ _ e
  obtain ⟨_, _, e⟩ := bind_inv _ _ _ e
  obtain ⟨_, _, e⟩ := bind_inv _ _ _ e
  obtain ⟨_, _, e⟩ := bind_inv _ _ _ e
  obtain ⟨_, _, e⟩ := bind_inv _ _ _ e
  obtain ⟨w4, h4, e⟩ := bind_inv _ _ _ e
  obtain ⟨w5, h5, e⟩ := bind_inv _ _ _ e
  obtain ⟨n, hn, e⟩ := bind_inv _ _ _ e
  have s1 := (setLine_inv h1).2
  have s2 := (setLine_inv h2).2
  have s3 := swap12_inv h3
  have s4 := (setLine_inv h4).2
  have s5 := (setLine_inv h5).2
  obtain ⟨a, b, c⟩ := hi
  have hw : w5.height = w.height ∧ w5.curLine = w.curLine ∧ w5.curH = w.curH := by
    rw [s5, s4, s3, s2, s1]; exact ⟨rfl, rfl, rfl⟩
  have hn' : n = h - 3 := by
    unfold usub at hn
    split at hn
    · cases hn; omega
    · cases hn
  rw [if_neg (by omega)] at e
  cases e
  refine ⟨?_, ?_, ?_⟩ <;> simp only [] <;> omega

theorem filterTransform_low {f} (hf : f.bottom = true) {l : Lvl P} {rest r h t} (hi : Low h t l.wt) (e : filterTransform f (l :: rest) = .ok r) :
    ∃ l' rest', r = l' :: rest' ∧ Low h t l'.wt := by
  unfold filterTransform at e
  split at e
  · cases e; exact ⟨_, _, rfl, hi⟩
  · obtain ⟨n, hn, e⟩ := bind_inv _ _ _ e
    have hn' : n = h - 3 := by
      unfold usub at hn
      split at hn
      · cases hn; rw [hi.1]
      · cases hn
    split at e
    · cases e; exact ⟨_, _, rfl, hi⟩
    · rename_i hc
      rw [if_neg (by simp [hf] at hc; omega)] at e
      obtain ⟨rest1, _, e⟩ := bind_inv _ _ _ e
      obtain ⟨⟨l2, rest2⟩, h2, e⟩ := bind_inv _ _ _ e
      obtain ⟨w3, h3, e⟩ := bind_inv _ _ _ e
      cases e
      refine ⟨_, _, rfl, ?_⟩
      have s := fromBelow_inv h2
      have hlow : Low h t l2.wt := by
        obtain ⟨a, b, c⟩ := hi
        obtain ⟨s1, s2, s3, s4⟩ := s
        exact ⟨by omega, by omega, by omega⟩
      have hlt : l2.wt.curLine < h - 3 := by
        simp [hf] at hc
        have := s.2.2.1
        omega
      unfold nextLines at h3
      rw [if_neg (by omega)] at h3
      exact middle_low hlow hlt h3

theorem waveLines_bottom {f : Flags} (hf : f.bottom = true) (width hx : Nat) : ∀ (n t : Nat) (l : Lvl P) (rest) (ll : P) (r), hx < n + t + 2 → Low hx t l.wt →
    0 < n → waveLines next f width n (l :: rest) ll ≠ .ok r := by
  intro n
  induction n with
  | zero => intro t l rest ll r hn hi h0 h; omega
  | succ n ih =>
    intro t l rest ll r hn hi _ h
    simp only [waveLines] at h
    obtain ⟨⟨ls1, ll1⟩, h1, h⟩ := bind_inv _ _ _ h
    obtain ⟨l1, rest1, e1, s1⟩ := filterDecode_same h1
    subst e1
    obtain ⟨ls2, h2, h⟩ := bind_inv _ _ _ h
    have hlow : Low hx t l1.wt := by
      obtain ⟨a, b, c⟩ := hi
      obtain ⟨s1, s2, s3, s4⟩ := s1
      exact ⟨by omega, by omega, by omega⟩
    obtain ⟨l2, rest2, e2, hlow2⟩ := filterTransform_low hf hlow h2
    subst e2
    simp only at h
    obtain ⟨⟨line, w3⟩, h3, h⟩ := bind_inv _ _ _ h
    obtain ⟨_, _, h⟩ := bind_inv _ _ _ h
    obtain ⟨r', h4, h⟩ := bind_inv _ _ _ h
    have : Low hx (t + 1) w3 := by
      unfold getline at h3
      obtain ⟨_, _, h3⟩ := bind_inv _ _ _ h3
      obtain ⟨_, _, h3⟩ := bind_inv _ _ _ h3
      obtain ⟨_, ha, h3⟩ := bind_inv _ _ _ h3
      cases h3
      have hpos : 0 < l2.wt.curH := by
        unfold assert' at ha
        split at ha
        · rename_i hd; simpa using hd
        · cases ha
      obtain ⟨a, b, c⟩ := hlow2
      exact ⟨a, by simp only []; omega, c⟩
    by_cases hn0 : n = 0
    · obtain ⟨a, b, c⟩ := this
      omega
    · exact ih (t + 1) _ _ _ _ (by omega) this (by omega) h4

theorem wavePlane_bottom (f : Flags) (hf : f.bottom = true) (h w : Nat) (hh : 2 ≤ h) (sizes : List (Nat × Nat)) (ps : List (P × P × P)) (ll : P) (r) :
    wavePlane next f h w (newLevels ((h, w) :: sizes) ps) ll ≠ .ok r := by
  intro e
  unfold wavePlane at e
  obtain ⟨⟨ls, ll1⟩, e1, e⟩ := bind_inv _ _ _ e
  cases ps with
  | nil =>
    simp only [newLevels, List.zipWith_nil_right, filterInit] at e1
    cases e1
    obtain ⟨h, rfl⟩ : ∃ h', h = h' + 1 := ⟨h - 1, by omega⟩
    simp only [waveLines, filterDecode] at e
    cases e
  | cons p ps =>
    simp only [newLevels, List.zipWith_cons_cons, filterInit] at e1
    obtain ⟨⟨rest, ll1⟩, h1, e1⟩ := bind_inv _ _ _ e1
    obtain ⟨⟨l2, rest2, ll2⟩, h2, e1⟩ := bind_inv _ _ _ e1
    obtain ⟨l3, h3, e1⟩ := bind_inv _ _ _ e1
    have s3 := (load1_inv h3).trans (initLow_inv h2)
    have hh3 : l3.wt.height = h := s3.1
    simp only at e1
    rw [if_pos (by omega)] at e1
    obtain ⟨l4, h4, e1⟩ := bind_inv _ _ _ e1
    obtain ⟨_, _, e1⟩ := bind_inv _ _ _ e1
    obtain ⟨w5, h5, e1⟩ := bind_inv _ _ _ e1
    obtain ⟨⟨ls6, ll6⟩, h6, e1⟩ := bind_inv _ _ _ e1
    obtain ⟨ls7, h7, e1⟩ := bind_inv _ _ _ e1
    have s5 := (initMany_inv h5).2.trans ((load23_inv h4).trans s3)
    obtain ⟨l6, rest6, e6, s6⟩ := filterDecode_same h6
    have s6 := Same.trans s6 s5
    subst e6
    cases e1
    obtain ⟨l7, rest7, e7, s7⟩ := filterTransform_low (h := h) (t := 0) hf ⟨s6.1, by rw [s6.2.2.1, s6.2.2.2]; rfl, by rw [s6.2.2.1]; exact hh⟩ h7
    subst e7
    exact waveLines_bottom hf w h h 0 l7 rest7 _ _ (by omega) s7 (by omega) e

end Verif.Crx
