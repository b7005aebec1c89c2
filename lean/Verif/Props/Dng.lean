import Verif.Model.Dng
import Verif.Spec.Dng
import Verif.Proofs.Grid
/-! # Mosaic, black level and areas in DNG tags -/

namespace Verif.Props
open Verif Verif.Dng Verif.Spec Verif.Pix

/-! ## Mosaic (C23) -/

/-- the pattern matrix holds the periodic colours `g` -/
def IsCfa (c : CFA) (w h : Nat) (g : Nat → Nat → Nat) : Prop :=
  c.width = w ∧ c.height = h ∧ Holds c.pattern 48 48 (fun r j => g (r % h) (j % w))

theorem charColor_of {c : Char} {k : Nat} (h : letterCode c = some k) : charColor c = .ok k := by
  unfold letterCode at h
  split at h <;> first | (injection h with h; subst h; decide) | cases h

theorem letterCode_lt {c : Char} {k : Nat} (h : letterCode c = some k) : k < 6 := by
  unfold letterCode at h
  split at h <;> first | (injection h with h; subst h; decide) | cases h

theorem idx_of_get {α : Type} {l : List α} {i : Nat} {a : α} (h : l[i]? = some a) : idx l i = .ok a := by
  rw [idx, h]

/-- the colours of a pattern, as a function -/
def colours (name : List Char) (w : Nat) (r j : Nat) : Nat := ((name[r * w + j]?).bind letterCode).getD 0

theorem colours_spec {name : List Char} {w h : Nat} (hp : IsPattern name w h) {r j : Nat} (hr : r < h) (hj : j < w) :
    (name[r * w + j]?).bind letterCode = some (colours name w r j) := by
  have hlt : r * w + j < name.length := by rw [hp.1]; exact mul_add_lt hr hj
  have := hp.2.2 _ (List.getElem_mem hlt)
  rw [colours, List.getElem?_eq_getElem hlt]
  simp only [Option.bind_some]
  cases h' : letterCode name[r * w + j] with
  | none => rw [h'] at this; cases this
  | some k => rfl

theorem colours_lt {name : List Char} {w h : Nat} (hp : IsPattern name w h) {r j : Nat} (hr : r < h) (hj : j < w) : colours name w r j < 6 := by
  have hs := colours_spec hp hr hj
  have hlt : r * w + j < name.length := by rw [hp.1]; exact mul_add_lt hr hj
  rw [List.getElem?_eq_getElem hlt] at hs
  exact letterCode_lt hs

theorem cfaDim_of {name : List Char} {w h : Nat} (hp : IsPattern name w h) : cfaDim name.length = some (w, h) := by
  rw [hp.1]
  rcases hp.2.1 with ⟨rfl, rfl⟩ | ⟨rfl, rfl⟩ | ⟨rfl, rfl⟩ | ⟨rfl, rfl⟩ <;> rfl

theorem dims_of {name : List Char} {w h : Nat} (hp : IsPattern name w h) : 0 < w ∧ 0 < h ∧ w ∣ 48 ∧ h ∣ 48 ∧ w < 13 ∧ h < 13 := by
  rcases hp.2.1 with ⟨rfl, rfl⟩ | ⟨rfl, rfl⟩ | ⟨rfl, rfl⟩ | ⟨rfl, rfl⟩ <;> decide

/-- `CFA::new` -/
theorem cfa_new {name : List Char} {w h : Nat} (hp : IsPattern name w h) :
    ∃ c, CFA.new name = .ok c ∧ c.name = name ∧ IsCfa c w h (colours name w) := by
  obtain ⟨hw, hh, -, -, -, -⟩ := dims_of hp
  unfold CFA.new
  rw [cfaDim_of hp]
  simp only []
  rw [if_neg (by omega), mapM_ok_of charColor (fun c => (letterCode c).getD 0)]
  · simp only [bind, Except.bind]
    rw [genRows_ok 48 48 _ (fun r c => colours name w (r % h) (c % w))]
    · exact ⟨_, rfl, rfl, rfl, rfl, holds_genRows 48 48 _⟩
    · intro r c _ _
      have hlt : r % h * w + c % w < name.length := by rw [hp.1]; exact mul_add_lt (Nat.mod_lt _ hh) (Nat.mod_lt _ hw)
      apply idx_of_get
      rw [List.getElem?_map, colours, List.getElem?_eq_getElem hlt]; rfl
  · intro c hc
    have := hp.2.2 c hc
    cases h' : letterCode c with
    | none => rw [h'] at this; cases this
    | some k => exact charColor_of h'

theorem cfa_colorAt {c : CFA} {w h : Nat} {g : Nat → Nat → Nat} (hc : IsCfa c w h g) (hw : w ∣ 48) (hh : h ∣ 48) (row col : Nat) :
    c.colorAt row col = .ok (g (row % h) (col % w)) := by
  have := hc.2.2.2 ((row + 48) % 48) ((col + 48) % 48) (Nat.mod_lt _ (by omega)) (Nat.mod_lt _ (by omega))
  rw [CFA.colorAt]
  apply idx_of_get
  rw [this]
  dsimp only
  rw [Nat.mod_mod_of_dvd _ hw, Nat.mod_mod_of_dvd _ hh]
  have e1 : (row + 48) % h = row % h := by obtain ⟨k, hk⟩ := hh; rw [hk, Nat.add_mul_mod_self_left]
  have e2 : (col + 48) % w = col % w := by obtain ⟨k, hk⟩ := hw; rw [hk, Nat.add_mul_mod_self_left]
  rw [e1, e2]

theorem colorChar_ok {k : Nat} (h : k < 6) : ∃ c, colorChar k = .ok c ∧ letterCode c = some k := by
  match k, h with
  | 0, _ => exact ⟨'R', rfl, rfl⟩
  | 1, _ => exact ⟨'G', rfl, rfl⟩
  | 2, _ => exact ⟨'B', rfl, rfl⟩
  | 3, _ => exact ⟨'C', rfl, rfl⟩
  | 4, _ => exact ⟨'M', rfl, rfl⟩
  | 5, _ => exact ⟨'Y', rfl, rfl⟩

/-- the letter of a colour code -/
def letterOf (k : Nat) : Char :=
  if k = 0 then 'R' else if k = 1 then 'G' else if k = 2 then 'B' else if k = 3 then 'C' else if k = 4 then 'M' else 'Y'

theorem colorChar_letter {k : Nat} (h : k < 6) : colorChar k = .ok (letterOf k) := by
  match k, h with
  | 0, _ | 1, _ | 2, _ | 3, _ | 4, _ | 5, _ => rfl

theorem letterCode_letterOf {k : Nat} (h : k < 6) : letterCode (letterOf k) = some k := by
  match k, h with
  | 0, _ | 1, _ | 2, _ | 3, _ | 4, _ | 5, _ => rfl

/-- `CFA::shift` -/
theorem cfa_shift {c : CFA} {w h : Nat} {g : Nat → Nat → Nat} (hc : IsCfa c w h g) (hw0 : 0 < w) (hh0 : 0 < h) (hw : w ∣ 48) (hh : h ∣ 48)
    (hg : ∀ r j, r < h → j < w → g r j < 6) (x y : Nat) :
    ∃ s, c.shift x y = .ok s ∧ IsCfa s w h (fun r j => g ((r + y) % h) ((j + x) % w)) ∧
      Holds s.name w h (fun r j => letterOf (g ((r + y) % h) ((j + x) % w))) := by
  have hw48 := Nat.le_of_dvd (by omega) hw
  have hh48 := Nat.le_of_dvd (by omega) hh
  rw [CFA.shift, genRows_ok 48 48 _ (fun r j => g ((r % h + y) % h) ((j % w + x) % w))]
  · simp only [bind, Except.bind]
    have hold := holds_genRows 48 48 (fun r j => g ((r % h + y) % h) ((j % w + x) % w))
    rw [hc.1, hc.2.1, genRows_ok h w _ (fun r j => letterOf (g ((r + y) % h) ((j + x) % w)))]
    · exact ⟨_, rfl, ⟨rfl, rfl, hold⟩, holds_genRows h w _⟩
    · intro r j hr hj
      rw [idx_of_get (hold.2 r j (by omega) (by omega))]
      simp only [Nat.mod_eq_of_lt hr, Nat.mod_eq_of_lt hj]
      exact colorChar_letter (hg _ _ (Nat.mod_lt _ hh0) (Nat.mod_lt _ hw0))
  · intro r j _ _
    rw [cfa_colorAt hc hw hh]
    simp only [Nat.mod_add_mod]

theorem cfa_flat {c : CFA} {w h : Nat} {g : Nat → Nat → Nat} (hc : IsCfa c w h g) (hw : w ≤ 48) (hh : h ≤ 48) :
    c.flatPattern = .ok ((List.range h).flatMap fun r => (List.range w).map (g r)) := by
  rw [CFA.flatPattern, hc.1, hc.2.1]
  apply genRows_ok
  intro r j hr hj
  apply idx_of_get
  rw [hc.2.2.2 r j (by omega) (by omega)]
  dsimp only
  rw [Nat.mod_eq_of_lt hr, Nat.mod_eq_of_lt hj]

/-- the tags written -/
theorem cfa_write {c : CFA} {w h : Nat} {g : Nat → Nat → Nat} (hc : IsCfa c w h g) (hw0 : 0 < w) (hh0 : 0 < h) (hw : w ∣ 48) (hh : h ∣ 48)
    (hg : ∀ r j, r < h → j < w → g r j < 6) (x y : Nat) :
    ∃ p, writeCfa c x y = .ok ⟨[w, h], p⟩ ∧ Holds p w h (fun r j => g ((r + y) % h) ((j + x) % w)) := by
  have hw48 := Nat.le_of_dvd (by omega) hw
  have hh48 := Nat.le_of_dvd (by omega) hh
  obtain ⟨s, e, hs, -⟩ := cfa_shift hc hw0 hh0 hw hh hg x y
  refine ⟨_, ?_, holds_genRows h w _⟩
  rw [writeCfa, e]
  have : c.width ≠ 0 ∧ c.height ≠ 0 := by rw [hc.1, hc.2.1]; omega
  simp only [assert', decide_eq_true this, if_true, bind, Except.bind]
  rw [cfa_flat hs hw48 hh48, hs.1, hs.2.1, Nat.mod_eq_of_lt (by omega : w < 2 ^ 16), Nat.mod_eq_of_lt (by omega : h < 2 ^ 16)]

theorem mod_shift (row y h : Nat) (hy : y ≤ row) : ((row - y) % h + y) % h = row % h := by
  rw [Nat.mod_add_mod, Nat.sub_add_cancel hy]

/-- **C23**, first half, partial: for every square pattern (2 x 2, 6 x 6, 12 x 12), every origin of the active area and every sensor position in or
right/below of it, the colour computed from the tags by the DNG specification is that of the pattern. Missing: the 2 x 8 layout, for which the
statement is false, `C23_tall_pattern_swapped`. -/
theorem C23_tags_partial (name : List Char) (w : Nat) (hp : IsPattern name w w) (left top : Nat) :
    ∃ cfa tags, CFA.new name = .ok cfa ∧ writeCfa cfa left top = .ok tags ∧
      ∀ row col, top ≤ row → left ≤ col → tagCell tags.dim 1 tags.pattern top left row col 0 = mosaicColour name w w row col := by
  obtain ⟨hw0, -, hw, -, -, -⟩ := dims_of hp
  obtain ⟨c, e, -, hc⟩ := cfa_new hp
  obtain ⟨p, e', hpp⟩ := cfa_write hc hw0 hw0 hw hw (fun r j hr hj => colours_lt hp hr hj) left top
  refine ⟨c, _, e, e', ?_⟩
  intro row col hr hc'
  simp only [tagCell]
  rw [Nat.mul_one, Nat.add_zero, hpp.2 _ _ (Nat.mod_lt _ hw0) (Nat.mod_lt _ hw0)]
  dsimp only
  rw [mod_shift _ _ _ hr, mod_shift _ _ _ hc', mosaicColour,
    colours_spec hp (Nat.mod_lt _ hw0) (Nat.mod_lt _ hw0)]

/-- Every colour the library reports for a pattern is the one its name spells, for all layouts. -/
theorem C23_colour_at (name : List Char) (w h : Nat) (hp : IsPattern name w h) :
    ∃ cfa, CFA.new name = .ok cfa ∧ ∀ row col, ∃ k, cfa.colorAt row col = .ok k ∧ mosaicColour name w h row col = some k := by
  obtain ⟨hw0, hh0, hw, hh, -, -⟩ := dims_of hp
  obtain ⟨c, e, -, hc⟩ := cfa_new hp
  exact ⟨c, e, fun row col => ⟨_, cfa_colorAt hc hw hh row col, by rw [mosaicColour, colours_spec hp (Nat.mod_lt _ hh0) (Nat.mod_lt _ hw0)]⟩⟩

/-- the letters `new_from_tag` derives from a written pattern -/
theorem newFromTag_holds {p : List Nat} {w h : Nat} {g : Nat → Nat → Nat} (hpp : Holds p w h g) (hg : ∀ r j, r < h → j < w → g r j < 6)
    (hd : (w = 2 ∧ h = 2) ∨ (w = 6 ∧ h = 6) ∨ (w = 2 ∧ h = 8) ∨ (w = 12 ∧ h = 12)) :
    ∃ c, CFA.newFromTag p = .ok c ∧ IsCfa c w h (fun r j => if r < h ∧ j < w then g r j else 0) := by
  have key : ∀ k, k < 6 → letterCode (if k = 0 then 'R' else if k = 1 then 'G' else if k = 2 then 'B' else if k = 3 then 'C' else if k = 4 then 'M'
      else if k = 5 then 'Y' else 'U') = some k := by decide
  rw [CFA.newFromTag]
  generalize hname : p.map (fun v => if v = 0 then 'R' else if v = 1 then 'G' else if v = 2 then 'B' else if v = 3 then 'C' else if v = 4 then 'M'
      else if v = 5 then 'Y' else 'U') = name
  have hget : ∀ r j, r < h → j < w → (name[r * w + j]?).bind letterCode = some (g r j) := by
    intro r j hr hj
    rw [← hname, List.getElem?_map, hpp.2 r j hr hj]
    exact key _ (hg r j hr hj)
  have hpat : IsPattern name w h := by
    refine ⟨by rw [← hname, List.length_map, hpp.1], hd, ?_⟩
    intro c hc
    obtain ⟨i, hi, rfl⟩ := List.getElem_of_mem hc
    have hw : 0 < w := by omega
    have hi' : i < h * w := by rw [← hpp.1]; rw [← hname, List.length_map] at hi; exact hi
    have hr : i / w < h := by rw [Nat.div_lt_iff_lt_mul hw]; exact hi'
    have := hget (i / w) (i % w) hr (Nat.mod_lt _ hw)
    rw [Nat.mul_comm, Nat.div_add_mod, List.getElem?_eq_getElem hi] at this
    simp only [Option.bind_some] at this
    rw [this]; rfl
  obtain ⟨c, e, -, hc⟩ := cfa_new hpat
  obtain ⟨hw0, hh0, -⟩ := dims_of hpat
  refine ⟨c, e, hc.1, hc.2.1, hc.2.2.1, ?_⟩
  intro r j hr hj
  rw [hc.2.2.2 r j hr hj]
  have h1 := colours_spec hpat (Nat.mod_lt r hh0) (Nat.mod_lt j hw0)
  rw [hget _ _ (Nat.mod_lt _ hh0) (Nat.mod_lt _ hw0)] at h1
  injection h1 with h1
  dsimp only
  rw [if_pos ⟨Nat.mod_lt _ hh0, Nat.mod_lt _ hw0⟩, h1]

/-- What reading back really gives: the colours of the source pattern moved by *twice* the origin of the active area, in every layout. -/
theorem C23_read_back_moves_twice (name : List Char) (w h : Nat) (hp : IsPattern name w h) (left top : Nat) (bottom right : Nat) :
    ∃ cfa tags back, CFA.new name = .ok cfa ∧ writeCfa cfa left top = .ok tags ∧ readCfa tags (some [top, left, bottom, right]) = .ok back ∧
      back.width = w ∧ back.height = h ∧ ∀ row col, back.colorAt row col = cfa.colorAt (row + 2 * top) (col + 2 * left) := by
  obtain ⟨hw0, hh0, hw, hh, -, -⟩ := dims_of hp
  obtain ⟨c, e, -, hc⟩ := cfa_new hp
  have hlt : ∀ r j, r < h → j < w → colours name w r j < 6 := fun r j hr hj => colours_lt hp hr hj
  obtain ⟨p, e', hpp⟩ := cfa_write hc hw0 hh0 hw hh hlt left top
  obtain ⟨d, e2, hd⟩ := newFromTag_holds hpp (fun r j hr hj => hlt _ _ (Nat.mod_lt _ hh0) (Nat.mod_lt _ hw0)) hp.2.1
  obtain ⟨s, e3, hs, -⟩ := cfa_shift hd hw0 hh0 hw hh (by
    intro r j hr hj
    rw [if_pos ⟨hr, hj⟩]
    exact hlt _ _ (Nat.mod_lt _ hh0) (Nat.mod_lt _ hw0)) (left % w) (top % h)
  refine ⟨c, _, s, e, e', ?_, hs.1, hs.2.1, ?_⟩
  · rw [readCfa, e2]
    simp only [bind, Except.bind]
    rw [idx_of_get (a := top) rfl, idx_of_get (a := left) rfl]
    simp only []
    rw [if_neg (by rw [hd.1, hd.2.1]; omega), hd.1, hd.2.1, e3]
  · intro row col
    rw [cfa_colorAt hs hw hh, cfa_colorAt hc hw hh]
    rw [if_pos ⟨Nat.mod_lt _ hh0, Nat.mod_lt _ hw0⟩]
    have e1 : ∀ a b n, (((a % n + b % n) % n + b) % n) = (a + 2 * b) % n := by
      intro a b n
      rw [Nat.mod_add_mod, ← Nat.add_mod_mod, Nat.add_mod_mod, Nat.add_assoc, Nat.mod_add_mod, Nat.add_comm (b % n) b, ← Nat.add_assoc, Nat.add_mod_mod,
        Nat.add_assoc, ← Nat.two_mul]
    rw [e1, e1]

/-- **C23**, second half, partial: reading back gives the original colour at every position if twice the origin is a multiple of the pattern size, so
always for 2 x 2 patterns. Missing: all other origins, for which it is false, `C23_read_back_wrong`. -/
theorem C23_read_back_partial (name : List Char) (w h : Nat) (hp : IsPattern name w h) (left top bottom right : Nat) (hx : w ∣ 2 * left)
    (hy : h ∣ 2 * top) :
    ∃ cfa tags back, CFA.new name = .ok cfa ∧ writeCfa cfa left top = .ok tags ∧ readCfa tags (some [top, left, bottom, right]) = .ok back ∧
      back.width = w ∧ back.height = h ∧ ∀ row col, back.colorAt row col = cfa.colorAt row col := by
  obtain ⟨hw0, hh0, hw, hh, -, -⟩ := dims_of hp
  obtain ⟨c, tags, back, e1, e2, e3, h1, h2, h3⟩ := C23_read_back_moves_twice name w h hp left top bottom right
  refine ⟨c, tags, back, e1, e2, e3, h1, h2, ?_⟩
  intro row col
  rw [h3]
  obtain ⟨c', e, -, hc⟩ := cfa_new hp
  rw [e1] at e; injection e with e; subst e
  rw [cfa_colorAt hc hw hh, cfa_colorAt hc hw hh]
  obtain ⟨a, ha⟩ := hx
  obtain ⟨b, hb⟩ := hy
  rw [ha, hb, Nat.add_mul_mod_self_left, Nat.add_mul_mod_self_left]

/-- For 2 x 2 patterns reading back always works. -/
theorem C23_read_back_bayer_partial (name : List Char) (hp : IsPattern name 2 2) (left top bottom right : Nat) :
    ∃ cfa tags back, CFA.new name = .ok cfa ∧ writeCfa cfa left top = .ok tags ∧ readCfa tags (some [top, left, bottom, right]) = .ok back ∧
      back.width = 2 ∧ back.height = 2 ∧ ∀ row col, back.colorAt row col = cfa.colorAt row col :=
  C23_read_back_partial name 2 2 hp left top bottom right (Nat.dvd_mul_right 2 left) (Nat.dvd_mul_right 2 top)

example : IsPattern "RGGB".toList 2 2 := by decide
example : IsPattern "GBGGRGRGRBGBGBGGRGGRGGBGBGBRGRGRGGBG".toList 6 6 := by decide
example : IsPattern "RGGBRGGBGRBGGRBG".toList 2 8 := by decide

/-- a 6 x 6 pattern (X-Trans) -/
def xtrans : List Char := "GBGGRGRGRBGBGBGGRGGRGGBGBGBRGRGRGGBG".toList

/-- The negation for odd origins of a 6 x 6 pattern: the file is right, but reading it back gives another colour at position (0, 1). -/
theorem C23_read_back_wrong : ∃ (cfa : CFA) (tags : CfaTags) (back : CFA), CFA.new xtrans = .ok cfa ∧ writeCfa cfa 1 0 = .ok tags ∧
    readCfa tags (some [0, 1, 100, 100]) = .ok back ∧ back.colorAt 0 1 ≠ cfa.colorAt 0 1 := by
  obtain ⟨c, t, b, h1, h2, h3, -, -, h4⟩ := C23_read_back_moves_twice xtrans 6 6 (by decide) 1 0 100 100
  refine ⟨c, t, b, h1, h2, h3, ?_⟩
  rw [h4]
  obtain ⟨c', e, -, hc⟩ := cfa_new (name := xtrans) (w := 6) (h := 6) (by decide)
  rw [h1] at e; injection e with e; subst e
  rw [cfa_colorAt hc (by decide) (by decide), cfa_colorAt hc (by decide) (by decide)]
  decide

/-- The negation for the 2 x 8 layout: `CFARepeatPatternDim` holds (columns, rows) instead of (rows, columns), so by the specification the position
(1, 1) gets a colour other than the pattern's. -/
theorem C23_tall_pattern_swapped : ∃ (cfa : CFA) (tags : CfaTags), CFA.new "RGGBRGGBGRBGGRBG".toList = .ok cfa ∧ writeCfa cfa 0 0 = .ok tags ∧
    tags.dim = [2, 8] ∧ tagCell tags.dim 1 tags.pattern 0 0 1 1 0 ≠ mosaicColour "RGGBRGGBGRBGGRBG".toList 2 8 1 1 ∧
    tagCell [8, 2] 1 tags.pattern 0 0 1 1 0 = mosaicColour "RGGBRGGBGRBGGRBG".toList 2 8 1 1 := by
  have hp : IsPattern "RGGBRGGBGRBGGRBG".toList 2 8 := by decide
  obtain ⟨c, e, -, hc⟩ := cfa_new hp
  obtain ⟨p, e', hpp⟩ := cfa_write hc (by decide) (by decide) (by decide) (by decide) (fun r j hr hj => colours_lt hp hr hj) 0 0
  refine ⟨c, _, e, e', rfl, ?_, ?_⟩
  · have := hpp.2 4 1 (by decide) (by decide)
    simp only [tagCell]
    rw [show ((1 - 0) % 2 * 8 + (1 - 0) % 8) * 1 + 0 = 4 * 2 + 1 from rfl, this]
    decide
  · have := hpp.2 1 1 (by decide) (by decide)
    simp only [tagCell]
    rw [show ((1 - 0) % 8 * 2 + (1 - 0) % 2) * 1 + 0 = 1 * 2 + 1 from rfl, this]
    decide

/-- A pattern with a colour other than the six (e.g. white, 6) makes the reader panic. -/
theorem C23_unknown_colour_panics : readCfa ⟨[2, 2], [0, 1, 1, 6]⟩ none = panic' := by decide

end Verif.Props
