import Verif.Proofs.IiqFlat
/-! # C91: flat field -/

namespace Verif.Props
open Verif Verif.Spec Verif.IiqCorr Verif.IiqFlat
open Verif.Spec.IiqFlat (Grid Inside factor parts)

theorem flatCore (color : Nat → Nat → Nat) (m : Nat × Nat) (nc w h typ h6 h7 : Nat) (g : Grid) (data : List ℚ) (img : List Nat) (f : Nat → Nat → Nat)
    (ht : channels typ = .ok nc) (hnc : nc = 2 ∨ nc = 4) (hcol : nc = 4 → ∀ r c, color r c < 4) (hm : nc = 4 → m.1 ≤ g.left ∧ m.2 ≤ g.top)
    (hg : 0 < g.dx ∧ 0 < g.dy ∧ 0 < g.width ∧ 0 < g.height)
    (hd : parts g.height g.dy * parts g.width g.dx * (nc / 2) ≤ data.length) (hi : Holds img w h f) :
    ∃ out, applyFlat color m w h ⟨typ, [g.left, g.top, g.width, g.height, g.dx, g.dy, h6, h7], data⟩ img = .ok out ∧
      Holds out w h (fun r c => if Inside g r c then val color m nc g data f r c else f r c) := by
  obtain ⟨g1, g2, g3, g4⟩ := hg
  obtain ⟨st, e, H⟩ := flat_ok color m nc g data f w h hnc hcol hm g1 g2 g3 g4 hd img hi
  refine ⟨st.2, ?_, H⟩
  have hne : ¬ g.width * g.height * g.dx * g.dy = 0 := by
    have := Nat.mul_pos (Nat.mul_pos (Nat.mul_pos g3 g4) g1) g2
    omega
  simp only [applyFlat]
  rw [ht]
  simp only [bind, Except.bind]
  rw [if_neg hne, wide_eq _ _ g1, wide_eq _ _ g2, e]

/-- **C91, flat field of all colours.** Each pixel that has nodes of the grid on all sides is multiplied by the factor between them: the factors of the nodes change
evenly from one to the next, down and to the right. The other pixels are kept. -/
theorem C91_flat (color : Nat → Nat → Nat) (m : Nat × Nat) (w h typ h6 h7 : Nat) (g : Grid) (data : List ℚ) (img : List Nat) (f : Nat → Nat → Nat)
    (ht : typ = 0x401 ∨ typ = 0x410 ∨ typ = 0x416)
    (hg : 0 < g.dx ∧ 0 < g.dy ∧ 0 < g.width ∧ 0 < g.height)
    (hd : parts g.height g.dy * parts g.width g.dx ≤ data.length) (hi : Holds img w h f) :
    ∃ out, applyFlat color m w h ⟨typ, [g.left, g.top, g.width, g.height, g.dx, g.dy, h6, h7], data⟩ img = .ok out ∧
      Holds out w h (fun r c => if Inside g r c then IiqCorr.word (f r c * factor g 1 data 0 r c) else f r c) := by
  obtain ⟨out, e, H⟩ := flatCore color m 2 w h typ h6 h7 g data img f (by rcases ht with rfl | rfl | rfl <;> rfl) (Or.inl rfl) (by omega) (by omega) hg
    (by simpa using hd) hi
  refine ⟨out, e, holds_congr H fun r c _ _ => if_congr Iff.rfl ?_ rfl⟩
  rw [val, chan, if_neg (by omega : ¬ (2 : Nat) > 2), if_pos rfl]

/-- **C91, flat field of red and blue.** The grid has two factors for each node. Red pixels (colour 0) are multiplied by those of the first, blue ones (colour 2) by
those of the second; green pixels (1 and 3) are kept. -/
theorem C91_flat_red_blue (color : Nat → Nat → Nat) (m : Nat × Nat) (w h h6 h7 : Nat) (g : Grid) (data : List ℚ) (img : List Nat) (f : Nat → Nat → Nat)
    (hcol : ∀ r c, color r c < 4) (hm : m.1 ≤ g.left ∧ m.2 ≤ g.top)
    (hg : 0 < g.dx ∧ 0 < g.dy ∧ 0 < g.width ∧ 0 < g.height)
    (hd : parts g.height g.dy * parts g.width g.dx * 2 ≤ data.length) (hi : Holds img w h f) :
    ∃ out, applyFlat color m w h ⟨0x40b, [g.left, g.top, g.width, g.height, g.dx, g.dy, h6, h7], data⟩ img = .ok out ∧
      Holds out w h (fun r c =>
        if Inside g r c ∧ color (r - m.2) (c - m.1) = 0 then IiqCorr.word (f r c * factor g 2 data 0 r c)
        else if Inside g r c ∧ color (r - m.2) (c - m.1) = 2 then IiqCorr.word (f r c * factor g 2 data 1 r c)
        else f r c) := by
  obtain ⟨out, e, H⟩ := flatCore color m 4 w h 0x40b h6 h7 g data img f rfl (Or.inr rfl) (fun _ => hcol) (fun _ => hm) hg hd hi
  refine ⟨out, e, holds_congr H fun r c _ _ => ?_⟩
  have h4 := hcol (r - m.2) (c - m.1)
  by_cases hin : Inside g r c
  · rw [if_pos hin, val, chan, if_pos (by omega : (4 : Nat) > 2)]
    obtain h | h | h | h : color (r - m.2) (c - m.1) = 0 ∨ color (r - m.2) (c - m.1) = 1 ∨ color (r - m.2) (c - m.1) = 2 ∨ color (r - m.2) (c - m.1) = 3 := by omega
    all_goals simp [h, hin]
  · rw [if_neg hin, if_neg (fun x => hin x.1), if_neg (fun x => hin x.1)]

/-- An empty grid changes nothing; an unknown kind aborts. -/
theorem C91_flat_empty (color : Nat → Nat → Nat) (m : Nat × Nat) (w h typ h6 h7 : Nat) (g : Grid) (data : List ℚ) (img : List Nat) :
    (typ = 0x401 ∨ typ = 0x410 ∨ typ = 0x416 ∨ typ = 0x40b → g.dx = 0 ∨ g.dy = 0 ∨ g.width = 0 ∨ g.height = 0 →
      applyFlat color m w h ⟨typ, [g.left, g.top, g.width, g.height, g.dx, g.dy, h6, h7], data⟩ img = .ok img) ∧
    (typ ≠ 0x401 → typ ≠ 0x410 → typ ≠ 0x416 → typ ≠ 0x40b →
      applyFlat color m w h ⟨typ, [g.left, g.top, g.width, g.height, g.dx, g.dy, h6, h7], data⟩ img = panic') := by
  constructor
  · intro ht hz
    have hz : g.width * g.height * g.dx * g.dy = 0 := by rcases hz with h | h | h | h <;> simp [h]
    have : ∃ nc, channels typ = .ok nc := by rcases ht with rfl | rfl | rfl | rfl <;> exact ⟨_, rfl⟩
    obtain ⟨nc, e⟩ := this
    simp only [applyFlat]
    rw [e]
    simp only [bind, Except.bind]
    rw [if_pos hz]
  · intro h1 h2 h3 h4
    simp only [applyFlat]
    rw [channels, if_neg h1, if_neg (by rintro (h | h) <;> omega), if_neg h4]
    rfl

/-- **C91, the flat field aborts.** A grid with too few factors aborts: here 2 by 2 nodes and three factors. -/
theorem C91_flat_short_aborts (color : Nat → Nat → Nat) (m : Nat × Nat) (img : List Nat) :
    applyFlat color m 2 2 ⟨0x401, [0, 0, 2, 2, 1, 1, 0, 0], [1, 1, 1]⟩ img = panic' := by
  rfl

/-- **C91, red and blue outside the picture.** A grid for red and blue that begins in the margin of the sensor aborts: here the margin is one column and the grid
begins in column 0. -/
theorem C91_flat_margin_aborts (color : Nat → Nat → Nat) (img : List Nat) :
    applyFlat color (1, 0) 2 2 ⟨0x40b, [0, 0, 2, 2, 1, 1, 0, 0], [1, 1, 1, 1, 1, 1, 1, 1]⟩ img = panic' := by
  rfl

/-- A grid of 2 by 2 nodes, 4 pixels apart: in the middle the factor is the mean of the four. -/
example : factor ⟨0, 0, 8, 8, 4, 4⟩ 1 [1, 2, 3, 6] 0 2 2 = 3 ∧ Inside ⟨0, 0, 8, 8, 4, 4⟩ 2 2 ∧ parts 8 4 * parts 8 4 ≤ [1, 2, 3, 6].length := by
  refine ⟨?_, by decide, by decide⟩
  norm_num [factor, IiqFlat.across, IiqFlat.between, IiqFlat.node, parts]

end Verif.Props
