import Verif.Model.IiqTab
import Verif.Spec.IiqTab
import Verif.Proofs.IiqFlat
import Verif.Proofs.Grid
/-! # Proofs about the tables of Phase One files -/

namespace Verif.IiqTab
open Verif Verif.Spec.IiqTab Verif.IiqCorr Verif.IiqFlat

theorem byte_ok (file : List Nat) (p : Nat) (h : p < file.length) : byte file p = .ok (file.getD p 0) := by
  rw [byte, List.getElem?_eq_getElem h, List.getD_eq_getElem?_getD, List.getElem?_eq_getElem h]; rfl

theorem byte_fail (file : List Nat) (p : Nat) (h : file.length ≤ p) : byte file p = fail' := by
  rw [byte, List.getElem?_eq_none h]

theorem read16_ok (file : List Nat) (p : Nat) (h : p + 2 ≤ file.length) : read16 file p = .ok (u16 file p) := by
  rw [read16, byte_ok _ _ (by omega), byte_ok _ _ (by omega)]; rfl

theorem read32_ok (file : List Nat) (p : Nat) (h : p + 4 ≤ file.length) : read32 file p = .ok (u32 file p) := by
  rw [read32, byte_ok _ _ (by omega), byte_ok _ _ (by omega), byte_ok _ _ (by omega), byte_ok _ _ (by omega)]
  simp only [bind, Except.bind, u32, u16]
  refine congrArg Except.ok ?_
  rw [show p + 2 + 1 = p + 3 by omega]
  omega

theorem read32_fail (file : List Nat) (p : Nat) (h : file.length < p + 4) : read32 file p = fail' := by
  have key : ∀ q, byte file q = fail' ∨ ∃ b, byte file q = .ok b := fun q => by
    by_cases hq : q < file.length
    · exact Or.inr ⟨_, byte_ok _ _ hq⟩
    · exact Or.inl (byte_fail _ _ (by omega))
  rw [read32, byte_fail file (p + 3) (by omega)]
  rcases key p with e | ⟨a, e⟩ <;> rw [e]
  · rfl
  rcases key (p + 1) with e1 | ⟨b, e1⟩ <;> rw [e1]
  · rfl
  rcases key (p + 2) with e2 | ⟨c, e2⟩ <;> rw [e2]
  · rfl
  · rfl

theorem readMany_ok {α : Type} (rd : Nat → R α) (v : Nat → α) (p size n : Nat) (h : ∀ i, i < n → rd (p + i * size) = .ok (v (p + i * size))) :
    readMany rd p size n = .ok (values v p size n) :=
  mapM_ok_of _ _ _ fun i hi => h i (List.mem_range.1 hi)

theorem many16 (file : List Nat) (p n : Nat) (h : p + 2 * n ≤ file.length) : readMany (read16 file) p 2 n = .ok (values (u16 file) p 2 n) :=
  readMany_ok _ _ _ _ _ fun i hi => read16_ok _ _ (by omega)

theorem many32 (file : List Nat) (p n : Nat) (h : p + 4 * n ≤ file.length) : readMany (read32 file) p 4 n = .ok (values (u32 file) p 4 n) :=
  readMany_ok _ _ _ _ _ fun i hi => read32_ok _ _ (by omega)

theorem many16f {α : Type} (g : Nat → α) (file : List Nat) (p n : Nat) (h : p + 2 * n ≤ file.length) :
    readMany (fun p => do let b ← read16 file p; .ok (g b)) p 2 n = .ok (values (fun p => g (u16 file p)) p 2 n) :=
  readMany_ok _ _ _ _ _ fun i hi => by rw [read16_ok _ _ (by omega)]; rfl

theorem many32f {α : Type} (g : Nat → α) (file : List Nat) (p n : Nat) (h : p + 4 * n ≤ file.length) :
    readMany (fun p => do let b ← read32 file p; .ok (g b)) p 4 n = .ok (values (fun p => g (u32 file p)) p 4 n) :=
  readMany_ok _ _ _ _ _ fun i hi => by rw [read32_ok _ _ (by omega)]; rfl

theorem manyDefects (file : List Nat) (p n : Nat) (h : p + 8 * n ≤ file.length) : readMany (readDefect file) p 8 n = .ok (values (defect file) p 8 n) :=
  readMany_ok _ _ _ _ _ fun i hi => by
    rw [readDefect, read16_ok _ _ (by omega), read16_ok _ _ (by omega), read16_ok _ _ (by omega), read16_ok _ _ (by omega)]; rfl

theorem last_succ {α : Type} (n : Nat) (v : Nat → Option α) : last (n + 1) v = (v n).or (last n v) := by
  rw [last, last, List.range_succ, List.reverse_append, List.reverse_singleton, List.singleton_append, List.findSome?_cons]
  cases v n <;> rfl

/-- A table of kind `t` -/
def one {α : Type} (t k : Nat) (v : α) : Option α := if t = k then some v else none

theorem readTable_ok (f32 : Nat → ℚ) (file : List Nat) (t s q : Nat) (c : Calib) (h : TableFits file t s q) :
    readTable f32 file t s q c = .ok {
      half := (one t 0x419 (values (fun p => f32 (u32 file p)) q 4 8)).or c.half
      full := (one t 0x41a (values (fun p => f32 (u32 file p)) q 4 4)).or c.full
      linear := (one t 0x41f (values (fun p => u32 file p % 65536) q 4 64)).or c.linear
      mult := (one t 0x41e (values (fun p => f32 (u32 file p)) q 4 19)).or c.mult
      combined := (one t 0x431 (values (u32 file) q 4 7, values (u32 file) (q + 28) 4 28)).or c.combined
      defects := (one t 0x400 (values (defect file) q 8 (s / 4))).or c.defects
      flats := c.flats ++ if isFlat t then [flat f32 file t s q] else [] } := by
  obtain ⟨a1, a2, a3, a4, a5, a6, a7, a8, a9⟩ := h
  rw [readTable]
  by_cases h1 : t = 0x400
  · obtain ⟨b1, b2⟩ := a1 h1
    rw [if_pos h1, decide_eq_true b1, manyDefects _ _ _ (by omega)]
    subst h1
    simp [one, isFlat, assert', bind, Except.bind]
  rw [if_neg h1]
  by_cases h2 : t = 0x401 ∨ t = 0x410 ∨ t = 0x416 ∨ t = 0x40b
  · rw [if_pos h2, many16 _ _ _ (a2 h2)]
    by_cases h3 : t = 0x401
    · rw [if_pos h3, many32f _ _ _ _ (a3 h3)]
      subst h3
      simp [one, isFlat, flat, bind, Except.bind]
    · rw [if_neg h3, many16f (fun b => (b : ℚ) / 32768) _ _ _ (a4 h2 h3)]
      have : t ≠ 0x419 ∧ t ≠ 0x41a ∧ t ≠ 0x41f ∧ t ≠ 0x41e ∧ t ≠ 0x431 := by
        rcases h2 with h | h | h | h <;> omega
      have hi : isFlat t := h2
      simp [one, hi, h3, h1, this, flat, bind, Except.bind]
  rw [if_neg h2]
  by_cases h3 : t = 0x419
  · obtain ⟨b1, b2⟩ := a5 h3
    rw [if_pos h3, decide_eq_true (show s ≥ 8 * 4 by omega), many32f _ _ _ _ (by omega)]
    subst h3
    simp [one, isFlat, assert', bind, Except.bind]
  rw [if_neg h3]
  by_cases h4 : t = 0x41a
  · obtain ⟨b1, b2⟩ := a6 h4
    rw [if_pos h4, decide_eq_true (show s = 4 * 4 by omega), many32f _ _ _ _ (by omega)]
    subst h4
    simp [one, isFlat, assert', bind, Except.bind]
  rw [if_neg h4]
  by_cases h5 : t = 0x41f
  · obtain ⟨b1, b2⟩ := a7 h5
    rw [if_pos h5, decide_eq_true (show s = 2 * 2 * 16 * 4 + 4 by omega), many32f (fun b => b % 65536) _ _ _ (by omega)]
    subst h5
    simp [one, isFlat, assert', bind, Except.bind]
  rw [if_neg h5]
  by_cases h6 : t = 0x41e
  · rw [if_pos h6, many32f _ _ _ _ (a8 h6)]
    subst h6
    simp [one, isFlat, bind, Except.bind]
  rw [if_neg h6]
  by_cases h7 : t = 0x431
  · have := a9 h7
    rw [if_pos h7, many32 _ _ _ (by omega), many32 _ _ _ (by omega)]
    subst h7
    simp [one, isFlat, bind, Except.bind]
  rw [if_neg h7]
  have hi : ¬ isFlat t := h2
  simp [one, h1, hi, h3, h4, h5, h6, h7]

theorem exact_ok (file : List Nat) (p n : Nat) (h : p + n ≤ file.length) : exact file p n = .ok ((file.drop p).take n) := by
  rw [exact, if_pos (Or.inr h)]

/-- A note as the value in the code -/
def val : Note → Val
  | .number n => .long n
  | .text b => .text b

theorem noteStep_ok (file : List Nat) (i : Nat) (m : Notes) (h : notePlace file i + 16 ≤ file.length) (hf : NoteFits file i) :
    ∃ m', noteStep file (notePlace file i) m = .ok m' ∧ ∀ t, m' t = ((note file t i).map fun v => (v.1, val v.2)).or (m t) := by
  rw [noteStep, read32_ok _ _ (by omega), read32_ok _ _ (by omega), read32_ok _ _ (by omega), read32_ok _ _ (by omega)]
  simp only [bind, Except.bind]
  have key : ∀ (w : Nat × Note) (tag : Nat), (∀ t, note file t i = if tag = t then some w else none) → ∀ t,
      insert m tag (w.1, val w.2) t = ((note file t i).map fun v => (v.1, val v.2)).or (m t) := by
    intro w tag hw t
    rw [hw, insert]
    by_cases e : tag = t
    · rw [if_pos e.symm, if_pos e]; rfl
    · rw [if_neg (fun x => e x.symm), if_neg e]; rfl
  generalize hp : notePlace file i = p at *
  by_cases h1 : u32 file (p + 4) = 1
  · have hfi := hf (by rw [hp]; exact h1)
    rw [hp] at hfi
    by_cases h2 : u32 file p = 0x110
    · rw [if_pos ⟨h1, h2⟩, decide_eq_true (hfi.1 h2)]
      refine ⟨_, rfl, ?_⟩
      rw [show u32 file (p + 12) + 8 = 8 + u32 file (p + 12) by omega]
      refine key (u32 file (p + 8), .number (8 + u32 file (p + 12))) _ fun t => ?_
      rw [note, hp, if_pos h1]
      by_cases e : u32 file p = t
      · rw [if_pos e, if_pos e, if_pos (by omega)]
      · rw [if_neg e, if_neg e]
    · rw [if_neg (fun x => h2 x.2), if_pos h1, exact_ok _ _ _ (hfi.2 h2)]
      refine ⟨_, rfl, ?_⟩
      refine key (u32 file (p + 8), .text _) _ fun t => ?_
      rw [note, hp, if_pos h1]
      by_cases e : u32 file p = t
      · rw [if_pos e, if_pos e, if_neg (by omega)]
      · rw [if_neg e, if_neg e]
  · rw [if_neg (fun x => h1 x.1), if_neg h1]
    by_cases h2 : u32 file (p + 4) = 2 ∨ u32 file (p + 4) = 4
    · refine ⟨insert m (u32 file p) (u32 file (p + 8), .long (u32 file (p + 12))), ?_, ?_⟩
      · rcases h2 with h2 | h2
        · rw [if_pos h2]
        · rw [if_neg (by omega), if_pos h2]
      · refine key (u32 file (p + 8), .number (u32 file (p + 12))) _ fun t => ?_
        rw [note, hp, if_neg h1, if_pos h2]
    · rw [if_neg (fun x => h2 (Or.inl x)), if_neg (fun x => h2 (Or.inr x))]
      refine ⟨m, rfl, fun t => ?_⟩
      rw [note, hp, if_neg h1, if_neg h2, ite_self]
      rfl

end Verif.IiqTab
