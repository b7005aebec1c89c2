import Verif.Proofs.IiqTab
/-! # C94: tables of Phase One files -/

namespace Verif.Props
open Verif Verif.IiqTab Verif.IiqCorr
open Verif.Spec.IiqTab (u16 u32 last values Note noteCount notePlace note NoteFits tables tableTag tableSize tablePlace table defect flat isFlat TableFits)

/-- **C94, notes.** In every file whose directory is complete, the note of a tag is that of the last entry with the tag and a known kind. -/
theorem C94_notes (file : List Nat) (h1 : 20 ≤ file.length) (h2 : notePlace file (noteCount file) ≤ file.length) (hf : ∀ i, i < noteCount file → NoteFits file i) :
    ∃ m, newMakernote file = .ok m ∧ ∀ tag, m tag = (last (noteCount file) (note file tag)).map fun v => (v.1, match v.2 with
      | .number n => Val.long n
      | .text b => Val.text b) := by
  have h3 : 16 + u32 file 16 + 16 * noteCount file ≤ file.length := h2
  rw [newMakernote, read32_ok _ _ (by omega)]
  simp only [bind, Except.bind]
  rw [read32_ok _ _ (by omega), read32_ok _ _ (by omega)]
  simp only
  rw [exact_ok _ _ _ (show 8 + u32 file 16 + 8 + u32 file (8 + u32 file 16) * 16 ≤ _ by rw [noteCount] at h3; omega)]
  show ∃ m, forN (noteCount file) _ _ = .ok m ∧ _
  refine IiqFlat.forN_imp _ _ (fun k m => ∀ tag, m tag = (last k (note file tag)).map fun v => (v.1, val v.2)) _ _ (fun _ => rfl) ?_ ?_
  · intro m hm tag
    rw [hm]
    cases last (noteCount file) (note file tag) with
    | none => rfl
    | some v => obtain ⟨a, b⟩ := v; cases b <;> rfl
  · intro i m hi hm
    have e : 8 + u32 file 16 + 8 + i * 16 = notePlace file i := by rw [notePlace]; omega
    have hp : notePlace file i + 16 ≤ file.length := by rw [notePlace]; omega
    obtain ⟨m', e1, h⟩ := noteStep_ok file i m hp (hf i hi)
    refine ⟨m', by rw [e]; exact e1, fun tag => ?_⟩
    rw [h, last_succ, hm]
    cases note file tag i <;> rfl

/-- **C94, incomplete directory.** A file that ends before the directory or in it is an error. -/
theorem C94_notes_truncated (file : List Nat) (h : file.length < 20 ∨ file.length < notePlace file (noteCount file)) : newMakernote file = fail' := by
  rw [newMakernote]
  by_cases h1 : file.length < 20
  · rw [read32_fail _ _ (by omega)]; rfl
  have h3 : file.length < 16 + u32 file 16 + 16 * noteCount file := by
    rcases h with h | h
    · exact absurd h h1
    · exact h
  rw [read32_ok _ _ (by omega)]
  simp only [bind, Except.bind]
  by_cases h4 : file.length < 8 + u32 file 16 + 4
  · rw [read32_fail _ _ h4]
  rw [read32_ok _ _ (by omega)]
  simp only
  by_cases h5 : file.length < 8 + u32 file 16 + 4 + 4
  · rw [read32_fail _ _ h5]
  rw [read32_ok _ _ (by omega)]
  simp only
  rw [noteCount] at h3
  rw [exact, if_neg (by omega)]

theorem forN_ne {σ : Type} (n : Nat) (f : Nat → σ → R σ) (s : σ) (h : ∀ i s, i < n → f i s ≠ panic') : forN n f s ≠ panic' := by
  induction n with
  | zero => intro e; cases e
  | succ n ih =>
    rw [forN_succ]
    have := ih fun i s hi => h i s (by omega)
    cases e : forN n f s with
    | error x => rw [e] at this; exact this
    | ok s' => exact h n s' (by omega)

theorem read32_cases (file : List Nat) (p : Nat) : read32 file p = fail' ∨ read32 file p = .ok (u32 file p) := by
  by_cases h : p + 4 ≤ file.length
  · exact Or.inr (read32_ok _ _ h)
  · exact Or.inl (read32_fail _ _ (by omega))

/-- **C94, no abort.** No file makes the reader of the notes abort, but for one with a place of the calibration beyond 32 bits. -/
theorem C94_notes_never_abort (file : List Nat)
    (h : ∀ i, i < noteCount file → u32 file (notePlace file i) = 0x110 → u32 file (notePlace file i + 4) = 1 → u32 file (notePlace file i + 12) + 8 < 2 ^ 32) :
    newMakernote file ≠ panic' := by
  rw [newMakernote]
  rcases read32_cases file 16 with e | e <;> rw [e]
  · intro x; cases x
  simp only [bind, Except.bind]
  rcases read32_cases file (8 + u32 file 16) with e | e <;> rw [e]
  · intro x; cases x
  rcases read32_cases file (8 + u32 file 16 + 4) with e | e <;> rw [e]
  · intro x; cases x
  simp only
  rw [exact]
  split
  · rename_i e
    split at e
    · cases e
    · cases e; intro x; cases x
  · refine forN_ne _ _ _ fun i s hi => ?_
    have ep : 8 + u32 file 16 + 8 + i * 16 = notePlace file i := by rw [notePlace]; omega
    rw [ep, noteStep]
    have hh := h i hi
    rcases read32_cases file (notePlace file i) with e | e <;> rw [e]
    · intro x; cases x
    rcases read32_cases file (notePlace file i + 4) with e | e <;> rw [e]
    · intro x; cases x
    rcases read32_cases file (notePlace file i + 8) with e | e <;> rw [e]
    · intro x; cases x
    rcases read32_cases file (notePlace file i + 12) with e | e <;> rw [e]
    · intro x; cases x
    simp only [bind, Except.bind]
    split
    · rename_i hc
      rw [decide_eq_true (hh hc.2 hc.1)]
      intro x; cases x
    · split
      · rw [exact]
        split
        · rename_i e
          split at e
          · cases e
          · cases e; intro x; cases x
        · intro x; cases x
      · split
        · intro x; cases x
        · split
          · intro x; cases x
          · intro x; cases x

/-- **C94, a calibration beyond 32 bits aborts.** -/
theorem C94_notes_abort : newMakernote (List.replicate 16 0 ++ [12, 0, 0, 0] ++ [1, 0, 0, 0, 0, 0, 0, 0] ++ [16, 1, 0, 0, 1, 0, 0, 0, 0, 0, 0, 0, 255, 255, 255, 255]) = panic' := by
  rfl

/-- A directory of one number: width 300 -/
example : let file := List.replicate 16 0 ++ [12, 0, 0, 0] ++ [1, 0, 0, 0, 0, 0, 0, 0] ++ [8, 1, 0, 0, 4, 0, 0, 0, 4, 0, 0, 0, 44, 1, 0, 0]
    20 ≤ file.length ∧ notePlace file (noteCount file) ≤ file.length ∧ (∀ i, i < noteCount file → u32 file (notePlace file i + 4) = 4) ∧
      last (noteCount file) (note file 0x108) = some (4, .number 300) := by
  refine ⟨by decide, by decide, by decide, by rfl⟩

/-- **C94, calibration (partial).** If the tables are in the file and have the size of their kind, then each correction is given by the last table of its kind, with the
numbers that are stored there; there is one flat field for each table of that kind, in their order. The defects are those that follow the place of the table, but not
as many as the table has: 8 bytes for each 4 bytes of its size. -/
theorem C94_calibration_partial (f32 : Nat → ℚ) (file : List Nat) (notes : Notes) (k off : Nat) (hn : notes 0x110 = some (k, .long off))
    (h1 : off + 12 ≤ file.length) (h2 : off + u32 file (off + 8) + 8 + 12 * tables file off ≤ file.length)
    (hf : ∀ i, i < tables file off → TableFits file (tableTag file off i) (tableSize file off i) (tablePlace file off i)) :
    ∃ c, readCalib f32 file notes = .ok c ∧
      c.half = table file off 0x419 (fun p => values (fun p => f32 (u32 file p)) p 4 8) ∧
      c.full = table file off 0x41a (fun p => values (fun p => f32 (u32 file p)) p 4 4) ∧
      c.linear = table file off 0x41f (fun p => values (fun p => u32 file p % 65536) p 4 64) ∧
      c.mult = table file off 0x41e (fun p => values (fun p => f32 (u32 file p)) p 4 19) ∧
      c.combined = table file off 0x431 (fun p => (values (u32 file) p 4 7, values (u32 file) (p + 28) 4 28)) ∧
      c.defects = last (tables file off) (fun i =>
        if tableTag file off i = 0x400 then some (values (defect file) (tablePlace file off i) 8 (tableSize file off i / 4)) else none) ∧
      c.flats = (List.range (tables file off)).filterMap (fun i =>
        if isFlat (tableTag file off i) then some (flat f32 file (tableTag file off i) (tableSize file off i) (tablePlace file off i)) else none) := by
  rw [readCalib, hn]
  simp only [num]
  rw [read32_ok _ _ (by omega)]
  simp only [bind, Except.bind]
  rw [read32_ok _ _ (by omega)]
  show ∃ c, forN (tables file off) _ _ = .ok c ∧ _
  refine IiqFlat.forN_imp _ _ (fun n (c : Calib) =>
      c.half = last n (fun i => if tableTag file off i = 0x419 then some (values (fun p => f32 (u32 file p)) (tablePlace file off i) 4 8) else none) ∧
      c.full = last n (fun i => if tableTag file off i = 0x41a then some (values (fun p => f32 (u32 file p)) (tablePlace file off i) 4 4) else none) ∧
      c.linear = last n (fun i => if tableTag file off i = 0x41f then some (values (fun p => u32 file p % 65536) (tablePlace file off i) 4 64) else none) ∧
      c.mult = last n (fun i => if tableTag file off i = 0x41e then some (values (fun p => f32 (u32 file p)) (tablePlace file off i) 4 19) else none) ∧
      c.combined = last n (fun i => if tableTag file off i = 0x431 then
        some (values (u32 file) (tablePlace file off i) 4 7, values (u32 file) (tablePlace file off i + 28) 4 28) else none) ∧
      c.defects = last n (fun i =>
        if tableTag file off i = 0x400 then some (values (defect file) (tablePlace file off i) 8 (tableSize file off i / 4)) else none) ∧
      c.flats = (List.range n).filterMap (fun i =>
        if isFlat (tableTag file off i) then some (flat f32 file (tableTag file off i) (tableSize file off i) (tablePlace file off i)) else none)) _ _
    ⟨rfl, rfl, rfl, rfl, rfl, rfl, rfl⟩ (fun c hc => hc) ?_
  intro i c hi hc
  obtain ⟨c1, c2, c3, c4, c5, c6, c7⟩ := hc
  have e1 : off + u32 file (off + 8) + 8 + i * 12 = off + u32 file (off + 8) + 8 + 12 * i := by omega
  have e2 : off + u32 file (off + 8) + 8 + 12 * i + 4 = off + u32 file (off + 8) + 12 + 12 * i := by omega
  have e3 : off + u32 file (off + 8) + 8 + 12 * i + 8 = off + u32 file (off + 8) + 16 + 12 * i := by omega
  rw [e1, e2, e3, read32_ok _ _ (by omega), read32_ok _ _ (by omega), read32_ok _ _ (by omega)]
  refine ⟨_, readTable_ok f32 file (tableTag file off i) (tableSize file off i) (tablePlace file off i) c (hf i hi), ?_⟩
  refine ⟨?_, ?_, ?_, ?_, ?_, ?_, ?_⟩
  · rw [last_succ, ← c1]; rfl
  · rw [last_succ, ← c2]; rfl
  · rw [last_succ, ← c3]; rfl
  · rw [last_succ, ← c4]; rfl
  · rw [last_succ, ← c5]; rfl
  · rw [last_succ, ← c6]; rfl
  · rw [List.range_succ, List.filterMap_append, ← c7]
    refine congrArg (c.flats ++ ·) ?_
    by_cases hfl : isFlat (tableTag file off i)
    · simp [hfl]
    · simp [hfl]

/-- A calibration with one table of 8 bytes, which has one defect: column 5, kind 131 -/
def oneDefect : List Nat :=
  [0, 0, 0, 0, 0, 0, 0, 0, 12, 0, 0, 0] ++ [1, 0, 0, 0, 0, 0, 0, 0] ++ [0, 4, 0, 0, 8, 0, 0, 0, 32, 0, 0, 0] ++ [5, 0, 0, 0, 131, 0, 0, 0]

/-- **C94, defects that don't exist.** If other data follow the table with one defect, they are taken as a second one; here column 7 is repaired. -/
theorem C94_defects_overrun (f32 : Nat → ℚ) :
    ∃ c, readCalib f32 (oneDefect ++ [7, 0, 0, 0, 131, 0, 0, 0]) (fun t => if t = 0x110 then some (0, .long 0) else none) = .ok c ∧
      c.defects = some [⟨5, 131⟩, ⟨7, 131⟩] := ⟨_, rfl, rfl⟩

/-- **C94, table at the end of the file.** If nothing follows the table, the file is not decoded, although it is complete. -/
theorem C94_defects_at_end (f32 : Nat → ℚ) : readCalib f32 oneDefect (fun t => if t = 0x110 then some (0, .long 0) else none) = fail' := by
  rfl

/-- **C94, no calibration.** A file without calibration aborts. -/
theorem C94_no_calibration_aborts (f32 : Nat → ℚ) (file : List Nat) (notes : Notes) (h : notes 0x110 = none) : readCalib f32 file notes = panic' := by
  rw [readCalib, h]

/-- The file with the defect meets the conditions. -/
example : let file := oneDefect ++ [7, 0, 0, 0, 131, 0, 0, 0]
    0 + 12 ≤ file.length ∧ 0 + u32 file 8 + 8 + 12 * tables file 0 ≤ file.length ∧ tables file 0 = 1 ∧
      TableFits file (tableTag file 0 0) (tableSize file 0 0) (tablePlace file 0 0) := by
  refine ⟨by decide, by decide, by decide, ?_⟩
  unfold TableFits
  decide

end Verif.Props
