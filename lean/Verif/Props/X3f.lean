import Verif.Model.X3f
import Verif.Spec.X3f
import Verif.Proofs.Small
import Verif.Proofs.Orf
/-! # C96: Foveon X3F files -/

namespace Verif.Props
open Verif Verif.X3f
open Verif.Spec.Small (num32)
open Verif.Spec.X3f (place count dirEntry section' name isImage Complete)
open Verif.Orf (ok_bind)

namespace X3f

theorem le32_drop (file : List Nat) (off i : Nat) (h : off + i + 4 ≤ file.length) : Small.le32 (file.drop off) i = .ok (num32 file (off + i)) := by
  have := Small.le32_sub file off (file.length - off) i (by omega) (by omega)
  rwa [List.take_of_length_le (by rw [List.length_drop])] at this

theorem le32_zero (file : List Nat) (i : Nat) (h : i + 4 ≤ file.length) : Small.le32 file i = .ok (num32 file i) := by
  have := le32_drop file 0 i (by omega)
  rwa [List.drop_zero, Nat.zero_add] at this

theorem from_ok (b : List Nat) (off : Nat) (h : off ≤ b.length) : from' b off = .ok (b.drop off) := by rw [from', if_pos h]

theorem readDir_ok (file : List Nat) (p q : Nat) (h : p + q + 12 ≤ file.length) :
    readDir (file.drop p) q = .ok ⟨num32 file (p + q), num32 file (p + q + 4), (file.drop (p + q + 8)).take 4⟩ := by
  rw [readDir, from_ok _ _ (by rw [List.length_drop]; omega), ok_bind, List.drop_drop, le32_drop _ _ _ (by omega), le32_drop _ _ _ (by omega), ok_bind, ok_bind, Verif.X3f.slice,
    if_pos (by rw [List.length_drop]; omega), List.drop_drop]
  rfl

theorem readImage_ok (file : List Nat) (p : Nat) (h : p + 28 ≤ file.length) :
    readImage file p = .ok ⟨num32 file (p + 8), num32 file (p + 12), num32 file (p + 16), num32 file (p + 20), num32 file (p + 24), p + 28⟩ := by
  rw [readImage, from_ok _ _ (by omega), ok_bind, le32_drop _ _ _ (by omega), le32_drop _ _ _ (by omega), le32_drop _ _ _ (by omega), le32_drop _ _ _ (by omega),
    le32_drop _ _ _ (by omega)]
  rfl

theorem open_eq (file : List Nat) (h : 4 ≤ file.length) (hi : place file + 12 ≤ file.length) :
    open' file = if num32 file (place file + 4) < 0x20000 then fail' else forN (count file) (entry file (file.drop (place file))) ([], []) := by
  rw [open', usub, if_pos (by omega), ok_bind, le32_zero _ _ (by omega), ok_bind]
  show (from' file (place file) >>= _) = _
  rw [from_ok _ _ (by omega), ok_bind, le32_drop _ _ _ (by omega), ok_bind, le32_drop _ _ _ (by omega)]
  rfl

end X3f

/-- **C96, X3F: the directory.** A file with a complete directory of version 2.0 or later gives all its entries, in order, with place, length and name, and the image headers
of the entries with the name `IMA2`, in order: type, format, width, height and pitch, and where the data begin. -/
theorem C96_directory (file : List Nat) (H : Complete file) (hv : 0x20000 ≤ num32 file (place file + 4)) :
    open' file = .ok
      ((List.range (count file)).map fun i => ⟨section' file i, num32 file (dirEntry file i + 4), name file i⟩,
       ((List.range (count file)).filter (isImage file)).map fun i =>
        ⟨num32 file (section' file i + 8), num32 file (section' file i + 12), num32 file (section' file i + 16), num32 file (section' file i + 20),
          num32 file (section' file i + 24), section' file i + 28⟩) := by
  obtain ⟨h4, hin, him⟩ := H
  rw [X3f.open_eq file h4 (by omega), if_neg (by omega), forN]
  have key : ∀ n, n ≤ count file → (List.range n).foldlM (fun s i => entry file (file.drop (place file)) i s) ([], []) = .ok
      ((List.range n).map fun i => (⟨section' file i, num32 file (dirEntry file i + 4), name file i⟩ : Dir),
       ((List.range n).filter (isImage file)).map fun i =>
        (⟨num32 file (section' file i + 8), num32 file (section' file i + 12), num32 file (section' file i + 16), num32 file (section' file i + 20),
          num32 file (section' file i + 24), section' file i + 28⟩ : Image)) := by
    intro n
    induction n with
    | zero => intro _; rfl
    | succ n ih =>
      intro hn
      rw [List.range_succ, List.foldlM_append, ih (by omega), ok_bind, List.foldlM_cons, entry, X3f.readDir_ok file _ _ (by omega), ok_bind,
        show place file + (12 + n * 12) = dirEntry file n by rw [dirEntry]; omega, List.map_append, List.filter_append, List.map_append]
      by_cases hI : isImage file n = true
      · have hs := him n (by omega) hI
        have hn' : (file.drop (dirEntry file n + 8)).take 4 = [0x49, 0x4d, 0x41, 0x32] := by
          rw [isImage, beq_iff_eq] at hI
          exact hI
        simp only [hn', if_true]
        rw [show num32 file (dirEntry file n) = section' file n from rfl, X3f.readImage_ok file _ hs, ok_bind, ok_bind, List.filter_cons, if_pos hI]
        have hn2 : name file n = [0x49, 0x4d, 0x41, 0x32] := hn'
        simp only [List.map_cons, List.map_nil, List.filter_nil, hn2]
        rfl
      · have hn' : ¬ (file.drop (dirEntry file n + 8)).take 4 = [0x49, 0x4d, 0x41, 0x32] := by
          intro h
          apply hI
          rw [isImage, beq_iff_eq]
          exact h
        simp only [hn', if_false]
        rw [ok_bind, List.filter_cons, if_neg hI]
        simp only [List.map_cons, List.map_nil, List.filter_nil, List.append_nil]
        rfl
  exact key _ (Nat.le_refl _)

/-- **C96, old directories.** A directory before version 2.0 is an error. -/
theorem C96_old (file : List Nat) (h : 4 ≤ file.length) (hi : place file + 12 ≤ file.length) (hv : num32 file (place file + 4) < 0x20000) : open' file = fail' := by
  rw [X3f.open_eq file h hi, if_pos hv]

/-- **C96, directory outside the file.** A file whose last bytes name a place behind its end aborts. -/
theorem C96_outside_aborts (file : List Nat) (h : 4 ≤ file.length) (hp : file.length < place file) : open' file = panic' := by
  rw [open', usub, if_pos (by omega), ok_bind, X3f.le32_zero _ _ (by omega), ok_bind]
  show (from' file (place file) >>= _) = _
  rw [from', if_neg (by omega)]
  rfl

/-- The four letters of an X3F file alone are taken as one, and abort. -/
theorem C96_letters_abort : isX3f [0x46, 0x4f, 0x56, 0x62] = true ∧ open' [0x46, 0x4f, 0x56, 0x62] = panic' := by
  refine ⟨by decide, C96_outside_aborts _ (by decide) (by decide)⟩

/-- **C96, entries outside the file.** A directory that promises more entries than the file holds aborts, if the entries before are complete. -/
theorem C96_entries_abort (file : List Nat) (h4 : 4 ≤ file.length) (hi : place file + 12 ≤ file.length) (hv : 0x20000 ≤ num32 file (place file + 4))
    (hc : file.length < place file + 12 + 12 * count file)
    (him : ∀ i, dirEntry file i + 12 ≤ file.length → isImage file i = true → section' file i + 28 ≤ file.length) : open' file = panic' := by
  have out : ∀ i st, file.length < dirEntry file i + 12 → entry file (file.drop (place file)) i st = panic' := by
    intro i st h
    rw [dirEntry] at h
    rw [entry, readDir, from']
    split
    · rw [ok_bind, List.drop_drop]
      have le : ∀ j, Small.le32 (file.drop (place file + (12 + i * 12))) j = panic' ∨ ∃ v, Small.le32 (file.drop (place file + (12 + i * 12))) j = .ok v := by
        intro j
        have ix : ∀ k, idx (file.drop (place file + (12 + i * 12))) k = panic' ∨ ∃ v, idx (file.drop (place file + (12 + i * 12))) k = .ok v := by
          intro k
          rw [idx]
          cases (file.drop (place file + (12 + i * 12)))[k]? with
          | none => exact Or.inl rfl
          | some v => exact Or.inr ⟨v, rfl⟩
        rw [Small.le32]
        rcases ix j with e | ⟨_, e⟩ <;> rw [e] <;> [exact Or.inl rfl; rw [ok_bind]]
        rcases ix (j + 1) with e | ⟨_, e⟩ <;> rw [e] <;> [exact Or.inl rfl; rw [ok_bind]]
        rcases ix (j + 2) with e | ⟨_, e⟩ <;> rw [e] <;> [exact Or.inl rfl; rw [ok_bind]]
        rcases ix (j + 3) with e | ⟨_, e⟩ <;> rw [e] <;> [exact Or.inl rfl; exact Or.inr ⟨_, rfl⟩]
      rcases le 0 with e | ⟨_, e⟩ <;> rw [e] <;> [rfl; rw [ok_bind]]
      rcases le 4 with e | ⟨_, e⟩ <;> rw [e] <;> [rfl; rw [ok_bind]]
      rw [Verif.X3f.slice, if_neg (by rw [List.length_drop]; omega)]
      rfl
    · rfl
  have ok : ∀ i st, dirEntry file i + 12 ≤ file.length → ∃ st', entry file (file.drop (place file)) i st = .ok st' := by
    intro i st h
    have he : place file + (12 + i * 12) = dirEntry file i := by rw [dirEntry]; omega
    rw [entry, X3f.readDir_ok file _ _ (by omega), ok_bind, he]
    by_cases hn : (file.drop (dirEntry file i + 8)).take 4 = [0x49, 0x4d, 0x41, 0x32]
    · have hs := him i h (by rw [isImage, beq_iff_eq]; exact hn)
      simp only [hn, if_true]
      rw [show num32 file (dirEntry file i) = section' file i from rfl, X3f.readImage_ok file _ hs]
      exact ⟨_, rfl⟩
    · simp only [hn, if_false]
      exact ⟨_, rfl⟩
  rw [X3f.open_eq file h4 hi, if_neg (by omega), forN]
  have key : ∀ (l : List Nat) st, (∃ i ∈ l, file.length < dirEntry file i + 12) → l.foldlM (fun s i => entry file (file.drop (place file)) i s) st = panic' := by
    intro l
    induction l with
    | nil => rintro st ⟨i, hi, _⟩; cases hi
    | cons a l ih =>
      rintro st ⟨i, hi, hb⟩
      rw [List.foldlM_cons]
      by_cases ha : file.length < dirEntry file a + 12
      · rw [out a st ha]
        rfl
      · obtain ⟨st', e⟩ := ok a st (by omega)
        rw [e, ok_bind]
        refine ih st' ⟨i, ?_, hb⟩
        rcases List.mem_cons.1 hi with rfl | h
        · exact absurd hb ha
        · exact h
  have hpos : 0 < count file := by omega
  exact key _ _ ⟨count file - 1, List.mem_range.2 (by omega), by rw [dirEntry]; omega⟩

/-- **C96, no picture.** No X3F file gives a picture. -/
theorem C96_never_picture {α β : Type} (camera : List Nat → Nat → R α) (file : List Nat) (images : List Image) (v : β) : rawImage camera file images ≠ .ok v := by
  intro h
  simp only [rawImage, bind, Except.bind] at h
  repeat' split at h
  all_goals cases h

/-- **C96, an error.** It is an error and nothing aborts, if camera information is in the file and its EXIF data can be read or are an error, and the data of all
images are in the file. -/
theorem C96_error {α β : Type} (camera : List Nat → Nat → R α) (file : List Nat) (images : List Image) (hc : ∀ p, camera file p ≠ panic')
    (hin : ∀ i ∈ images, i.doffset + 10 ≤ file.length) : (rawImage camera file images : R β) = fail' := by
  rw [rawImage]
  cases e1 : images.find? fun i => i.typ == 2 && i.format == 0x12 with
  | none => rfl
  | some i =>
    have h1 := hin i (List.mem_of_find?_eq_some e1)
    simp only []
    rw [ok_bind, X3f.from_ok _ _ (by omega), ok_bind, Verif.X3f.slice, if_pos (by rw [List.length_drop]; omega), ok_bind]
    split
    · rfl
    · cases e2 : camera file (i.doffset + 12) with
      | error x =>
        cases x
        · exact absurd e2 (hc _)
        · rfl
      | ok a =>
        rw [ok_bind]
        cases e3 : images.find? fun i => i.typ == 1 || i.typ == 3 with
        | none => rfl
        | some j =>
          have h2 := hin j (List.mem_of_find?_eq_some e3)
          simp only []
          rw [ok_bind, X3f.from_ok _ _ (by omega), ok_bind]
          split <;> rfl

/-- **C96, cut camera information.** Camera information at the end of a file, without data, aborts. -/
theorem C96_cut_aborts {α β : Type} (camera : List Nat → Nat → R α) (file : List Nat) (images : List Image) (i : Image)
    (hf : images.find? (fun i => i.typ == 2 && i.format == 0x12) = some i) (hi : file.length < i.doffset + 10) : (rawImage camera file images : R β) = panic' := by
  rw [rawImage, hf]
  simp only []
  rw [ok_bind, from']
  split
  · rw [ok_bind, Verif.X3f.slice, if_neg (by rw [List.length_drop]; omega)]
    rfl
  · rfl

/-- A file with one entry, for an image at its begin -/
def x3fSample : List Nat := [0x46, 0x4f, 0x56, 0x62, 0, 0, 0, 0, 2, 0, 0, 0, 18, 0, 0, 0, 4, 0, 0, 0, 3, 0, 0, 0, 12, 0, 0, 0] ++
  [0x53, 0x45, 0x43, 0x64, 0, 0, 2, 0, 1, 0, 0, 0] ++ [0, 0, 0, 0, 28, 0, 0, 0, 0x49, 0x4d, 0x41, 0x32] ++ [28, 0, 0, 0]

/-- It is complete, with one image of 4 by 3 pixels. -/
example : Complete x3fSample ∧ 0x20000 ≤ num32 x3fSample (place x3fSample + 4) ∧ isX3f x3fSample = true ∧
    open' x3fSample = .ok ([⟨0, 28, [0x49, 0x4d, 0x41, 0x32]⟩], [⟨2, 18, 4, 3, 12, 28⟩]) := by
  have hc : count x3fSample = 1 := by decide
  have H : Complete x3fSample := ⟨by decide, by decide, fun i hi _ => by
    rw [hc] at hi
    obtain rfl : i = 0 := by omega
    decide⟩
  have hv : 0x20000 ≤ num32 x3fSample (place x3fSample + 4) := by decide
  refine ⟨H, hv, by decide, ?_⟩
  rw [C96_directory _ H hv]
  decide

end Verif.Props
