import Verif.Proofs.FtpConv
/-! # C82: what is uploaded to the converting FTP server is there, as it is or as a DNG file -/

namespace Verif.Props
open Verif Verif.Path Verif.Cli Verif.FtpConv Verif.Spec.FtpConv

/-- When the client is told that the upload worked: a plain file was written; a raw file was converted, and written as well if it is to be kept. -/
theorem C82_told (s : Server) (w : World) (p : Path) (data : List Nat) (fs : Fs) :
    (putFile s w p data fs).1 = true ↔ (Plain s p ∧ w.writes = true) ∨
      ∃ dir stem e full, IsRaw s p dir stem e ∧ w.creates = true ∧ s.conv (stem ++ '.' :: e) data = .ok full ∧ (w.flushes = true ∨ s.keepMtime = false) ∧
        (s.keepOrig = true → w.writes = true) := by
  rcases raw_or_plain s p with ⟨dir, st, e, hr⟩ | ⟨hp, _⟩
  · have hnp : ¬ Plain s p := fun h => h dir st e hr
    rw [putFile_raw hr]
    constructor
    · intro h
      right
      split at h
      · cases h
      rename_i hc
      split at h
      · cases h
      rename_i full hm
      split at h
      · cases h
      rename_i hf
      refine ⟨dir, st, e, full, hr, by simpa using hc, hm, ?_, ?_⟩
      · cases hfl : w.flushes with
        | true => exact .inl rfl
        | false =>
          right
          cases hk : s.keepMtime with
          | true => exact absurd ⟨hfl, hk⟩ hf
          | false => rfl
      · intro hk
        simp only [hk, if_true] at h
        split at h
        · assumption
        · cases h
    · rintro (⟨h, _⟩ | ⟨dir', st', e', full, hr', hc, hm, hf, hk⟩)
      · exact absurd h hnp
      · obtain ⟨rfl, rfl, rfl⟩ := raw_unique hr hr'
        rw [if_neg (by rw [hc]; simp), hm]
        simp only []
        rw [if_neg (by rcases hf with h | h <;> simp [h])]
        cases ho : s.keepOrig with
        | false => simp
        | true => simp [hk ho]
  · rw [putFile_plain hp]
    constructor
    · intro h
      left
      split at h
      · exact ⟨hp, by assumption⟩
      · cases h
    · rintro (⟨_, h⟩ | ⟨dir, st, e, _, hr, _⟩)
      · rw [if_pos h]
      · exact absurd hr (hp dir st e)

/-- If the client is told so, and the end of the DNG file is not lost when it is closed, the upload is there: a plain file as it is, a raw file as DNG file and, if it is
to be kept, as it is. -/
theorem C82_kept_partial (s : Server) (w : World) (p : Path) (data : List Nat) (fs : Fs) (ht : Tidy fs) (hw : w.flushes = true ∨ s.keepMtime = true)
    (h : (putFile s w p data fs).1 = true) : Kept s p data (putFile s w p data fs).2 := by
  rcases raw_or_plain s p with ⟨dir, st, e, hr⟩ | ⟨hp, _⟩
  · have hnp : ¬ Plain s p := fun h => h dir st e hr
    rw [putFile_raw hr] at h ⊢
    split at h
    · cases h
    rename_i hc
    rw [if_neg hc]
    split at h
    · cases h
    rename_i full hm
    simp only []
    split at h
    · cases h
    rename_i hf
    rw [if_neg hf]
    have hfl : w.flushes = true := by
      rcases hw with h | h
      · exact h
      · cases hfl : w.flushes with
        | true => rfl
        | false => exact absurd ⟨hfl, h⟩ hf
    refine ⟨fun hp => absurd hp hnp, fun dir' st' e' hr' => ?_⟩
    obtain ⟨rfl, rfl, rfl⟩ := raw_unique hr hr'
    simp only [hfl, if_true] at h ⊢
    cases ho : s.keepOrig with
    | false =>
      refine ⟨fun h => absurd h (by simp), fun _ => ⟨full, hm, ?_⟩⟩
      simp only [Bool.false_eq_true, if_false]
      exact store_content _ _ _
    | true =>
      simp only [ho, if_true] at h
      split at h
      · rename_i hwr
        simp only [if_true]
        refine ⟨fun _ => ?_, fun hne => ⟨full, hm, ?_⟩⟩
        · rw [if_pos hwr]; exact store_content _ _ _
        · have hne' : p ≠ dngOf dir st := by
            rcases hne with h | h
            · cases h
            · exact h
          rw [if_pos hwr]
          rw [store_other (store_tidy ht _ _) hne'.symm]
          exact store_content _ _ _
      · cases h
  · rw [putFile_plain hp] at h ⊢
    split at h
    · rename_i hwr
      rw [if_pos hwr]
      exact ⟨fun _ => store_content _ _ _, fun dir st e hr => absurd hr (hp dir st e)⟩
    · cases h

/-- Files that an upload does not make stay as they are, whether it works or not. -/
theorem C82_others (s : Server) (us : List (Path × List Nat × World)) (fs : Fs) (ht : Tidy fs) (q : Path) (h : ∀ u ∈ us, ¬ Target s u.1 q) :
    (session s us fs).2.content q = fs.content q := session_other us q h ht

/-- An upload is still there after any number of further uploads, if none of them makes a file with the same name. -/
theorem C82_history_partial (s : Server) (before later : List (Path × List Nat × World)) (p : Path) (data : List Nat) (w : World) (fs : Fs) (ht : Tidy fs)
    (hw : w.flushes = true ∨ s.keepMtime = true) (ho : (session s (before ++ (p, data, w) :: later) fs).1[before.length]? = some true)
    (hd : ∀ v ∈ later, ∀ q, Target s p q → ¬ Target s v.1 q) : Kept s p data (session s (before ++ (p, data, w) :: later) fs).2 := by
  induction before generalizing fs with
  | nil =>
    simp only [List.nil_append, session, List.length_nil, List.getElem?_cons_zero, Option.some.injEq] at ho ⊢
    refine kept_of_same (fun q hq => ?_) (C82_kept_partial s w p data fs ht hw ho)
    exact session_other later q (fun v hv => hd v hv q hq) (putFile_tidy ht)
  | cons u before ih =>
    simp only [List.cons_append, session, List.length_cons, List.getElem?_cons_succ] at ho ⊢
    exact ih _ (putFile_tidy ht) ho

/-! ## Examples -/

/-- A file of the server. -/
def C82_file (s : String) : Path := [.root, .normal "srv".toList, .normal s.toList]

/-- A server for two formats; the converter puts a 7 before the content and refuses empty files. -/
def C82_server : Server :=
  { exts := ["CR2".toList, "NEF".toList], keepOrig := false, keepMtime := false, conv := fun _ d => if d = [] then .error [7] else .ok (7 :: d) }

/-- Everything works. -/
def C82_fine : World := { creates := true, flushes := true, part := [], writes := true, piece := [] }

/-- No files. -/
def C82_empty : Fs := { dir := fun _ => none, data := fun _ => [], next := 0 }

theorem C82_empty_tidy : Tidy C82_empty := ⟨fun _ _ _ h _ => (by cases h), fun _ _ h => (by cases h)⟩

example : IsRaw C82_server (C82_file "a.cr2") [.root, .normal "srv".toList] "a".toList "cr2".toList := ⟨rfl, by decide, by decide, by decide⟩

example : (session C82_server [(C82_file "a.cr2", [1], C82_fine), (C82_file "b.NEF", [2], C82_fine), (C82_file "c.txt", [3], C82_fine)] C82_empty).1 = [true, true, true] ∧
    (session C82_server [(C82_file "a.cr2", [1], C82_fine), (C82_file "b.NEF", [2], C82_fine), (C82_file "c.txt", [3], C82_fine)] C82_empty).2.content (C82_file "a.dng")
      = some [7, 1] ∧
    (session C82_server [(C82_file "a.cr2", [1], C82_fine), (C82_file "b.NEF", [2], C82_fine), (C82_file "c.txt", [3], C82_fine)] C82_empty).2.content (C82_file "c.txt")
      = some [3] := by decide

/-! ## What goes wrong -/

/-- Two raw files with the same name before the dot: both uploads are reported to have worked, and of the first one nothing is left. -/
theorem C82_same_stem : (session C82_server [(C82_file "a.CR2", [1], C82_fine), (C82_file "a.NEF", [2], C82_fine)] C82_empty).1 = [true, true] ∧
    ∀ q, (session C82_server [(C82_file "a.CR2", [1], C82_fine), (C82_file "a.NEF", [2], C82_fine)] C82_empty).2.content q ≠ some [7, 1] ∧
      (session C82_server [(C82_file "a.CR2", [1], C82_fine), (C82_file "a.NEF", [2], C82_fine)] C82_empty).2.content q ≠ some [1] := by
  refine ⟨by decide, fun q => ?_⟩
  by_cases h : q = C82_file "a.dng"
  · subst h
    decide
  · have hraw : ∀ n : String, n = "CR2" ∨ n = "NEF" → IsRaw C82_server (C82_file ("a." ++ n)) [.root, .normal "srv".toList] "a".toList n.toList := by
      rintro n (rfl | rfl) <;> exact ⟨rfl, by decide, by decide, by decide⟩
    have hno : ∀ n : String, n = "CR2" ∨ n = "NEF" → ¬ Target C82_server (C82_file ("a." ++ n)) q := by
      intro n hn ht
      rcases ht with ⟨hp, _⟩ | ⟨dir, st, e, hr, hq | ⟨hk, _⟩⟩
      · exact hp _ _ _ (hraw n hn)
      · obtain ⟨rfl, rfl, _⟩ := raw_unique hr (hraw n hn)
        exact h (by rw [hq]; rfl)
      · cases hk
    rw [C82_others C82_server _ C82_empty C82_empty_tidy q (by
      intro u hu
      simp only [List.mem_cons, List.not_mem_nil, or_false] at hu
      rcases hu with rfl | rfl
      · exact hno "CR2" (.inl rfl)
      · exact hno "NEF" (.inr rfl))]
    exact ⟨by simp [C82_empty, Fs.content], by simp [C82_empty, Fs.content]⟩

/-- If the end of the DNG file is lost and the time of the file isn't to be kept, the upload is reported to have worked, though neither DNG file nor raw file are there. -/
theorem C82_unflushed : (putFile C82_server { C82_fine with flushes := false, part := [7] } (C82_file "a.CR2") [1, 2] C82_empty).1 = true ∧
    (putFile C82_server { C82_fine with flushes := false, part := [7] } (C82_file "a.CR2") [1, 2] C82_empty).2.content (C82_file "a.dng") = some [7] ∧
    (putFile C82_server { C82_fine with flushes := false, part := [7] } (C82_file "a.CR2") [1, 2] C82_empty).2.content (C82_file "a.CR2") = none := by decide

/-- A raw file that can't be converted is not stored at all, even if raw files are to be kept, and what was written of the DNG file replaces what was there. -/
theorem C82_not_converted (s : Server) (w : World) (p dir : Path) (stem e : Name) (data part : List Nat) (fs : Fs) (ht : Tidy fs) (h : IsRaw s p dir stem e)
    (hc : w.creates = true) (hm : s.conv (stem ++ '.' :: e) data = .error part) (hne : p ≠ dngOf dir stem) :
    (putFile s w p data fs).1 = false ∧ (putFile s w p data fs).2.content (dngOf dir stem) = some part ∧ (putFile s w p data fs).2.content p = fs.content p := by
  rw [putFile_raw h, if_neg (by rw [hc]; simp), hm]
  exact ⟨rfl, store_content _ _ _, store_other ht hne _⟩

example : (putFile { C82_server with keepOrig := true } C82_fine (C82_file "a.CR2") [] C82_empty).2.content (C82_file "a.CR2") = none := by decide

end Verif.Props
