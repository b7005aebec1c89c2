import Verif.Proofs.TiffDir
/-! # C21, C22: reading arbitrary files -/

namespace Verif.Props
open Verif Verif.Tiff Verif.Spec

/-! ## C21: chains -/

theorem chainLoop_limit (read : Nat → R (Dir × List (Nat × List Dir))) (m fuel next : Nat) (chain : List (Dir × List (Nat × List Dir)))
    (hc : chain.length ≤ m) (hf : m + 1 ≤ fuel + chain.length) :
    ∃ r, chainLoop read (some m) fuel next chain = some r ∧ ∀ c, r = .ok c → c.length ≤ m + 1 := by
  induction fuel generalizing next chain with
  | zero => omega
  | succ fuel ih =>
    cases next with
    | zero =>
      rw [chainLoop]
      exact ⟨_, rfl, fun c h => by cases h; omega⟩
    | succ next =>
      rw [chainLoop]
      · cases hr : read (next + 1) with
        | error e => exact ⟨_, rfl, fun c h => by cases h⟩
        | ok d =>
          simp only []
          split
          · exact ⟨_, rfl, fun c h => by cases h⟩
          · split
            · exact ⟨_, rfl, fun c h => by cases h; simp; omega⟩
            · exact ih _ _ (by simp; omega) (by simp; omega)
      · simp

/-- C21, as far as it holds: with a limit `m`, reading the chain of any file comes to an end after at most `m + 1` rounds, and the chain has at most
`m + 1` directories. Missing: the limit itself (`C21_limit_exceeded`), and any end at all without a limit (`C21_cyclic_chain_never_ends`). -/
theorem C21_chain_limited_partial (utf8 : List Nat → Bool) (file : List Nat) (corr : Int) (m : Nat) (subTags : List Nat) :
    ∃ r, (∀ fuel, m + 1 ≤ fuel → parseFile utf8 file corr (some m) subTags fuel = some r) ∧ ∀ c, r = .ok c → c.length ≤ m + 1 := by
  have go : ∀ e, ∃ r, (∀ fuel, m + 1 ≤ fuel → parseFile.go utf8 file corr (some m) subTags fuel e = some r) ∧ ∀ c, r = .ok c → c.length ≤ m + 1 := by
    intro e
    have stable : ∀ (read : Nat → R (Dir × List (Nat × List Dir))) (f next : Nat) (chain r) (k : Nat),
        chainLoop read (some m) f next chain = some r → chainLoop read (some m) (f + k) next chain = some r := by
      intro read f
      induction f with
      | zero =>
        intro next chain r k h
        cases next with
        | zero => cases k <;> simpa [chainLoop] using h
        | succ n => simp [chainLoop] at h
      | succ f ih =>
        intro next chain r k h
        cases next with
        | zero => rw [show f + 1 + k = (f + k) + 1 by omega]; simpa [chainLoop] using h
        | succ n =>
          rw [show f + 1 + k = (f + k) + 1 by omega]
          rw [chainLoop] at h ⊢
          · cases hr : read (n + 1) with
            | error e => rw [hr] at h; exact h
            | ok d =>
              rw [hr] at h
              simp only [] at h ⊢
              split
              · rename_i he; rw [if_pos he] at h; exact h
              · rename_i he
                rw [if_neg he] at h
                split
                · rename_i hm; rw [if_pos hm] at h; exact h
                · rename_i hm; rw [if_neg hm] at h; exact ih _ _ _ k h
          · simp
          · simp
    cases h1 : rd file 2 2 with
    | none => exact ⟨fail', fun fuel _ => by simp only [parseFile.go, h1], fun c h => by cases h⟩
    | some a =>
      cases h2 : rd file 4 4 with
      | none => exact ⟨fail', fun fuel _ => by simp only [parseFile.go, h1, h2], fun c h => by cases h⟩
      | some p =>
        by_cases hm : num e a ≠ 42 ∧ num e a ≠ 85 ∧ num e a ≠ 21330 ∧ num e a ≠ 20306
        · exact ⟨fail', fun fuel _ => by simp only [parseFile.go, h1, h2]; rw [if_pos hm], fun c h => by cases h⟩
        by_cases hp : num e p = 0
        · exact ⟨fail', fun fuel _ => by simp only [parseFile.go, h1, h2]; rw [if_neg hm, if_pos hp], fun c h => by cases h⟩
        obtain ⟨r, hr, hlen⟩ := chainLoop_limit (readIfd utf8 file e 0 corr subTags) m (m + 1) (applyCorr (num e p) corr) [] (by simp) (by simp)
        have hst : ∀ fuel, m + 1 ≤ fuel → chainLoop (readIfd utf8 file e 0 corr subTags) (some m) fuel (applyCorr (num e p) corr) [] = some r := by
          intro fuel hf
          obtain ⟨k, rfl⟩ := Nat.exists_eq_add_of_le hf
          exact stable _ _ _ _ _ k hr
        by_cases hnil : r = .ok []
        · refine ⟨fail', fun fuel hf => ?_, fun c h => by cases h⟩
          simp only [parseFile.go, h1, h2]
          rw [if_neg hm, if_neg hp, hst fuel hf, hnil]
        · refine ⟨r, fun fuel hf => ?_, hlen⟩
          simp only [parseFile.go, h1, h2]
          rw [if_neg hm, if_neg hp, hst fuel hf]
          cases r with
          | error e => rfl
          | ok c =>
            cases c with
            | nil => exact absurd rfl hnil
            | cons x c => rfl
  by_cases hI : rd file 0 2 = some [0x49, 0x49]
  · obtain ⟨r, a, b⟩ := go .little
    exact ⟨r, fun fuel hf => by rw [parseFile.eq_def]; simp only [hI]; exact a fuel hf, b⟩
  by_cases hM : rd file 0 2 = some [0x4d, 0x4d]
  · obtain ⟨r, a, b⟩ := go .big
    exact ⟨r, fun fuel hf => by rw [parseFile.eq_def]; simp only [hM]; exact a fuel hf, b⟩
  refine ⟨fail', fun fuel _ => ?_, fun c h => by cases h⟩
  rw [parseFile.eq_def]
  split
  · rename_i h; exact absurd h hI
  · rename_i h; exact absurd h hM
  · rfl

/-- A file whose only directory (one SHORT) names itself as the next. -/
def cyclicFile : List Nat := [0x49, 0x49, 42, 0, 8, 0, 0, 0, 1, 0, 0, 1, 3, 0, 1, 0, 0, 0, 7, 0, 0, 0, 8, 0, 0, 0]

def cyclicDir : Dir := { offset := 8, next := 8, entries := [(256, .short [7], 18)] }

theorem cyclic_read (utf8 : List Nat → Bool) (subTags : List Nat) (h : 256 ∉ subTags) : readIfd utf8 cyclicFile .little 0 0 subTags 8 = .ok (cyclicDir, []) := by
  have hd : readDir utf8 cyclicFile .little 0 0 subTags 8 = .ok (cyclicDir, []) := by
    have hs : ∀ v emb, subOffsets subTags 256 v emb [] = .ok [] := fun v emb => by unfold subOffsets; rw [if_neg h]
    have hp : parseEntry utf8 cyclicFile .little 0 0 12 = .ok (.short [7]) 18 := by rfl
    have hr : rd cyclicFile 8 2 = some [1, 0] := by rfl
    have hr2 : rd cyclicFile 10 2 = some [0, 1] := by rfl
    have hn : num .little [0, 1] = 256 := by rfl
    have hl : entryLoop utf8 cyclicFile .little 0 0 subTags 1 10 { pos := 10 } = .ok { entries := [(256, .short [7], 18)], subs := [], errors := 0, pos := 22 } := by
      rw [entryLoop, if_neg (by decide), hr2]
      simp only []
      rw [hp]
      simp only [hn, hs, bind, Except.bind]
      rfl
    rw [readDir, if_neg (by decide), Nat.zero_add, hr]
    simp only []
    rw [show min (num .little [1, 0]) maxEntries = 1 from rfl, show (8 + 2) % 2 ^ 32 = 10 from rfl, hl]
    rfl
  rw [readIfd, hd]; rfl

theorem cyclic_start (utf8 : List Nat → Bool) (max : Option Nat) (subTags : List Nat) (fuel : Nat) :
    parseFile utf8 cyclicFile 0 max subTags fuel =
      match chainLoop (readIfd utf8 cyclicFile .little 0 0 subTags) max fuel 8 [] with
      | none => none
      | some (.ok []) => some fail'
      | some r => some r := by rfl

/-- Without a limit, as the decoders open their files, reading a file of 26 bytes whose directory names itself as next never ends. -/
theorem C21_cyclic_chain_never_ends (utf8 : List Nat → Bool) (subTags : List Nat) (h : 256 ∉ subTags) (fuel : Nat) :
    parseFile utf8 cyclicFile 0 none subTags fuel = none := by
  have : ∀ chain, chainLoop (readIfd utf8 cyclicFile .little 0 0 subTags) none fuel 8 chain = none := by
    induction fuel with
    | zero => intro chain; rfl
    | succ fuel ih =>
      intro chain
      rw [chainLoop, cyclic_read utf8 subTags h]
      · exact ih _
      · simp
  rw [cyclic_start, this]

/-- With any limit `m` the same file is read as `m + 1` directories, one more than permitted. -/
theorem C21_limit_exceeded (utf8 : List Nat → Bool) (subTags : List Nat) (h : 256 ∉ subTags) (m : Nat) :
    ∃ c, parseFile utf8 cyclicFile 0 (some m) subTags (m + 1) = some (.ok c) ∧ c.length = m + 1 := by
  have : ∀ fuel chain, chain.length + fuel = m + 1 → 0 < fuel →
      ∃ c, chainLoop (readIfd utf8 cyclicFile .little 0 0 subTags) (some m) fuel 8 chain = some (.ok c) ∧ c.length = m + 1 := by
    intro fuel
    induction fuel with
    | zero => intro chain _ h; omega
    | succ fuel ih =>
      intro chain hc _
      rw [chainLoop, cyclic_read utf8 subTags h]
      · simp only []
        rw [if_neg (by decide)]
        by_cases hf : fuel = 0
        · subst hf
          rw [if_pos (by omega)]
          exact ⟨_, rfl, by simp; omega⟩
        · rw [if_neg (by omega)]
          exact ih _ (by simp; omega) (by omega)
      · simp
  obtain ⟨c, h1, h2⟩ := this (m + 1) [] (by simp) (by omega)
  refine ⟨c, ?_, h2⟩
  rw [cyclic_start, h1]
  cases c with
  | nil => simp at h2
  | cons x c => rfl

/-! ## C22: no panic -/

theorem parseEntry_cases (utf8 : List Nat → Bool) (file : List Nat) (e : Endian) (base : Nat) (corr : Int) (pos : Nat)
    (h2 : 2 ≤ pos) (hbase : base ≤ pos + 6) (hpos : pos + 10 < 2 ^ 32) : parseEntry utf8 file e base corr pos ≠ .panic := by
  have hat : ∀ typ count offset posNow, parseAt utf8 file e base typ count offset posNow (pos % 2 ^ 32 - 2) ≠ .panic := by
    intro typ count offset posNow
    unfold parseAt
    split
    · simp
    · split
      · simp
      · rw [if_pos (by omega)]; simp
  rw [parseEntry, if_neg (by omega)]
  split
  · simp
  · split
    · simp
    · unfold parseOffset
      split
      · rw [if_pos (by omega)]; exact hat _ _ _ _
      · split
        · simp
        · exact hat _ _ _ _

/-- C22, as far as it holds: for every file shorter than 4 GiB (less 10 bytes), every byte order, offset correction and position behind a tag in the file
(not before the base of the directory) parsing an entry gives a value or an error. Missing: positions within 10 bytes of 4 GiB. -/
theorem C22_entry_no_panic_partial (utf8 : List Nat → Bool) (file : List Nat) (e : Endian) (base : Nat) (corr : Int) (pos : Nat)
    (h2 : 2 ≤ pos) (hin : pos ≤ file.length) (hbase : base ≤ pos + 6) (hfile : file.length + 10 < 2 ^ 32) :
    (∃ v emb, parseEntry utf8 file e base corr pos = .ok v emb) ∨ ∃ p, parseEntry utf8 file e base corr pos = .err p := by
  have := parseEntry_cases utf8 file e base corr pos h2 hbase (by omega)
  cases h : parseEntry utf8 file e base corr pos with
  | ok v emb => exact Or.inl ⟨v, emb, rfl⟩
  | err p => exact Or.inr ⟨p, rfl⟩
  | panic => exact absurd h this

theorem entryLoop_no_panic (utf8 : List Nat → Bool) (file : List Nat) (e : Endian) (base : Nat) (corr : Int) (hfile : file.length + 24 < 2 ^ 32) (n p : Nat)
    (s : LoopState) (hb : base ≤ p) (hp : p ≤ file.length + 10) : ∃ s', entryLoop utf8 file e base corr [] n p s = .ok s' := by
  induction n generalizing p s with
  | zero => exact ⟨s, rfl⟩
  | succ n ih =>
    rw [entryLoop, if_neg (by omega)]
    cases hr : rd file p 2 with
    | none => exact ⟨_, rfl⟩
    | some t =>
      have hlen : p + 2 ≤ file.length := by
        by_contra hh
        rw [rd, if_neg hh] at hr
        cases hr
      have hnp := parseEntry_cases utf8 file e base corr (p + 2) (by omega) (by omega) (by omega)
      simp only []
      cases hpar : parseEntry utf8 file e base corr (p + 2) with
      | panic => exact absurd hpar hnp
      | err q =>
        simp only []
        split
        · exact ⟨_, rfl⟩
        · exact ih _ _ (by omega) (by omega)
      | ok v emb =>
        have hsub : subOffsets [] (num e t) v emb s.subs = .ok s.subs := by unfold subOffsets; rw [if_neg (by simp)]
        simp only [hsub, bind, Except.bind]
        exact ih _ _ (by omega) (by omega)

/-- C22 for whole directories: reading a directory (without following sub-directories) at any offset of any file shorter than 4 GiB (less 24 bytes) gives a
directory or an error. -/
theorem C22_directory_no_panic_partial (utf8 : List Nat → Bool) (file : List Nat) (e : Endian) (base : Nat) (corr : Int) (offset : Nat)
    (hoff : base + offset < 2 ^ 32) (hfile : file.length + 24 < 2 ^ 32) : readDir utf8 file e base corr [] offset ≠ .error .panic := by
  rw [readDir, if_neg (by omega)]
  cases hr : rd file (base + offset) 2 with
  | none => simp [fail']
  | some c =>
    have hlen : base + offset + 2 ≤ file.length := by
      by_contra hh
      rw [rd, if_neg hh] at hr
      cases hr
    obtain ⟨s, hs⟩ := entryLoop_no_panic utf8 file e base corr hfile (min (num e c) maxEntries) ((base + offset + 2) % 2 ^ 32) { pos := base + offset + 2 }
      (by rw [Nat.mod_eq_of_lt (by omega)]; omega) (by rw [Nat.mod_eq_of_lt (by omega)]; omega)
    simp only [hs, bind, Except.bind]
    simp

example : (2 ≤ 12 ∧ 12 ≤ cyclicFile.length ∧ 0 ≤ 12 + 6 ∧ cyclicFile.length + 10 < 2 ^ 32) ∧
    parseEntry (fun _ => true) cyclicFile .little 0 0 12 = .ok (.short [7]) 18 := by decide

/-- A sub-directory tag (330) of type 13 and count 0 makes reading the directory panic: the first byte of the empty value is taken. -/
theorem C22_empty_sub_directory_panics (utf8 : List Nat → Bool) :
    parseFile utf8 [0x49, 0x49, 42, 0, 8, 0, 0, 0, 1, 0, 0x4a, 1, 13, 0, 0, 0, 0, 0, 0, 0, 0, 0, 0, 0, 0, 0] 0 (some 10) [330] 11 = some (.error .panic) := by
  rfl

/-- An entry ending at 4 GiB makes the position arithmetic overflow, here in any file of 4 GiB of zeros. -/
theorem C22_entry_at_4gib_panics (utf8 : List Nat → Bool) (file : List Nat) (h0 : ∀ x ∈ file, x = 0) (hlen : file.length = 2 ^ 32) :
    parseEntry utf8 file .little 0 0 (2 ^ 32 - 10) = .panic := by
  have hz : file = List.replicate file.length 0 := List.eq_replicate_of_mem h0
  have hrd : ∀ p n, p + n ≤ 2 ^ 32 → rd file p n = some (List.replicate n 0) := by
    intro p n h
    rw [rd, hlen, if_pos h]
    have : (file.drop p).take n = List.replicate n 0 := by
      apply List.eq_replicate_iff.mpr
      refine ⟨by rw [List.length_take, List.length_drop]; omega, fun x hx => h0 x (List.mem_of_mem_drop (List.mem_of_mem_take hx))⟩
    rw [this]
  rw [parseEntry, if_neg (by decide), hrd _ _ (by decide)]
  simp only []
  rw [hrd _ _ (by decide)]
  simp only []
  rw [show num .little (List.replicate 2 0) = 0 from rfl, show num .little (List.replicate 4 0) = 0 from rfl]
  rw [parseOffset, if_pos (by decide), if_pos (by decide), parseAt, if_neg (by decide), hrd _ _ (by decide)]
  simp only []
  rw [if_neg (by decide)]

end Verif.Props
