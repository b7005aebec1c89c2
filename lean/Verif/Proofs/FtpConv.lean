import Verif.Spec.FtpConv
import Verif.Proofs.MakeDng
/-! # Lemmas for uploads (C82) -/

namespace Verif.FtpConv
open Verif Verif.Path Verif.Cli Verif.MakeDng Verif.Spec.FtpConv
open Verif.Spec.MakeDng (Fresh SameFile)

/-! ## Names -/

theorem takeWhile_free (x : Char) (l : List Char) : x ∉ l.takeWhile (· ≠ x) := by
  induction l with
  | nil => simp
  | cons c cs ih =>
    rw [List.takeWhile_cons]
    split
    · rename_i hc
      have hc' : c ≠ x := by simpa using hc
      simp only [List.mem_cons, not_or]
      exact ⟨fun h => hc' h.symm, ih⟩
    · simp

theorem splitDot_iff (n b e : Name) : splitDot n = some (b, e) ↔ n = b ++ '.' :: e ∧ '.' ∉ e ∧ b ≠ [] := by
  unfold splitDot
  constructor
  · intro h
    have hj : n.reverse.takeWhile (· ≠ '.') ++ n.reverse.dropWhile (· ≠ '.') = n.reverse := List.takeWhile_append_dropWhile
    cases hd : n.reverse.dropWhile (· ≠ '.') with
    | nil => rw [hd] at h; cases h
    | cons c l =>
      have hc : c = '.' := by
        have := List.head?_dropWhile_not (fun x : Char => decide (x ≠ '.')) n.reverse
        rw [hd] at this
        simpa using this
      rw [hd] at h hj
      simp only [] at h
      split at h
      · cases h
      · rename_i hl
        cases h
        refine ⟨?_, ?_, by simpa using hl⟩
        · have := congrArg List.reverse hj
          rw [List.reverse_reverse, List.reverse_append, List.reverse_cons, hc] at this
          exact this.symm.trans (by simp)
        · rw [List.mem_reverse]
          exact takeWhile_free '.' _
  · rintro ⟨rfl, he, hb⟩
    have he' : ∀ c ∈ e.reverse, (decide (c ≠ '.')) = true := by
      intro c hc
      have : c ≠ '.' := by rintro rfl; exact he (List.mem_reverse.mp hc)
      simpa using this
    have hr : (b ++ '.' :: e).reverse = e.reverse ++ '.' :: b.reverse := by simp
    rw [hr, List.dropWhile_append_of_pos he', List.takeWhile_append_of_pos he']
    simp [hb]

theorem fileName_some (p : Path) (n : Name) : fileName p = some n ↔ ∃ dir, p = dir ++ [.normal n] := by
  unfold fileName
  constructor
  · intro h
    split at h
    · rename_i m hm
      cases h
      obtain ⟨ys, e⟩ := List.getLast?_eq_some_iff.mp hm
      exact ⟨ys, e⟩
    · cases h
  · rintro ⟨dir, rfl⟩
    simp

theorem raw_ext {s : Server} {p dir : Path} {st e : Name} (h : IsRaw s p dir st e) :
    fileName p = some (st ++ '.' :: e) ∧ extOf p = some e ∧ supported s e = true ∧ setExt p "dng".toList = some (dngOf dir st) := by
  have hf := (fileName_some p _).mpr ⟨dir, h.path⟩
  have hs := (splitDot_iff (st ++ '.' :: e) st e).mpr ⟨rfl, h.dot, h.name⟩
  refine ⟨hf, ?_, ?_, ?_⟩
  · simp [extOf, hf, ext, hs]
  · unfold supported
    rw [List.any_eq_true]
    exact ⟨_, h.known, by simp⟩
  · simp only [setExt, hf, Option.map_some, stem, hs]
    rw [h.path]
    simp [dngOf]

theorem raw_of_ext {s : Server} {p : Path} {e : Name} (h : extOf p = some e) (hs : supported s e = true) : ∃ dir st, IsRaw s p dir st e := by
  unfold extOf at h
  cases hf : fileName p with
  | none => rw [hf] at h; cases h
  | some n =>
    rw [hf, Option.bind_some] at h
    unfold ext at h
    cases hd : splitDot n with
    | none => rw [hd] at h; cases h
    | some q =>
      obtain ⟨b, e'⟩ := q
      rw [hd] at h
      cases h
      obtain ⟨h1, h2, h3⟩ := (splitDot_iff _ _ _).mp hd
      obtain ⟨dir, hp⟩ := (fileName_some p n).mp hf
      refine ⟨dir, b, by rw [hp, h1], h2, h3, ?_⟩
      unfold supported at hs
      rw [List.any_eq_true] at hs
      obtain ⟨x, hx, hx2⟩ := hs
      have : x = e'.map Char.toUpper := by simpa using hx2
      rw [← this]
      exact hx

theorem raw_unique {s : Server} {p dir dir' : Path} {st st' e e' : Name} (h : IsRaw s p dir st e) (h' : IsRaw s p dir' st' e') : dir = dir' ∧ st = st' ∧ e = e' := by
  have hp := h.path
  rw [h'.path] at hp
  obtain ⟨h1, h2⟩ := List.append_inj' hp rfl
  have h3 : st' ++ '.' :: e' = st ++ '.' :: e := by simpa using h2
  have a := (splitDot_iff (st ++ '.' :: e) st e).mpr ⟨rfl, h.dot, h.name⟩
  have b := (splitDot_iff (st' ++ '.' :: e') st' e').mpr ⟨rfl, h'.dot, h'.name⟩
  rw [h3, a] at b
  cases b
  exact ⟨h1.symm, rfl, rfl⟩

/-- Either a raw file or not. -/
theorem raw_or_plain (s : Server) (p : Path) : (∃ dir st e, IsRaw s p dir st e) ∨ (Plain s p ∧ (extOf p = none ∨ ∃ e, extOf p = some e ∧ supported s e = false)) := by
  have plain : (∀ e, extOf p = some e → supported s e = false) → Plain s p := by
    intro h dir st e hr
    obtain ⟨_, h1, h2, _⟩ := raw_ext hr
    rw [h e h1] at h2
    cases h2
  cases he : extOf p with
  | none => exact .inr ⟨plain (by rw [he]; intro e h; cases h), .inl rfl⟩
  | some e =>
    cases hs : supported s e with
    | true =>
      obtain ⟨dir, st, h⟩ := raw_of_ext he hs
      exact .inl ⟨dir, st, e, h⟩
    | false => exact .inr ⟨plain (by rw [he]; intro e' h; cases h; exact hs), .inr ⟨e, rfl, hs⟩⟩

/-! ## Files -/

theorem store_content (fs : Fs) (p : Path) (c : List Nat) : (store fs p c).content p = some c := write_content fs p c

theorem same_iff {fs : Fs} (h : Single fs) {p q : Path} : SameFile fs p q ↔ p = q := by
  constructor
  · rintro (e | ⟨i, h1, h2⟩)
    · exact e
    · exact h p q i h1 h2
  · exact .inl

theorem store_other {fs : Fs} (ht : Tidy fs) {p q : Path} (h : q ≠ p) (c : List Nat) : (store fs p c).content q = fs.content q :=
  write_other ht.2 (fun hs => h ((same_iff ht.1).mp hs)) c

theorem store_tidy {fs : Fs} (ht : Tidy fs) (p : Path) (c : List Nat) : Tidy (store fs p c) := by
  unfold store openTrunc
  cases hp : fs.dir p with
  | some i => exact ⟨fun a b j h1 h2 => ht.1 a b j h1 h2, fun a j h => ht.2 a j h⟩
  | none =>
    constructor
    · intro a b j h1 h2
      simp only [Fs.write, Fs.create] at h1 h2
      split at h1 <;> split at h2
      · rename_i e1 e2; rw [e1, e2]
      · cases h1; have := ht.2 b _ h2; omega
      · cases h2; have := ht.2 a _ h1; omega
      · exact ht.1 a b j h1 h2
    · intro a j h
      simp only [Fs.write, Fs.create] at h ⊢
      split at h
      · cases h; omega
      · have := ht.2 a j h; omega

/-! ## One upload -/

theorem putFile_plain {s : Server} {w : World} {p : Path} {data : List Nat} {fs : Fs} (h : Plain s p) :
    putFile s w p data fs = if w.writes then (true, store fs p data) else (false, store fs p w.piece) := by
  have : storFile s w p data fs = (some false, fs) := by
    rcases raw_or_plain s p with ⟨dir, st, e, hr⟩ | ⟨_, he | ⟨e, he, hs⟩⟩
    · exact absurd hr (h dir st e)
    · simp [storFile, he]
    · simp [storFile, he, hs]
  unfold putFile
  rw [this]

theorem storFile_raw {s : Server} {w : World} {p dir : Path} {st e : Name} {data : List Nat} {fs : Fs} (h : IsRaw s p dir st e) :
    storFile s w p data fs = if w.creates = false then (none, fs) else match s.conv (st ++ '.' :: e) data with
      | .error part => (none, store fs (dngOf dir st) part)
      | .ok full =>
        if w.flushes then (some (!s.keepOrig), store fs (dngOf dir st) full)
        else if s.keepMtime then (none, store fs (dngOf dir st) w.part)
        else (some (!s.keepOrig), store fs (dngOf dir st) w.part) := by
  obtain ⟨h1, h2, h3, h4⟩ := raw_ext h
  unfold storFile
  rw [h2]
  simp only [h3, h4, h1, Option.getD_some, Bool.true_eq_false, if_false]
  rfl

theorem putFile_raw {s : Server} {w : World} {p dir : Path} {st e : Name} {data : List Nat} {fs : Fs} (h : IsRaw s p dir st e) :
    putFile s w p data fs = if w.creates = false then (false, fs) else match s.conv (st ++ '.' :: e) data with
      | .error part => (false, store fs (dngOf dir st) part)
      | .ok full =>
        if w.flushes = false ∧ s.keepMtime = true then (false, store fs (dngOf dir st) w.part)
        else
          let out := store fs (dngOf dir st) (if w.flushes then full else w.part)
          if s.keepOrig then (if w.writes then (true, store out p data) else (false, store out p w.piece)) else (true, out) := by
  unfold putFile
  rw [storFile_raw h]
  cases w.creates with
  | false => rfl
  | true =>
    simp only [Bool.true_eq_false, if_false]
    cases s.conv (st ++ '.' :: e) data with
    | error part => rfl
    | ok full =>
      simp only []
      cases w.flushes <;> cases s.keepMtime <;> cases s.keepOrig <;> rfl

theorem putFile_tidy {s : Server} {w : World} {p : Path} {data : List Nat} {fs : Fs} (ht : Tidy fs) : Tidy (putFile s w p data fs).2 := by
  rcases raw_or_plain s p with ⟨dir, st, e, hr⟩ | ⟨hp, _⟩
  · rw [putFile_raw hr]
    split
    · exact ht
    split
    · exact store_tidy ht _ _
    split
    · exact store_tidy ht _ _
    simp only []
    split
    · split
      · exact store_tidy (store_tidy ht _ _) _ _
      · exact store_tidy (store_tidy ht _ _) _ _
    · exact store_tidy ht _ _
  · rw [putFile_plain hp]
    split
    · exact store_tidy ht _ _
    · exact store_tidy ht _ _

theorem putFile_other {s : Server} {w : World} {p q : Path} {data : List Nat} {fs : Fs} (ht : Tidy fs) (h : ¬ Target s p q) :
    (putFile s w p data fs).2.content q = fs.content q := by
  rcases raw_or_plain s p with ⟨dir, st, e, hr⟩ | ⟨hp, _⟩
  · have h1 : q ≠ dngOf dir st := fun he => h (.inr ⟨dir, st, e, hr, .inl he⟩)
    have h2 : s.keepOrig = true → q ≠ p := fun hk he => h (.inr ⟨dir, st, e, hr, .inr ⟨hk, he⟩⟩)
    rw [putFile_raw hr]
    split
    · rfl
    split
    · exact store_other ht h1 _
    split
    · exact store_other ht h1 _
    simp only []
    split
    · rename_i hk
      split
      · rw [store_other (store_tidy ht _ _) (h2 hk), store_other ht h1]
      · rw [store_other (store_tidy ht _ _) (h2 hk), store_other ht h1]
    · exact store_other ht h1 _
  · have h1 : q ≠ p := fun he => h (.inl ⟨hp, he⟩)
    rw [putFile_plain hp]
    split
    · exact store_other ht h1 _
    · exact store_other ht h1 _

/-- `Kept` looks only at the targets. -/
theorem kept_of_same {s : Server} {p : Path} {data : List Nat} {fs fs' : Fs} (h : ∀ q, Target s p q → fs'.content q = fs.content q) (hk : Kept s p data fs) :
    Kept s p data fs' := by
  refine ⟨fun hp => ?_, fun dir st e hr => ⟨fun ho => ?_, fun hne => ?_⟩⟩
  · rw [h p (.inl ⟨hp, rfl⟩)]; exact hk.1 hp
  · rw [h p (.inr ⟨dir, st, e, hr, .inr ⟨ho, rfl⟩⟩)]; exact (hk.2 dir st e hr).1 ho
  · obtain ⟨full, h1, h2⟩ := (hk.2 dir st e hr).2 hne
    exact ⟨full, h1, by rw [h _ (.inr ⟨dir, st, e, hr, .inl rfl⟩)]; exact h2⟩

theorem session_tidy {s : Server} (us : List (Path × List Nat × World)) : ∀ {fs : Fs}, Tidy fs → Tidy (session s us fs).2 := by
  induction us with
  | nil => intro fs h; exact h
  | cons u us ih => intro fs h; exact ih (putFile_tidy h)

theorem session_other {s : Server} (us : List (Path × List Nat × World)) (q : Path) (h : ∀ u ∈ us, ¬ Target s u.1 q) :
    ∀ {fs : Fs}, Tidy fs → (session s us fs).2.content q = fs.content q := by
  induction us with
  | nil => intro fs _; rfl
  | cons u us ih =>
    intro fs ht
    simp only [session]
    rw [ih (fun v hv => h v (.tail _ hv)) (putFile_tidy ht)]
    exact putFile_other ht (h u (.head _))

end Verif.FtpConv
