import Verif.Spec.MakeDng
import Mathlib.Data.List.Forall2
/-! # Lemmas for `makedng` (C81) -/

namespace Verif.MakeDng
open Verif Verif.Path Verif.Cli Verif.Spec.MakeDng

/-! ## Text -/

theorem splitAt_ne_nil (x : Char) (s : List Char) : splitAt x s ≠ [] := by
  cases s with
  | nil => simp [splitAt]
  | cons c cs =>
    simp only [splitAt]
    split
    · simp
    · split <;> simp

theorem splitAt_free (x : Char) (s : List Char) (h : x ∉ s) : splitAt x s = [s] := by
  induction s with
  | nil => rfl
  | cons c cs ih =>
    simp only [List.mem_cons, not_or] at h
    simp only [splitAt]
    rw [if_neg (fun e => h.1 e.symm), ih h.2]

theorem splitAt_append (x : Char) (s t : List Char) (h : x ∉ s) : splitAt x (s ++ x :: t) = s :: splitAt x t := by
  induction s with
  | nil => simp [splitAt]
  | cons c cs ih =>
    simp only [List.mem_cons, not_or] at h
    simp only [List.cons_append, splitAt]
    rw [if_neg (fun e => h.1 e.symm), ih h.2]

theorem first_of {x : Char} {s : List Char} (h : x ∈ s) : ∃ a b, s = a ++ x :: b ∧ x ∉ a := by
  induction s with
  | nil => cases h
  | cons c cs ih =>
    by_cases e : c = x
    · exact ⟨[], cs, by rw [e]; rfl, by simp⟩
    · have : x ∈ cs := by
        cases h with
        | head => exact absurd rfl e
        | tail _ h => exact h
      obtain ⟨a, b, e1, e2⟩ := ih this
      refine ⟨c :: a, b, by rw [e1]; rfl, ?_⟩
      simp only [List.mem_cons, not_or]
      exact ⟨fun h => e h.symm, e2⟩

/-- A text is its first part, or its first part, the separator and a text of the other parts. -/
theorem splitAt_cases (x : Char) (s : List Char) :
    (x ∉ s ∧ splitAt x s = [s]) ∨ ∃ a b, s = a ++ x :: b ∧ x ∉ a ∧ splitAt x s = a :: splitAt x b := by
  by_cases h : x ∈ s
  · obtain ⟨a, b, e, n⟩ := first_of h
    exact .inr ⟨a, b, e, n, by rw [e, splitAt_append x a b n]⟩
  · exact .inl ⟨h, splitAt_free x s h⟩

theorem dropWhile_blank (a s : List Char) (h : Blank a) : (a ++ s).dropWhile Loader.isSpace = s.dropWhile Loader.isSpace := by
  induction a with
  | nil => rfl
  | cons c cs ih =>
    rw [List.cons_append, List.dropWhile_cons, if_pos (h c (.head _))]
    exact ih fun x hx => h x (.tail _ hx)

theorem blank_reverse {a : List Char} (h : Blank a) : Blank a.reverse := fun c hc => h c (List.mem_reverse.mp hc)

/-- A core without spaces at its ends is what is left. -/
theorem trim_core (a k b : List Char) (ha : Blank a) (hb : Blank b)
    (h1 : k.dropWhile Loader.isSpace = k) (h2 : k.reverse.dropWhile Loader.isSpace = k.reverse) (hk : k ≠ []) : trim (a ++ k ++ b) = k := by
  unfold trim
  rw [List.append_assoc, dropWhile_blank a _ ha]
  have : (k ++ b).dropWhile Loader.isSpace = k ++ b := by
    cases k with
    | nil => exact absurd rfl hk
    | cons c cs =>
      by_cases e : Loader.isSpace c = true
      · rw [List.dropWhile_cons, if_pos e] at h1
        have := (List.dropWhile_sublist Loader.isSpace (l := cs)).length_le
        rw [h1] at this
        simp only [List.length_cons] at this
        omega
      · rw [List.cons_append, List.dropWhile_cons, if_neg e]
  rw [this, List.reverse_append, dropWhile_blank _ _ (blank_reverse hb), h2, List.reverse_reverse]

theorem takeWhile_blank (s : List Char) : Blank (s.takeWhile Loader.isSpace) := by
  induction s with
  | nil => intro c h; cases h
  | cons c cs ih =>
    intro x hx
    rw [List.takeWhile_cons] at hx
    split at hx
    · cases hx with
      | head => assumption
      | tail _ h => exact ih x h
    · cases hx

/-- What is cut off are spaces. -/
theorem trim_parts (s : List Char) : ∃ a b, s = a ++ trim s ++ b ∧ Blank a ∧ Blank b := by
  refine ⟨s.takeWhile Loader.isSpace, (((s.dropWhile Loader.isSpace).reverse).takeWhile Loader.isSpace).reverse, ?_, takeWhile_blank s,
    blank_reverse (takeWhile_blank _)⟩
  unfold trim
  rw [List.append_assoc, ← List.reverse_append, List.takeWhile_append_dropWhile, List.reverse_reverse, List.takeWhile_append_dropWhile]

/-- No character of a solid text is a space. -/
theorem dropWhile_solid (k : List Char) (h : ∀ c ∈ k, Loader.isSpace c = false) : k.dropWhile Loader.isSpace = k := by
  cases k with
  | nil => rfl
  | cons c cs => rw [List.dropWhile_cons, if_neg (by rw [h c (.head _)]; simp)]

theorem trim_solid (a k b : List Char) (ha : Blank a) (hb : Blank b) (h : ∀ c ∈ k, Loader.isSpace c = false) (hk : k ≠ []) : trim (a ++ k ++ b) = k :=
  trim_core a k b ha hb (dropWhile_solid k h) (dropWhile_solid _ fun c hc => h c (List.mem_reverse.mp hc)) hk

/-! ## Numbers -/

theorem digit_range {c : Char} (h : '0' ≤ c ∧ c ≤ '9') : 48 ≤ c.toNat ∧ c.toNat ≤ 57 := by
  have h1 : '0'.val ≤ c.val := h.1
  have h2 : c.val ≤ '9'.val := h.2
  rw [UInt32.le_iff_toNat_le] at h1 h2
  exact ⟨h1, h2⟩

theorem digit_solid {c : Char} (h : '0' ≤ c ∧ c ≤ '9') : Loader.isSpace c = false := by
  have := digit_range h
  simp only [Loader.isSpace, Bool.or_eq_false_iff, Bool.and_eq_false_iff, decide_eq_false_iff_not, beq_eq_false_iff_ne]
  omega

theorem digits_ok (d : List Char) : ∀ n, (∀ c ∈ d, '0' ≤ c ∧ c ≤ '9') → digits n d = some (d.foldl (fun n c => 10 * n + (c.toNat - 48)) n) := by
  induction d with
  | nil => intro n _; rfl
  | cons c cs ih =>
    intro n h
    simp only [digits, List.foldl_cons]
    rw [if_pos (h c (.head _)), ih _ fun x hx => h x (.tail _ hx)]
    rfl

theorem digits_only (d : List Char) : ∀ n m, digits n d = some m → (∀ c ∈ d, '0' ≤ c ∧ c ≤ '9') ∧ d.foldl (fun n c => 10 * n + (c.toNat - 48)) n = m := by
  induction d with
  | nil => intro n m h; exact ⟨fun c hc => (by cases hc), by simpa [digits] using h⟩
  | cons c cs ih =>
    intro n m h
    simp only [digits] at h
    split at h
    · rename_i hc
      obtain ⟨h1, h2⟩ := ih _ _ h
      refine ⟨?_, h2⟩
      intro x hx
      cases hx with
      | head => exact hc
      | tail _ hx => exact h1 x hx
    · cases h

theorem parseNum_ok (bound : Nat) (sign d : List Char) (hs : sign = [] ∨ sign = ['+']) (hd : Digits d) :
    parseNum bound (sign ++ d) = if value d < bound then some (value d) else none := by
  have key : dropPlus (sign ++ d) = d := by
    cases hs with
    | inl h =>
      subst h
      rw [List.nil_append]
      cases d with
      | nil => rfl
      | cons c l =>
        simp only [dropPlus]
        rw [if_neg]
        rintro rfl
        exact absurd (hd.2 '+' (.head _)) (by decide)
    | inr h => subst h; rfl
  unfold parseNum
  rw [key, if_neg hd.1, digits_ok d 0 hd.2]
  rfl

theorem parseNum_only (bound : Nat) (s : List Char) (n : Nat) (h : parseNum bound s = some n) :
    n < bound ∧ ∃ sign d, s = sign ++ d ∧ (sign = [] ∨ sign = ['+']) ∧ Digits d ∧ value d = n := by
  have split1 : ∃ sign, (sign = [] ∨ sign = ['+']) ∧ s = sign ++ dropPlus s := by
    cases s with
    | nil => exact ⟨[], .inl rfl, rfl⟩
    | cons c l =>
      by_cases e : c = '+'
      · exact ⟨['+'], .inr rfl, by simp [dropPlus, e]⟩
      · exact ⟨[], .inl rfl, by simp [dropPlus, e]⟩
  obtain ⟨sign, hs, e⟩ := split1
  unfold parseNum at h
  generalize dropPlus s = d at h e
  split at h
  · cases h
  · rename_i hd
    cases hm : digits 0 d with
    | none => rw [hm] at h; cases h
    | some m =>
      rw [hm] at h
      simp only [] at h
      obtain ⟨h1, h2⟩ := digits_only d 0 m hm
      split at h
      · rename_i hb
        cases h
        exact ⟨hb, sign, d, e, hs, ⟨hd, h1⟩, h2⟩
      · cases h

theorem sign_solid {sign d : List Char} (hs : sign = [] ∨ sign = ['+']) (hd : Digits d) : ∀ c ∈ sign ++ d, Loader.isSpace c = false := by
  intro c hc
  rcases List.mem_append.mp hc with h | h
  · cases hs with
    | inl e => subst e; cases h
    | inr e =>
      subst e
      rcases List.mem_singleton.mp h with rfl
      decide
  · exact digit_solid (hd.2 c h)

theorem sign_ne_nil {sign d : List Char} (hd : Digits d) : sign ++ d ≠ [] := fun h => hd.1 (List.append_eq_nil_iff.mp h).2

/-- A trimmed text is a number exactly if the text is a numeral. -/
theorem parseNum_trim (bound : Nat) (s : List Char) (n : Nat) : parseNum bound (trim s) = some n ↔ Numeral s n ∧ n < bound := by
  constructor
  · intro h
    obtain ⟨hb, sign, d, e, hs, hd, hv⟩ := parseNum_only bound _ n h
    obtain ⟨a, b, e1, ha, hb1⟩ := trim_parts s
    exact ⟨⟨a, sign, d, b, by rw [e] at e1; simpa [List.append_assoc] using e1, ha, hb1, hs, hd, hv⟩, hb⟩
  · rintro ⟨⟨a, sign, d, b, e, ha, hb1, hs, hd, hv⟩, hb⟩
    have : trim s = sign ++ d := by
      rw [e, List.append_assoc a sign d]
      exact trim_solid a (sign ++ d) b ha hb1 (sign_solid hs hd) (sign_ne_nil hd)
    rw [this, parseNum_ok bound sign d hs hd, hv, if_pos hb]

/-! ## Names -/

theorem parseUsage_name (u : Usage) : parseUsage (name u) = some u := by cases u <;> decide

theorem parseUsage_only (s : List Char) (u : Usage) (h : parseUsage s = some u) : s = name u := by
  unfold parseUsage at h
  split at h
  · cases h; assumption
  split at h
  · cases h; assumption
  split at h
  · cases h; assumption
  split at h
  · cases h; assumption
  split at h
  · cases h; assumption
  · cases h

theorem name_solid (u : Usage) : ∀ c ∈ name u, Loader.isSpace c = false := by cases u <;> decide

theorem name_ne_nil (u : Usage) : name u ≠ [] := by cases u <;> decide

theorem parseUsage_trim (s : List Char) (u : Usage) : parseUsage (trim s) = some u ↔ Named s u := by
  constructor
  · intro h
    have e := parseUsage_only _ u h
    obtain ⟨a, b, e1, ha, hb⟩ := trim_parts s
    exact ⟨a, b, by rw [e] at e1; exact e1, ha, hb⟩
  · rintro ⟨a, b, e, ha, hb⟩
    rw [e, trim_solid a (name u) b ha hb (name_solid u) (name_ne_nil u)]
    exact parseUsage_name u

/-! ## No separators inside -/

theorem blank_free {a : List Char} (x : Char) (hx : Loader.isSpace x = false) (h : Blank a) : x ∉ a := by
  intro hm
  rw [h x hm] at hx
  cases hx

theorem numeral_free {s : List Char} {n : Nat} (x : Char) (hx : Loader.isSpace x = false) (hp : x ≠ '+') (hr : ¬ ('0' ≤ x ∧ x ≤ '9')) (h : Numeral s n) :
    x ∉ s := by
  obtain ⟨a, sign, d, b, e, ha, hb, hs, hd, _⟩ := h
  rw [e]
  simp only [List.mem_append, not_or]
  refine ⟨⟨⟨blank_free x hx ha, ?_⟩, fun hm => hr (hd.2 x hm)⟩, blank_free x hx hb⟩
  cases hs with
  | inl e => subst e; simp
  | inr e => subst e; simp [hp]

theorem named_free {s : List Char} {u : Usage} (h : Named s u) : ':' ∉ s := by
  obtain ⟨a, b, e, ha, hb⟩ := h
  rw [e]
  simp only [List.mem_append, not_or]
  exact ⟨⟨blank_free ':' (by decide) ha, by cases u <;> decide⟩, blank_free ':' (by decide) hb⟩

/-! ## Lists of numbers -/

theorem join_splitAt (x : Char) : ∀ (n : Nat) (s : List Char), s.length ≤ n → [x].intercalate (splitAt x s) = s := by
  intro n
  induction n with
  | zero =>
    intro s h
    have : s = [] := List.length_eq_zero_iff.mp (by omega)
    subst this
    rfl
  | succ n ih =>
    intro s h
    rcases splitAt_cases x s with ⟨_, e⟩ | ⟨a, b, e, _, e2⟩
    · rw [e]
      simp [List.intercalate]
    · rw [e2]
      have hl : b.length ≤ n := by
        have := congrArg List.length e
        simp only [List.length_append, List.length_cons] at this
        omega
      have hb := ih b hl
      cases hs : splitAt x b with
      | nil => exact absurd hs (splitAt_ne_nil x b)
      | cons q qs =>
        rw [hs] at hb
        rw [List.intercalate_cons_cons, hb, e]
        simp

theorem splitAt_join (x : Char) (parts : List (List Char)) (hp : parts ≠ []) (h : ∀ p ∈ parts, x ∉ p) : splitAt x ([x].intercalate parts) = parts := by
  induction parts with
  | nil => exact absurd rfl hp
  | cons p ps ih =>
    cases ps with
    | nil =>
      simp only [List.intercalate_singleton]
      exact splitAt_free x p (h p (.head _))
    | cons q qs =>
      rw [List.intercalate_cons_cons]
      simp only [List.append_assoc, List.singleton_append]
      rw [splitAt_append x p _ (h p (.head _)), ih (by simp) fun y hy => h y (.tail _ hy)]

theorem mapM_some_iff {α β : Type} (f : α → Option β) (l : List α) : ∀ r, l.mapM f = some r ↔ List.Forall₂ (fun a b => f a = some b) l r := by
  induction l with
  | nil => intro r; cases r <;> simp
  | cons a l ih =>
    intro r
    rw [List.mapM_cons]
    cases hfa : f a with
    | none =>
      constructor
      · intro h; cases h
      · intro h
        cases h with
        | cons h1 _ => rw [hfa] at h1; cases h1
    | some b =>
      cases hm : l.mapM f with
      | none =>
        constructor
        · intro h; cases h
        · intro h
          cases h with
          | cons _ h2 => rw [(ih _).mpr h2] at hm; cases hm
      | some bs =>
        constructor
        · intro h
          cases h
          exact .cons hfa ((ih bs).mp hm)
        · intro h
          cases h with
          | cons h1 h2 =>
            rw [hfa] at h1
            rw [(ih _).mpr h2] at hm
            cases h1
            cases hm
            rfl

/-! ## Inputs -/

theorem getInput_iff (inputs : List Path) (maps : List (Nat × Usage)) (u : Usage) (p : Path) : getInput inputs maps u = some p ↔ Source inputs maps u p := by
  unfold getInput Source
  constructor
  · intro h
    cases hf : maps.find? fun m => decide (m.2 = u) with
    | none => rw [hf] at h; cases h
    | some m =>
      rw [hf] at h
      rw [List.find?_eq_some_iff_append] at hf
      obtain ⟨h1, as, bs, e, h2⟩ := hf
      obtain ⟨n, v⟩ := m
      simp only [decide_eq_true_eq] at h1
      subst h1
      exact ⟨as, n, bs, e, fun m hm => by simpa using h2 m hm, h⟩
  · rintro ⟨as, n, bs, e, h1, h2⟩
    have : maps.find? (fun m => decide (m.2 = u)) = some (n, u) := by
      rw [List.find?_eq_some_iff_append]
      exact ⟨by simp, as, bs, e, fun m hm => by simpa using h1 m hm⟩
    rw [this]
    exact h2

theorem source_unique {inputs : List Path} {maps : List (Nat × Usage)} {u : Usage} {p q : Path} (h1 : Source inputs maps u p) (h2 : Source inputs maps u q) :
    p = q := by
  rw [← getInput_iff] at h1 h2
  rw [h1] at h2
  exact Option.some.inj h2

theorem foldl_max_le (l : List Nat) (k : Nat) : ∀ a, (l.foldl max a ≥ k) ↔ (a ≥ k ∨ ∃ x ∈ l, x ≥ k) := by
  induction l with
  | nil => intro a; simp
  | cons b l ih =>
    intro a
    rw [List.foldl_cons, ih]
    simp only [List.mem_cons, exists_eq_or_imp]
    constructor
    · rintro (h | h)
      · rcases Nat.le_total a b with hab | hab
        · rw [Nat.max_eq_right hab] at h; exact .inr (.inl h)
        · rw [Nat.max_eq_left hab] at h; exact .inl h
      · exact .inr (.inr h)
    · rintro (h | h | h)
      · exact .inl (Nat.le_trans h (Nat.le_max_left _ _))
      · exact .inl (Nat.le_trans h (Nat.le_max_right _ _))
      · exact .inr h

theorem maxSource_ge (maps : List (Nat × Usage)) (k : Nat) : maxSource maps ≥ k ↔ k = 0 ∨ ∃ m ∈ maps, m.1 ≥ k := by
  unfold maxSource
  rw [foldl_max_le]
  constructor
  · rintro (h | ⟨x, hx, h⟩)
    · exact .inl (by omega)
    · obtain ⟨m, hm, rfl⟩ := List.mem_map.mp hx
      exact .inr ⟨m, hm, h⟩
  · rintro (h | ⟨m, hm, h⟩)
    · exact .inl (by omega)
    · exact .inr ⟨m.1, List.mem_map.mpr ⟨m, hm, rfl⟩, h⟩

/-! ## Files -/

theorem openTrunc_other {fs : Fs} (hf : Fresh fs) {o p : Path} (h : ¬ SameFile fs p o) : (openTrunc fs o).2.content p = fs.content p := by
  have hne : p ≠ o := fun e => h (.inl e)
  unfold openTrunc
  cases ho : fs.dir o with
  | some i =>
    simp only [Fs.content, Fs.write]
    cases hp : fs.dir p with
    | none => rfl
    | some j =>
      simp only [Option.map_some]
      rw [if_neg]
      rintro rfl
      exact h (.inr ⟨j, hp, ho⟩)
  | none =>
    simp only [Fs.content, Fs.create]
    rw [if_neg hne]
    cases hp : fs.dir p with
    | none => rfl
    | some j =>
      simp only [Option.map_some]
      rw [if_neg (by have := hf p j hp; omega)]

theorem openTrunc_dir (fs : Fs) (o : Path) : (openTrunc fs o).2.dir o = some (openTrunc fs o).1 := by
  unfold openTrunc
  cases ho : fs.dir o with
  | some i => simpa [Fs.write] using ho
  | none => simp [Fs.create]

theorem openTrunc_dir_other {fs : Fs} {o p : Path} (h : p ≠ o) : (openTrunc fs o).2.dir p = fs.dir p := by
  unfold openTrunc
  cases ho : fs.dir o with
  | some i => rfl
  | none => simp [Fs.create, h]

theorem openTrunc_same (fs : Fs) (o : Path) : (openTrunc fs o).2.content o = some [] := by
  unfold openTrunc
  cases ho : fs.dir o with
  | some i => simp [Fs.content, Fs.write, ho]
  | none => simp [Fs.content, Fs.create]

theorem write_other {fs : Fs} (hf : Fresh fs) {o p : Path} (h : ¬ SameFile fs p o) (c : List Nat) :
    ((openTrunc fs o).2.write (openTrunc fs o).1 c).content p = fs.content p := by
  rw [← openTrunc_other hf h]
  have hne : p ≠ o := fun e => h (.inl e)
  have hd := openTrunc_dir_other (fs := fs) hne
  simp only [Fs.content, Fs.write]
  cases hp : (openTrunc fs o).2.dir p with
  | none => rfl
  | some j =>
    simp only [Option.map_some]
    rw [if_neg]
    rintro rfl
    rw [hd] at hp
    unfold openTrunc at hp
    cases ho : fs.dir o with
    | some i => rw [ho] at hp; exact h (.inr ⟨i, hp, ho⟩)
    | none => rw [ho] at hp; have := hf p _ hp; simp at this

theorem write_content (fs : Fs) (o : Path) (c : List Nat) : ((openTrunc fs o).2.write (openTrunc fs o).1 c).content o = some c := by
  have := openTrunc_dir fs o
  simp only [Fs.content, Fs.write, this, Option.map_some, if_pos]

theorem unlink_other {fs : Fs} {o p : Path} (h : p ≠ o) : (fs.unlink o).content p = fs.content p := by
  simp [Fs.content, Fs.unlink, Fs.setDir, h]

theorem body_other {c : Cmd} {w : World} {make} {fs : Fs} (hf : Fresh fs) {p : Path} (h : ¬ SameFile fs p c.output) :
    (body c w make fs).2.content p = fs.content p := by
  unfold body
  split
  · rfl
  split
  · rfl
  split
  · rfl
  simp only []
  split
  · exact openTrunc_other hf h
  split
  · exact write_other hf h _
  · exact write_other hf h _

/-- The contents that reach the decoders are those of the files the user named. -/
theorem parts_eq {c : Cmd} {fs : Fs} (hf : Fresh fs) (ha : ∀ u p, Source c.inputs c.maps u p → ¬ SameFile fs p c.output)
    {parts : Usage → Option (List Nat)} (hp : Parts fs c.inputs c.maps parts) :
    (fun u => (getInput c.inputs c.maps u).bind (openTrunc fs c.output).2.content) = parts := by
  funext u
  cases hg : getInput c.inputs c.maps u with
  | none =>
    rw [(hp u).2 fun p hs => by rw [(getInput_iff _ _ _ _).mpr hs] at hg; cases hg]
    rfl
  | some p =>
    have hs := (getInput_iff _ _ _ _).mp hg
    rw [(hp u).1 p hs, Option.bind_some, openTrunc_other hf (ha u p hs)]

theorem inputsThere_iff {c : Cmd} {fs : Fs} (hf : Fresh fs) (ha : ∀ u p, Source c.inputs c.maps u p → ¬ SameFile fs p c.output) :
    inputsThere (openTrunc fs c.output).2 c = true ↔ ∀ u p, Source c.inputs c.maps u p → fs.content p ≠ none := by
  have one : ∀ u, (match getInput c.inputs c.maps u with | some p => ((openTrunc fs c.output).2.content p).isSome | none => true) = true ↔
      ∀ p, Source c.inputs c.maps u p → fs.content p ≠ none := by
    intro u
    cases hg : getInput c.inputs c.maps u with
    | none =>
      simp only [true_iff]
      intro p hs
      rw [(getInput_iff _ _ _ _).mpr hs] at hg
      cases hg
    | some p =>
      have hs := (getInput_iff _ _ _ _).mp hg
      simp only []
      rw [openTrunc_other hf (ha u p hs)]
      constructor
      · intro h q hq e
        rw [source_unique hq hs] at e
        rw [e] at h
        cases h
      · intro h
        cases hc : fs.content p with
        | none => exact absurd hc (h p hs)
        | some _ => rfl
  unfold inputsThere
  simp only [List.all_cons, List.all_nil, Bool.and_true, Bool.and_eq_true]
  constructor
  · rintro ⟨h1, h2, h3, h4, h5⟩ u
    cases u
    · exact (one _).mp h1
    · exact (one _).mp h2
    · exact (one _).mp h3
    · exact (one _).mp h4
    · exact (one _).mp h5
  · intro h
    exact ⟨(one _).mpr (h _), (one _).mpr (h _), (one _).mpr (h _), (one _).mpr (h _), (one _).mpr (h _)⟩

/-! ## Tags -/

variable {V : Type}

/-- A list of changes. -/
def after (l : List (Op V)) (f : Tag → Option V) : Tag → Option V := l.foldl applyOp f

theorem after_append (a b : List (Op V)) (f : Tag → Option V) : after (a ++ b) f = after b (after a f) := List.foldl_append

theorem after_nil (f : Tag → Option V) : after [] f = f := rfl

theorem after_cons (a : Op V) (l : List (Op V)) (f : Tag → Option V) : after (a :: l) f = after l (applyOp f a) := rfl

theorem after_addOpt (t : Tag) (v : Option V) (f : Tag → Option V) (x : Tag) : after (addOpt t v) f x = if x = t then v.or (f x) else f x := by
  cases v with
  | none => simp [addOpt, after]
  | some v => simp [addOpt, after, applyOp]

theorem after_matrixOps {tm ti : Tag} (hne : tm ≠ ti) {m i : Option V} {l : List (Op V)} (h : matrixOps tm ti m i = some l) (f : Tag → Option V) (x : Tag) :
    after l f x = if x = tm then m.or (f x) else if x = ti ∧ m.isSome then i else f x := by
  unfold matrixOps at h
  cases m with
  | none => cases h; simp [after]
  | some m =>
    cases i with
    | none => cases h
    | some i =>
      cases h
      simp only [after, List.foldl_cons, List.foldl_nil, applyOp]
      by_cases h1 : x = ti
      · have : x ≠ tm := by rintro rfl; exact hne h1
        simp [h1, hne.symm]
      · by_cases h2 : x = tm <;> simp [h1, h2, hne]

theorem matrixOps_none {tm ti : Tag} {m i : Option V} : matrixOps tm ti m i = none ↔ m.isSome ∧ i = none := by
  cases m <;> cases i <;> simp [matrixOps]

/-- The changes that the raw image brings. -/
def picOps (raw : RawTags V) : List (Op V) :=
  addOpt .neutral raw.neutral ++
    (match raw.first with
      | some (m, i) => [.add .illu1 i, .add .matrix1 m] ++ (match raw.second with | some (m, i) => [.add .illu2 i, .add .matrix2 m] | none => [])
      | none => [])

/-- The changes for the white point. -/
def wbOps (o : Opts V) : List (Op V) :=
  (match o.neutral with | some v => [.add .neutral v, .remove .whiteXY] | none => []) ++
    (match o.whiteXY with | some v => [.add .whiteXY v, .remove .neutral] | none => [])

def startOps (o : Opts V) : List (Op V) :=
  addOpt .artist o.artist ++ addOpt .make o.make ++ addOpt .model o.model ++ addOpt .uniqueModel o.uniqueModel ++ addOpt .colorRef o.colorRef

def dataOps (md : MetaTags V) (xp : Option V) : List (Op V) :=
  addOpt .orientation md.orientation ++ addOpt .copyright md.copyright ++ addOpt .artist md.artist ++ addOpt .xpacket xp

theorem rootOps_eq (o : Opts V) (raw : RawTags V) (md : MetaTags V) (xp : Option V) :
    rootOps o raw md xp = match matrixOps Tag.matrix1 .illu1 o.matrix1 o.illu1, matrixOps Tag.matrix2 .illu2 o.matrix2 o.illu2,
        (if o.version16 then matrixOps Tag.matrix3 .illu3 o.matrix3 o.illu3 else some []) with
      | some m1, some m2, some m3 => some (startOps o ++ picOps raw ++ dataOps md xp ++ m1 ++ m2 ++ m3 ++ wbOps o)
      | _, _, _ => none := by
  unfold rootOps
  cases matrixOps Tag.matrix1 .illu1 o.matrix1 o.illu1 with
  | none => rfl
  | some m1 =>
    cases matrixOps Tag.matrix2 .illu2 o.matrix2 o.illu2 with
    | none => rfl
    | some m2 =>
      cases (if o.version16 then matrixOps Tag.matrix3 .illu3 o.matrix3 o.illu3 else some []) with
      | none => rfl
      | some m3 => rfl

theorem rootTags_none (o : Opts V) (raw : RawTags V) (md : MetaTags V) (xp : Option V) :
    rootTags o raw md xp = none ↔ matrixOps Tag.matrix1 .illu1 o.matrix1 o.illu1 = none ∨ matrixOps Tag.matrix2 .illu2 o.matrix2 o.illu2 = none ∨
      (if o.version16 then matrixOps Tag.matrix3 .illu3 o.matrix3 o.illu3 else some []) = none := by
  unfold rootTags
  rw [rootOps_eq]
  cases matrixOps Tag.matrix1 .illu1 o.matrix1 o.illu1 with
  | none => simp
  | some m1 =>
    cases matrixOps Tag.matrix2 .illu2 o.matrix2 o.illu2 with
    | none => simp
    | some m2 =>
      cases (if o.version16 then matrixOps Tag.matrix3 .illu3 o.matrix3 o.illu3 else some []) with
      | none => simp
      | some m3 => simp

theorem rootTags_some {o : Opts V} {raw : RawTags V} {md : MetaTags V} {xp : Option V} {f : Tag → Option V} (h : rootTags o raw md xp = some f) :
    ∃ m1 m2 m3, matrixOps .matrix1 .illu1 o.matrix1 o.illu1 = some m1 ∧ matrixOps .matrix2 .illu2 o.matrix2 o.illu2 = some m2 ∧
      (if o.version16 then matrixOps .matrix3 .illu3 o.matrix3 o.illu3 else some []) = some m3 ∧
      f = after (startOps o ++ picOps raw ++ dataOps md xp ++ m1 ++ m2 ++ m3 ++ wbOps o) fun _ => none := by
  unfold rootTags at h
  rw [rootOps_eq] at h
  cases h1 : matrixOps Tag.matrix1 .illu1 o.matrix1 o.illu1 with
  | none => rw [h1] at h; cases h
  | some m1 =>
    cases h2 : matrixOps Tag.matrix2 .illu2 o.matrix2 o.illu2 with
    | none => rw [h1, h2] at h; cases h
    | some m2 =>
      cases h3 : (if o.version16 then matrixOps Tag.matrix3 .illu3 o.matrix3 o.illu3 else some []) with
      | none => rw [h1, h2, h3] at h; cases h
      | some m3 =>
        rw [h1, h2, h3] at h
        cases h
        exact ⟨m1, m2, m3, rfl, rfl, rfl, rfl⟩

theorem after_start (o : Opts V) (f : Tag → Option V) (x : Tag) : after (startOps o) f x =
    if x = .colorRef then o.colorRef.or (f x) else if x = .uniqueModel then o.uniqueModel.or (f x) else if x = .model then o.model.or (f x)
    else if x = .make then o.make.or (f x) else if x = .artist then o.artist.or (f x) else f x := by
  unfold startOps
  simp only [after_append, after_addOpt]
  cases x <;> simp

theorem after_data (md : MetaTags V) (xp : Option V) (f : Tag → Option V) (x : Tag) : after (dataOps md xp) f x =
    if x = .xpacket then xp.or (f x) else if x = .artist then md.artist.or (f x) else if x = .copyright then md.copyright.or (f x)
    else if x = .orientation then md.orientation.or (f x) else f x := by
  unfold dataOps
  simp only [after_append, after_addOpt]
  cases x <;> simp

theorem after_pic (raw : RawTags V) (f : Tag → Option V) (x : Tag) : after (picOps raw) f x =
    if x = .neutral then raw.neutral.or (f x)
    else if x = .matrix1 then (raw.first.map (·.1)).or (f x)
    else if x = .illu1 then (raw.first.map (·.2)).or (f x)
    else if x = .matrix2 then (if raw.first.isSome then raw.second.map (·.1) else none).or (f x)
    else if x = .illu2 then (if raw.first.isSome then raw.second.map (·.2) else none).or (f x)
    else f x := by
  unfold picOps
  simp only [after_append]
  rcases raw with ⟨n, _ | ⟨m, i⟩, _ | ⟨m2, i2⟩⟩ <;> cases x <;> simp [after_cons, after_nil, applyOp, after_addOpt]

theorem after_wb (o : Opts V) (f : Tag → Option V) (x : Tag) : after (wbOps o) f x =
    if x = .whiteXY then o.whiteXY.or (if o.neutral.isSome then none else f x)
    else if x = .neutral then (if o.whiteXY.isSome then none else o.neutral.or (f x)) else f x := by
  unfold wbOps
  rw [after_append]
  cases hn : o.neutral <;> cases hw : o.whiteXY <;> cases x <;> simp [after_cons, after_nil, applyOp]

theorem rootTags_at (o : Opts V) (raw : RawTags V) (md : MetaTags V) (xp : Option V) (m1 m2 m3 : List (Op V)) (x : Tag) :
    after (startOps o ++ picOps raw ++ dataOps md xp ++ m1 ++ m2 ++ m3 ++ wbOps o) (fun _ => none) x =
      after (wbOps o) (after m3 (after m2 (after m1 (after (dataOps md xp) (after (picOps raw) (after (startOps o) fun _ => none)))))) x := by
  simp only [after_append]

theorem after_m3 {o : Opts V} {m3 : List (Op V)} (h : (if o.version16 then matrixOps .matrix3 .illu3 o.matrix3 o.illu3 else some []) = some m3)
    (f : Tag → Option V) (x : Tag) :
    after m3 f x = if o.version16 then (if x = .matrix3 then o.matrix3.or (f x) else if x = .illu3 ∧ o.matrix3.isSome then o.illu3 else f x) else f x := by
  cases hv : o.version16 with
  | true =>
    rw [hv, if_pos rfl] at h
    rw [after_matrixOps (by decide) h, if_pos rfl]
  | false =>
    rw [hv, if_neg (by simp)] at h
    cases h
    simp [after]

end Verif.MakeDng
