import Verif.Spec.Lens
import Mathlib.Algebra.Order.Field.Basic
import Mathlib.Data.List.Perm.Basic
/-! Lemmas on finding the lens. -/

namespace Verif.Lens
open Verif.Spec.Lens

theorem le_iff (a b : Rational) (ha : 0 < a.d) (hb : 0 < b.d) : a.le b = true ↔ val a ≤ val b := by
  have ha' : (0 : ℚ) < a.d := by exact_mod_cast ha
  have hb' : (0 : ℚ) < b.d := by exact_mod_cast hb
  rw [Rational.le, val, val, div_le_div_iff₀ ha' hb', decide_eq_true_iff]
  rw [show (a.n * b.d ≤ a.d * b.n) ↔ ((a.n * b.d : Nat) : ℚ) ≤ ((a.d * b.n : Nat) : ℚ) from Nat.cast_le.symm]
  push_cast
  rw [mul_comm (a.d : ℚ) (b.n : ℚ)]

theorem ge_iff (a b : Rational) (ha : 0 < a.d) (hb : 0 < b.d) : a.ge b = true ↔ val b ≤ val a := by
  rw [← le_iff b a hb ha, Rational.ge, Rational.le, decide_eq_true_iff, decide_eq_true_iff, Nat.mul_comm a.d, Nat.mul_comm a.n]

theorem noneOr_iff {α : Type} (o : Option α) (f : α → Bool) : noneOr o f = true ↔ ∀ a, o = some a → f a = true := by
  cases o <;> simp [noneOr]

theorem keeps_iff (q : Query) (e : Entry) (hq : Query.Sane q) (he : Entry.Sane e) : keeps q e = true ↔ Agrees q e := by
  simp only [keeps, Bool.and_eq_true, noneOr_iff, Agrees]
  obtain ⟨h1, h2, h3⟩ := he
  constructor
  · rintro ⟨⟨⟨⟨⟨a, b⟩, c⟩, d⟩, f⟩, g⟩
    refine ⟨fun ms h => by simpa using a ms h, fun i h => ?_, fun m h => by simpa using c m h, fun m h => by simpa using d m h, fun x h => ?_, fun x h => ?_⟩
    · have := b i h
      cases hi : e.id with
      | none => rw [hi] at this; cases this
      | some y => rw [hi] at this; simp only [beq_iff_eq] at this; rw [this]
    · obtain ⟨f1, f2⟩ := f x h
      exact ⟨(ge_iff _ _ (hq.1 x h) h1).1 f1, (le_iff _ _ (hq.1 x h) h2).1 f2⟩
    · exact (ge_iff _ _ (hq.2 x h) h3).1 (g x h)
  · rintro ⟨a, b, c, d, f, g⟩
    refine ⟨⟨⟨⟨⟨fun ms h => by simpa using a ms h, fun i h => by rw [b i h]; simp⟩, fun m h => by simpa using c m h⟩, fun m h => by simpa using d m h⟩,
      fun x h => ⟨(ge_iff _ _ (hq.1 x h) h1).2 (f x h).1, (le_iff _ _ (hq.1 x h) h2).2 (f x h).2⟩⟩, fun x h => (ge_iff _ _ (hq.2 x h) h3).2 (g x h)⟩

theorem findBy_some {db : List Entry} {field : Entry → Option String} {o : Option String} {e : Entry} (h : findBy db field o = some e) :
    e ∈ db ∧ ∃ k, o = some k ∧ field e = some k := by
  cases o with
  | none => cases h
  | some s =>
    have h : db.find? (fun e => field e == some s) = some e := h
    exact ⟨List.mem_of_find?_eq_some h, s, rfl, by simpa using List.find?_some h⟩

theorem findBy_none {db : List Entry} {field : Entry → Option String} {o : Option String} :
    findBy db field o = none ↔ ∀ k, o = some k → ∀ e ∈ db, field e ≠ some k := by
  cases o with
  | none => simp [findBy]
  | some s => simp [findBy]

theorem byFilter_some {db : List Entry} {q : Query} {e : Entry} : byFilter db q = some e ↔ db.filter (keeps q) = [e] := by
  rw [byFilter]
  constructor
  · intro h
    split at h
    · rename_i x hx; cases h; exact hx
    · cases h
  · intro h; rw [h]

/-- In one place only. -/
theorem filter_single {α : Type} {p : α → Bool} {l : List α} {e : α} (hn : l.Nodup) :
    l.filter p = [e] ↔ e ∈ l ∧ p e = true ∧ ∀ x ∈ l, p x = true → x = e := by
  constructor
  · intro h
    have : e ∈ l.filter p := by rw [h]; simp
    refine ⟨(List.mem_filter.1 this).1, (List.mem_filter.1 this).2, fun x hx hp => ?_⟩
    have : x ∈ l.filter p := List.mem_filter.2 ⟨hx, hp⟩
    rw [h] at this
    simpa using this
  · rintro ⟨h1, h2, h3⟩
    have hm : e ∈ l.filter p := List.mem_filter.2 ⟨h1, h2⟩
    have hnd := hn.filter p
    match hl : l.filter p with
    | [] => rw [hl] at hm; cases hm
    | [x] =>
      have : x ∈ l.filter p := by rw [hl]; simp
      rw [h3 x (List.mem_filter.1 this).1 (List.mem_filter.1 this).2]
    | x :: y :: r =>
      have hx : x ∈ l.filter p := by rw [hl]; simp
      have hy : y ∈ l.filter p := by rw [hl]; simp
      have e1 := h3 x (List.mem_filter.1 hx).1 (List.mem_filter.1 hx).2
      have e2 := h3 y (List.mem_filter.1 hy).1 (List.mem_filter.1 hy).2
      rw [hl, e1, e2] at hnd
      simp at hnd

theorem filter_name (k : Option String) (s : String) : k.filter (fun s => s != "") = some s ↔ k = some s ∧ s ≠ "" := by
  cases k with
  | none => simp
  | some t =>
    by_cases h : t = ""
    · subst h
      rw [Option.filter_some]
      constructor
      · intro h; simp at h
      · rintro ⟨h1, h2⟩; cases h1; exact absurd rfl h2
    · rw [Option.filter_some, if_pos (by simpa using h)]
      constructor
      · intro e; cases e; exact ⟨rfl, h⟩
      · intro e; exact e.1

/-- No lens has an identifier of the query. -/
def NoName (db : List Entry) (q : Query) : Prop := ∀ e ∈ db, ¬ Named q e

theorem internal_noName {db : List Entry} {q : Query} (h : NoName db q) : resolveInternal db q = byFilter db q := by
  rw [resolveInternal, findBy_none.2 (fun k hk e he hn => h e he (.inl ⟨k, ((filter_name _ _).1 hk).1, ((filter_name _ _).1 hk).2, hn⟩)),
    findBy_none.2 (fun k hk e he hn => h e he (.inr (.inl ⟨k, hk, hn⟩))), findBy_none.2 (fun k hk e he hn => h e he (.inr (.inr ⟨k, hk, hn⟩)))]

theorem internal_some {db : List Entry} {q : Query} {e : Entry} (h : resolveInternal db q = some e) :
    e ∈ db ∧ (Named q e ∨ (NoName db q ∧ byFilter db q = some e)) := by
  rw [resolveInternal] at h
  split at h
  · rename_i x hx
    cases h
    obtain ⟨h1, k, h2, h3⟩ := findBy_some hx
    exact ⟨h1, .inl (.inl ⟨k, ((filter_name _ _).1 h2).1, ((filter_name _ _).1 h2).2, h3⟩)⟩
  · rename_i n1
    split at h
    · rename_i x hx
      cases h
      obtain ⟨h1, k, h2, h3⟩ := findBy_some hx
      exact ⟨h1, .inl (.inr (.inl ⟨k, h2, h3⟩))⟩
    · rename_i n2
      split at h
      · rename_i x hx
        cases h
        obtain ⟨h1, k, h2, h3⟩ := findBy_some hx
        exact ⟨h1, .inl (.inr (.inr ⟨k, h2, h3⟩))⟩
      · rename_i n3
        have hm : e ∈ db.filter (keeps q) := by rw [byFilter_some.1 h]; simp
        refine ⟨(List.mem_filter.1 hm).1, .inr ⟨?_, h⟩⟩
        rintro x hx (⟨k, a, b, c⟩ | ⟨k, a, c⟩ | ⟨k, a, c⟩)
        · exact findBy_none.1 n1 k ((filter_name _ _).2 ⟨a, b⟩) x hx c
        · exact findBy_none.1 n2 k a x hx c
        · exact findBy_none.1 n3 k a x hx c

theorem find_perm {db db' : List Entry} (hp : db.Perm db') (field : Entry → Option String) (o : Option String)
    (hu : ∀ a ∈ db, ∀ b ∈ db, field a ≠ none → field a = field b → a = b) : findBy db field o = findBy db' field o := by
  cases h : findBy db field o with
  | none =>
    rw [findBy_none] at h
    exact (findBy_none.2 (fun k hk e he => h k hk e (hp.mem_iff.2 he))).symm
  | some e =>
    obtain ⟨h1, k, h2, h3⟩ := findBy_some h
    cases h' : findBy db' field o with
    | none => exact absurd h3 (findBy_none.1 h' k h2 e (hp.mem_iff.1 h1))
    | some f =>
      obtain ⟨g1, k', g2, g3⟩ := findBy_some h'
      rw [h2] at g2; cases g2
      rw [hu e h1 f (hp.mem_iff.2 g1) (by rw [h3]; simp) (by rw [h3, g3])]

theorem byFilter_perm {db db' : List Entry} (hp : db.Perm db') (q : Query) : byFilter db q = byFilter db' q := by
  have hf := hp.filter (keeps q)
  rw [byFilter, byFilter]
  match h : db.filter (keeps q), h' : db'.filter (keeps q) with
  | [], l => rw [h, h'] at hf; rw [List.Perm.nil_eq hf]
  | [x], l => rw [h, h'] at hf; rw [List.singleton_perm.1 hf]
  | x :: y :: r, [] => rfl
  | x :: y :: r, [z] => rw [h, h'] at hf; exact absurd hf.length_eq (by simp)
  | x :: y :: r, z :: w :: s => rfl

end Verif.Lens
