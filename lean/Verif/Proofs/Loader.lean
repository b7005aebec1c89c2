import Verif.Spec.Loader
/-! # Lemmas for C80 -/

namespace Verif.Loader
open Verif Verif.Spec.Loader

variable {V : Type}

theorem foldl_ins_ne {K W : Type} [DecidableEq K] (l : List (K × W)) (f : K → Option W) (k : K) (h : k ∉ l.map (·.1)) : l.foldl ins f k = f k := by
  induction l generalizing f with
  | nil => rfl
  | cons a l ih =>
    simp only [List.map_cons, List.mem_cons, not_or] at h
    rw [List.foldl_cons, ih _ h.2, ins, if_neg h.1]

theorem foldl_ins (l : List (String × V)) (hn : (l.map (·.1)).Nodup) (f : String → Option V) (k : String) : l.foldl ins f k = over (value l k) (f k) := by
  induction l generalizing f with
  | nil => rfl
  | cons a l ih =>
    obtain ⟨a, v⟩ := a
    simp only [List.map_cons, List.nodup_cons] at hn
    rw [List.foldl_cons, value]
    by_cases h : a = k
    · subst h
      rw [foldl_ins_ne l _ a hn.1, if_pos rfl, ins, if_pos rfl]; rfl
    · rw [ih hn.2, if_neg h]
      have : ins f (a, v) k = f k := by rw [ins, if_neg (fun e => h e.symm)]
      rw [this]

theorem over_none (a : Option V) : over a none = a := by cases a <;> rfl

/-- The camera made for a name and a mode. -/
def camOf (e : Entry V) (n : String × String) (t : Table V) : Camera V := { (Camera.new.update e.base).update t with model := n.1, cleanModel := n.2 }

theorem expand_eq (e : Entry V) : expand e = (names e).flatMap fun n => (tables e).map (camOf e n) := rfl

theorem camOf_is (e : Entry V) (n : String × String) (t : Table V) (hb : Keyed e.base) (ht : Keyed t) : Is e n t (camOf e n t) := by
  constructor
  · simp only [camOf, Camera.update, Camera.new, keyOf]
    cases t.make <;> cases t.mode <;> simp [over]
  · simp only [camOf, Camera.update, Camera.new]
    cases t.cleanMake <;> simp [over]
  · rfl
  · simp only [camOf, Camera.update, Camera.new]
    cases t.filesize <;> simp [over]
  · intro k
    simp only [camOf, Camera.update, Camera.new]
    rw [foldl_ins _ ht.1, foldl_ins _ hb.1, over_none]
  · intro k
    simp only [camOf, Camera.update, Camera.new]
    rw [foldl_ins _ ht.2.1, foldl_ins _ hb.2.1, over_none]
  · intro k
    simp only [camOf, Camera.update, Camera.new]
    rw [foldl_ins _ ht.2.2, foldl_ins _ hb.2.2, over_none]

theorem camOf_key (e : Entry V) (n : String × String) (t : Table V) : (camOf e n t).key = keyOf e n t := by
  simp only [Camera.key, camOf, Camera.update, Camera.new, keyOf]
  cases t.make <;> cases t.mode <;> simp [over]

theorem expand_keys (e : Entry V) : (expand e).map Camera.key = keys e := by
  rw [expand_eq, keys, List.map_flatMap]
  congr 1
  funext n
  rw [List.map_map]
  exact List.map_congr_left fun t _ => camOf_key e n t

/-- In a table filled in turn, a key not given later keeps its value. -/
theorem fill_none {K W : Type} [DecidableEq K] (key : W → K) (ok : W → Prop) [DecidablePred ok] (l : List W) (f : K → Option W) (k : K)
    (h : ∀ w ∈ l, ok w → key w ≠ k) : l.foldl (fun m c => if ok c then ins m (key c, c) else m) f k = f k := by
  induction l generalizing f with
  | nil => rfl
  | cons a l ih =>
    rw [List.foldl_cons, ih _ fun w hw => h w (by simp [hw])]
    by_cases ha : ok a
    · rw [if_pos ha, ins, if_neg (fun e => h a (by simp) ha e.symm)]
    · rw [if_neg ha]

theorem fill_last {K W : Type} [DecidableEq K] (key : W → K) (ok : W → Prop) [DecidablePred ok] (l1 l2 : List W) (w : W) (f : K → Option W)
    (hw : ok w) (h : ∀ x ∈ l2, ok x → key x ≠ key w) :
    (l1 ++ w :: l2).foldl (fun m c => if ok c then ins m (key c, c) else m) f (key w) = some w := by
  rw [List.foldl_append, List.foldl_cons, fill_none key ok l2 _ _ h, if_pos hw, ins, if_pos rfl]

theorem fill_some {K W : Type} [DecidableEq K] (key : W → K) (ok : W → Prop) [DecidablePred ok] (l : List W) (f : K → Option W) (k : K) (w : W)
    (h : l.foldl (fun m c => if ok c then ins m (key c, c) else m) f k = some w) : (w ∈ l ∧ ok w ∧ key w = k) ∨ f k = some w := by
  induction l generalizing f with
  | nil => exact .inr h
  | cons a l ih =>
    rw [List.foldl_cons] at h
    rcases ih _ h with h' | h'
    · exact .inl ⟨by simp [h'.1], h'.2⟩
    · by_cases ha : ok a
      · rw [if_pos ha, ins] at h'
        by_cases hk : k = key a
        · rw [if_pos hk] at h'
          obtain rfl : a = w := by simpa using h'
          exact .inl ⟨by simp, ha, hk.symm⟩
        · rw [if_neg hk] at h'; exact .inr h'
      · rw [if_neg ha] at h'; exact .inr h'

theorem cameras_eq (db : List (Entry V)) (k : String × String × String) :
    (newLoader db).cameras k = (db.flatMap expand).foldl (fun m c => if True then ins m (Camera.key c, c) else m) (fun _ => none) k := by
  simp [newLoader]

theorem naked_eq (db : List (Entry V)) (k : Nat) :
    (newLoader db).naked k = (db.flatMap expand).foldl (fun m c => if c.filesize > 0 then ins m (c.filesize, c) else m) (fun _ => none) k := rfl

theorem mem_keys (e : Entry V) (n : String × String) (t : Table V) (hn : n ∈ names e) (ht : t ∈ tables e) : keyOf e n t ∈ keys e := by
  rw [keys, List.mem_flatMap]
  exact ⟨n, hn, List.mem_map_of_mem ht⟩

theorem mem_expand (e : Entry V) (c : Camera V) : c ∈ expand e ↔ ∃ n ∈ names e, ∃ t ∈ tables e, c = camOf e n t := by
  rw [expand_eq, List.mem_flatMap]
  constructor
  · rintro ⟨n, hn, h⟩
    obtain ⟨t, ht, rfl⟩ := List.mem_map.1 h
    exact ⟨n, hn, t, ht, rfl⟩
  · rintro ⟨n, hn, t, ht, rfl⟩
    exact ⟨n, hn, List.mem_map_of_mem ht⟩

/-! ## White space -/

theorem dropWhile_all {α : Type} (p : α → Bool) (a b : List α) (h : ∀ x ∈ a, p x = true) : (a ++ b).dropWhile p = b.dropWhile p := by
  induction a with
  | nil => rfl
  | cons x a ih =>
    rw [List.cons_append, List.dropWhile_cons_of_pos (h x (by simp)), ih fun y hy => h y (by simp [hy])]

theorem trimEnd_padded (s t : String) (h : Padded s t) : trimEnd t = trimEnd s := by
  obtain ⟨l, hl, e⟩ := h
  rw [trimEnd, trimEnd, e, List.reverse_append, dropWhile_all]
  simpa using hl

theorem trimEnd_tight (s : String) (h : Tight s) : trimEnd s = s := by
  rw [trimEnd]
  have : s.toList.reverse.dropWhile isSpace = s.toList.reverse := by
    have h' : ∀ c, s.toList.reverse.head? = some c → isSpace c = false := by
      intro c hc; rw [List.head?_reverse] at hc; exact h c hc
    generalize s.toList.reverse = r at h'
    cases r with
    | nil => rfl
    | cons a r => rw [List.dropWhile_cons_of_neg]; simp [h' a rfl]
  rw [this, List.reverse_reverse, String.ofList_toList]

/-! ## Signatures -/

theorem head_begins (file sig : List Nat) : head file sig.length = some sig ↔ Begins file sig := by
  constructor
  · intro h
    rw [head] at h
    split at h
    · have h := Option.some.inj h
      refine ⟨file.drop sig.length, ?_⟩
      conv => lhs; rw [← List.take_append_drop sig.length file]
      rw [h]
    · exact absurd h (by simp)
  · rintro ⟨rest, rfl⟩
    rw [head, if_pos (by simp)]
    simp

theorem isMrw_iff (file : List Nat) : isMrw file = true ↔ Begins file (0 :: bytes "MRM") := by
  rw [← head_begins, isMrw, beq_iff_eq]; exact Iff.rfl
theorem isRaf_iff (file : List Nat) : isRaf file = true ↔ Begins file (bytes "FUJIFILM") := by
  rw [← head_begins, isRaf, beq_iff_eq]; exact Iff.rfl
theorem isAri_iff (file : List Nat) : isAri file = true ↔ Begins file (bytes "ARRI") := by
  rw [← head_begins, isAri, beq_iff_eq]; exact Iff.rfl
theorem isX3f_iff (file : List Nat) : isX3f file = true ↔ Begins file (bytes "FOVb") := by
  rw [← head_begins, isX3f, beq_iff_eq]; exact Iff.rfl
theorem isExif_iff (file : List Nat) : isExif file = true ↔ Begins file [0xff, 0xd8, 0xff, 0xe1] := by
  rw [← head_begins, isExif, beq_iff_eq]; exact Iff.rfl
theorem isQtk_iff (file : List Nat) : isQtk file = true ↔ Begins file (bytes "qktk") ∨ Begins file (bytes "qktn") := by
  rw [← head_begins, ← head_begins, isQtk, Bool.or_eq_true, beq_iff_eq, beq_iff_eq]; exact Iff.rfl

theorem isCiff_iff (file : List Nat) : isCiff file = true ↔ Has file 6 (bytes "HEAPCCDR") := by
  rw [isCiff, beq_iff_eq, head]
  constructor
  · intro h
    split at h
    · next hl =>
      have h := Option.some.inj h
      refine ⟨file.take 6, file.drop 14, by simp; omega, ?_⟩
      have e : bytes "HEAPCCDR" = (file.take 14).drop 6 := by
        simp only at h; rw [h]; rfl
      rw [e, show file.take 6 = (file.take 14).take 6 by rw [List.take_take]; simp, List.take_append_drop, List.take_append_drop]
    · exact absurd h (by simp)
  · rintro ⟨pre, rest, hp, rfl⟩
    rw [if_pos (by simp [hp, bytes]; omega)]
    have : (pre ++ bytes "HEAPCCDR" ++ rest).take 14 = pre ++ bytes "HEAPCCDR" := by
      rw [List.take_append_of_le_length (by simp [hp, bytes]), List.take_of_length_le (by simp [hp, bytes])]
    rw [this, Option.map_some, List.drop_append_of_le_length (by omega), List.drop_of_length_le (by omega)]
    rfl

/-- A file does not begin in two ways. -/
theorem not_begins (file a b : List Nat) (h : Begins file a) (hne : a.take b.length ≠ b.take a.length) : ¬ Begins file b := by
  obtain ⟨r, rfl⟩ := h
  rintro ⟨r', e⟩
  apply hne
  have h1 := congrArg (List.take (min a.length b.length)) e
  rw [List.take_append_of_le_length (by omega), List.take_append_of_le_length (by omega)] at h1
  have key : ∀ (x : List Nat) (n : Nat), x.take n = x.take (min x.length n) := by
    intro x n; rw [← List.take_take, List.take_of_length_le (l := x.take n) (by simp; omega)]
  rw [key a, key b, h1, Nat.min_comm b.length]

end Verif.Loader
