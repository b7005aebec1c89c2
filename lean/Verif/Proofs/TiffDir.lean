import Verif.Proofs.TiffEmbed
import Mathlib.Data.List.Forall2
/-! # TIFF: directories under construction -/

namespace Verif.Tiff
open Verif Verif.Spec Verif.Props

theorem find_nil {α : Type} (k : Nat) : find ([] : List (Nat × α)) k = none := rfl

theorem find_cons {α : Type} (a : Nat × α) (l : List (Nat × α)) (k : Nat) : find (a :: l) k = if k = a.1 then some a.2 else find l k := by
  rw [find, List.find?_cons]
  by_cases h : k = a.1
  · have : (a.1 == k) = true := by simp [h]
    rw [this, if_pos h]; rfl
  · have : (a.1 == k) = false := by simp; exact fun h' => h h'.symm
    rw [this, if_neg h]; rfl

theorem mem_insertTag {α : Type} (k : Nat) (v : α) (l : List (Nat × α)) (x : Nat × α) (h : x ∈ insertTag k v l) : x = (k, v) ∨ x ∈ l := by
  induction l with
  | nil => simp [insertTag] at h; exact Or.inl h
  | cons a l ih =>
    obtain ⟨k', v'⟩ := a
    rw [insertTag] at h
    split at h
    · simpa using h
    · split at h
      · simp only [List.mem_cons] at h ⊢; tauto
      · simp only [List.mem_cons] at h ⊢
        rcases h with h | h
        · tauto
        · rcases ih h with h | h <;> tauto

theorem insertTag_asc {α : Type} (k : Nat) (v : α) (l : List (Nat × α)) (h : Ascending l) : Ascending (insertTag k v l) := by
  induction l with
  | nil => exact List.pairwise_singleton _ _
  | cons a l ih =>
    obtain ⟨k', v'⟩ := a
    have hc := List.pairwise_cons.mp h
    rw [insertTag]
    split
    · rename_i hlt
      refine List.pairwise_cons.mpr ⟨?_, h⟩
      intro b hb
      rcases List.mem_cons.mp hb with rfl | hb
      · exact hlt
      · exact Nat.lt_trans hlt (hc.1 b hb)
    · split
      · rename_i _ heq
        subst heq
        exact List.pairwise_cons.mpr ⟨hc.1, hc.2⟩
      · refine List.pairwise_cons.mpr ⟨?_, ih hc.2⟩
        intro b hb
        rcases mem_insertTag k v l b hb with rfl | hb
        · show k' < k; omega
        · exact hc.1 b hb

theorem find_insertTag {α : Type} (k : Nat) (v : α) (l : List (Nat × α)) (h : Ascending l) (j : Nat) :
    find (insertTag k v l) j = if j = k then some v else find l j := by
  induction l with
  | nil => rw [insertTag, find_cons]
  | cons a l ih =>
    obtain ⟨k', v'⟩ := a
    have hc := List.pairwise_cons.mp h
    rw [insertTag]
    split
    · rw [find_cons]
    · split
      · rename_i _ heq
        subst heq
        rw [find_cons, find_cons]
        split <;> rfl
      · rename_i h1 h2
        rw [find_cons, ih hc.2, find_cons]
        dsimp only
        split
        · rename_i h3; rw [if_neg (by omega)]
        · rfl

theorem find_removeTag {α : Type} (k : Nat) (l : List (Nat × α)) (j : Nat) : find (removeTag k l) j = if j = k then none else find l j := by
  induction l with
  | nil => simp [removeTag, find_nil]
  | cons a l ih =>
    rw [removeTag, List.filter_cons, find_cons]
    rw [removeTag] at ih
    by_cases h : a.1 = k
    · rw [if_neg (by simp [h]), ih]
      split
      · rfl
      · rw [if_neg (by omega)]
    · rw [if_pos (by simp [h]), find_cons, ih]
      split
      · rw [if_neg (by omega)]
      · rfl

theorem any_find {α : Type} (l : List (Nat × α)) (k : Nat) : l.any (fun x => x.1 == k) = true ↔ find l k ≠ none := by
  induction l with
  | nil => simp [find_nil]
  | cons a l ih =>
    rw [List.any_cons, find_cons, Bool.or_eq_true, ih]
    by_cases h : k = a.1
    · simp [h]
    · simp [h]; exact fun h' => absurd h'.symm h

theorem applyDirOp_spec (l : List (Nat × Value)) (m : Nat → Option Value) (o : DirOp) (ha : Ascending l) (hm : ∀ k, find l k = m k) :
    Ascending (applyDirOp l o) ∧ ∀ k, find (applyDirOp l o) k = applyMap m o k := by
  cases o with
  | add t v =>
    exact ⟨insertTag_asc t v l ha, fun k => by rw [applyDirOp, find_insertTag t v l ha, hm, applyMap]⟩
  | remove t =>
    exact ⟨List.Pairwise.filter _ ha, fun k => by rw [applyDirOp, find_removeTag, hm, applyMap]⟩
  | copy src =>
    rw [applyDirOp, applyMap]
    induction src generalizing l m with
    | nil => exact ⟨ha, hm⟩
    | cons e src ih =>
      rw [List.foldl_cons, List.foldl_cons]
      apply ih
      · split
        · exact ha
        · exact insertTag_asc _ _ _ ha
      · intro k
        by_cases h : l.any (fun x => x.1 == e.1) = true
        · rw [if_pos h, hm]
          have := (any_find l e.1).mp h
          rw [hm] at this
          by_cases hk : k = e.1
          · subst hk; rw [if_neg (by tauto)]
          · rw [if_neg (by tauto)]
        · rw [if_neg h, find_insertTag _ _ _ ha, hm]
          have : ¬ find l e.1 ≠ none := fun h' => h ((any_find l e.1).mpr h')
          rw [hm] at this
          by_cases hk : k = e.1
          · subst hk; rw [if_pos rfl, if_pos ⟨rfl, by simpa using this⟩]
          · rw [if_neg hk, if_neg (by tauto)]
  | copyOverride src =>
    rw [applyDirOp, applyMap]
    induction src generalizing l m with
    | nil => exact ⟨ha, hm⟩
    | cons e src ih =>
      rw [List.foldl_cons, List.foldl_cons]
      apply ih
      · exact insertTag_asc _ _ _ ha
      · intro k; rw [find_insertTag _ _ _ ha, hm]

theorem entriesOf_spec (hist : List DirOp) : Ascending (entriesOf hist) ∧ ∀ k, find (entriesOf hist) k = mapOf hist k := by
  have gen : ∀ (hist : List DirOp) (l : List (Nat × Value)) (m : Nat → Option Value), Ascending l → (∀ k, find l k = m k) →
      Ascending (hist.foldl applyDirOp l) ∧ ∀ k, find (hist.foldl applyDirOp l) k = hist.foldl applyMap m k := by
    intro hist
    induction hist with
    | nil => intro l m ha hm; exact ⟨ha, hm⟩
    | cons o hist ih =>
      intro l m ha hm
      obtain ⟨h1, h2⟩ := applyDirOp_spec l m o ha hm
      exact ih _ _ h1 h2
  exact gen hist [] (fun _ => none) List.Pairwise.nil fun _ => rfl

/-! ## Reading a directory -/

/-- What reading an entry must give for the entry `x` that was written -/
def Same (x : Nat × Value × Nat) (y : Nat × Value × Nat) : Prop :=
  y.1 = x.1 ∧ content y.2.1 = content x.2.1 ∧ (x.2.1.byteSize > 4 → y.2.2 = x.2.2)

theorem content_count (v w : Value) (h : content v = content w) : v.count = w.count ∧ v.byteSize = w.byteSize := by
  cases v <;> cases w <;> simp_all [content, Value.count, Value.byteSize, Ascii.count]

theorem insertTag_last {α : Type} (k : Nat) (v : α) (l : List (Nat × α)) (h : ∀ x ∈ l, x.1 < k) : insertTag k v l = l ++ [(k, v)] := by
  induction l with
  | nil => rfl
  | cons a l ih =>
    obtain ⟨k', v'⟩ := a
    have h1 : k' < k := h (k', v') List.mem_cons_self
    rw [insertTag, if_neg (by omega), if_neg (by omega), ih (fun x hx => h x (List.mem_cons_of_mem _ hx))]
    rfl

theorem subOffsets_ok (subTags : List Nat) (tag : Nat) (v : Value) (e : Nat) (subs : List (Nat × List Nat)) (h : 0 < v.count) :
    ∃ s, subOffsets subTags tag v e subs = .ok s := by
  unfold subOffsets
  split
  · cases v with
    | unknown t l =>
      have hl : 0 < l.length := h
      simp only [idx_lt l 0 hl]
      exact ⟨_, rfl⟩
    | _ => exact ⟨_, rfl⟩
  · exact ⟨_, rfl⟩

theorem storable_count (v : Value) (h : Storable v) : 0 < v.count := by
  cases v with
  | ascii a =>
    obtain ⟨s, hs⟩ := List.length_eq_one_iff.mp h
    simp [Value.count, Ascii.count, hs]
  | float v => exact List.length_pos_iff.mpr h.1
  | sbyte v => exact List.length_pos_iff.mpr h.1
  | sshort v => exact List.length_pos_iff.mpr h.1
  | _ => exact h

/-- An entry that can be written -/
def EntryOK (utf8 : List Nat → Bool) (x : Nat × Value × Nat) : Prop :=
  x.1 < 2 ^ 16 ∧ Typed utf8 x.2.1 ∧ Storable x.2.1 ∧ x.2.1.count < 2 ^ 32

theorem entryLoop_ok (utf8 : List Nat → Bool) (F : List Nat) (hF : F.length < 2 ^ 32) (subTags : List Nat) (es : List (Nat × Value × Nat)) (p : Nat)
    (s : LoopState) (hat : At F p (es.flatMap entryBytes)) (hroom : p + 12 * es.length < F.length) (hpos : s.pos = p)
    (hok : ∀ x ∈ es, EntryOK utf8 x ∧ Stored F x.2.1 x.2.2) (hasc : Ascending es) (hlt : ∀ y ∈ s.entries, ∀ x ∈ es, y.1 < x.1) :
    ∃ s' ys, entryLoop utf8 F .little 0 0 subTags es.length p s = .ok s' ∧ List.Forall₂ Same es ys ∧ s'.entries = s.entries ++ ys ∧
      s'.pos = p + 12 * es.length ∧ (subTags = [] → s'.subs = s.subs) := by
  induction es generalizing p s with
  | nil => exact ⟨s, [], rfl, List.Forall₂.nil, by simp, by simpa using hpos, fun _ => rfl⟩
  | cons x es ih =>
    obtain ⟨tag, v, e⟩ := x
    obtain ⟨⟨htag, hty, hst, hcnt⟩, hstored⟩ := hok _ List.mem_cons_self
    rw [List.flatMap_cons] at hat
    have hel : (entryBytes (tag, v, e)).length = 12 := by simp [entryBytes, le_length]
    have hat1 := At.left hat
    have hat2 := At.right hat
    rw [hel] at hat2
    have hatTag : At F p (le 2 tag) := by
      have := hat1; rw [entryBytes] at this; exact At.left (At.left (At.left this))
    rw [List.length_cons] at hroom
    have hntag : num .little (le 2 tag) = tag := num_le 2 _ (by simpa using htag)
    obtain ⟨v', e', hparse, hcon, hemb⟩ := parse_stored utf8 F p tag e v hty hst hcnt hF hat1 hstored
    have hcnt' : 0 < v'.count := by rw [(content_count v' v hcon).1]; exact storable_count v hst
    obtain ⟨subs, hsubs⟩ := subOffsets_ok subTags tag v' e' s.subs hcnt'
    have hins : insertTag tag (v', e') s.entries = s.entries ++ [(tag, v', e')] :=
      insertTag_last _ _ _ fun y hy => hlt y hy (tag, v, e) List.mem_cons_self
    obtain ⟨hasc1, hasc2⟩ := List.pairwise_cons.mp hasc
    obtain ⟨s', ys, h1, h2, h3, h4, h5⟩ := ih (p + 12) { entries := s.entries ++ [(tag, v', e')], subs := subs, errors := 0, pos := p + 12 } hat2
      (by omega) rfl (fun x hx => hok x (List.mem_cons_of_mem _ hx)) hasc2 (by
        intro y hy x hx
        rcases List.mem_append.mp hy with hy | hy
        · exact hlt y hy x (List.mem_cons_of_mem _ hx)
        · rw [List.mem_singleton] at hy; subst hy; exact hasc1 x hx)
    refine ⟨s', (tag, v', e') :: ys, ?_, List.Forall₂.cons ⟨rfl, hcon, hemb⟩ h2, by rw [h3]; simp, by rw [h4, List.length_cons]; omega, fun h => ?_⟩
    rotate_left
    · rw [h5 h]
      subst h
      simp [subOffsets] at hsubs
      exact hsubs.symm
    rw [List.length_cons, entryLoop, if_neg (by omega), At.rd hatTag (le_length _ _).symm]
    simp only []
    rw [hparse]
    simp only []
    rw [hntag, hsubs]
    simp only [bind, Except.bind]
    rw [hins]
    exact h1

theorem readDir_ok (utf8 : List Nat → Bool) (F : List Nat) (hF : F.length < 2 ^ 32) (subTags : List Nat) (es : List (Nat × Value × Nat)) (o : Nat)
    (hat : At F o (dirBytes es)) (hn : es.length ≤ 4096)
    (hok : ∀ x ∈ es, EntryOK utf8 x ∧ Stored F x.2.1 x.2.2) (hasc : Ascending es) :
    ∃ d subs, readDir utf8 F .little 0 0 subTags o = .ok (d, subs) ∧ d.offset = o ∧ d.next = 0 ∧ List.Forall₂ Same es d.entries ∧
      (subTags = [] → subs = []) := by
  have hlen : (es.flatMap entryBytes).length = 12 * es.length := by
    clear hat hn hok hasc
    induction es with
    | nil => rfl
    | cons x es ih => rw [List.flatMap_cons, List.length_append, ih, List.length_cons]; simp [entryBytes, le_length]; omega
  rw [dirBytes] at hat
  have hb := hat.1
  simp only [List.length_append, le_length, hlen] at hb
  have a1 : At F o (le 2 (es.length % 2 ^ 16)) := At.left (At.left hat)
  have a2 : At F (o + 2) (es.flatMap entryBytes) := by
    have := At.right (At.left hat); rwa [le_length] at this
  have a3 : At F (o + 2 + 12 * es.length) (le 4 0) := by
    have := At.right hat; rw [List.length_append, le_length, hlen] at this; rwa [Nat.add_assoc]
  have hcount : num .little (le 2 (es.length % 2 ^ 16)) = es.length := by
    rw [Nat.mod_eq_of_lt (by omega)]; exact num_le 2 _ (by simp; omega)
  obtain ⟨s', ys, h1, h2, h3, h4, h5⟩ := entryLoop_ok utf8 F hF subTags es (o + 2) { pos := o + 2 } a2 (by omega) rfl hok hasc (by simp)
  refine ⟨{ offset := o, next := 0, entries := ys }, s'.subs, ?_, rfl, rfl, h2, fun h => h5 h⟩
  rw [readDir, if_neg (by omega), Nat.zero_add, At.rd a1 (le_length _ _).symm]
  simp only []
  rw [hcount, maxEntries, Nat.min_eq_left hn, Nat.mod_eq_of_lt (by omega), h1]
  simp only [bind, Except.bind]
  rw [nextPointer, h4, At.rd a3 (le_length _ _).symm, h3]
  simp [le, num, numLE]

end Verif.Tiff
