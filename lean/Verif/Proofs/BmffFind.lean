import Verif.Proofs.BmffTree
import Verif.Spec.BmffFind
/-! # Helper lemmas for C68: lookups -/

namespace Verif.Bmff
open Verif.BmffSpec

/-- The box read is what must be read of the tree, at some offset. -/
def Sees (b : PBox) (t : Tree) : Prop := ∃ o, b = t.seen o

theorem sees_vals {b : PBox} {t : Tree} (h : Sees b t) : b.vals = t.content.vals := by
  obtain ⟨o, rfl⟩ := h; cases t; rfl

theorem sees_kind {b : PBox} {t : Tree} (h : Sees b t) : b.kind = t.kind := by
  obtain ⟨o, rfl⟩ := h; exact seen_kind t o

theorem sees_kids {b : PBox} {t : Tree} (h : Sees b t) : ∃ o, b.kids = seenAll o t.kids := by
  obtain ⟨o, rfl⟩ := h; cases t; exact ⟨_, rfl⟩

theorem filter_seen (k : Kind) (ts : List Tree) : ∀ off,
    List.Forall₂ Sees ((seenAll off ts).filter (fun b => b.kind = k)) (ts.filter (fun t => t.kind = k)) := by
  induction ts with
  | nil => intro off; exact .nil
  | cons x ts ih =>
    intro off
    rw [seenAll, List.filter_cons, List.filter_cons, seen_kind]
    by_cases h : decide (x.kind = k) = true
    · rw [if_pos h, if_pos h]
      exact .cons ⟨off, rfl⟩ (ih _)
    · rw [if_neg h, if_neg h]
      exact ih _

theorem rel_getLast {α β : Type} {P : α → β → Prop} {a : List α} {b : List β} (h : List.Forall₂ P a b) :
    Option.Rel P a.getLast? b.getLast? := by
  induction h with
  | nil => exact .none
  | cons h1 h2 ih =>
    cases h2 with
    | nil => exact .some h1
    | cons h3 h4 => rw [List.getLast?_cons_cons, List.getLast?_cons_cons]; exact ih

theorem slot_rel (k : Kind) (ts : List Tree) (off : Nat) : Option.Rel Sees (slot k (seenAll off ts)) (lastOf k ts) :=
  rel_getLast (filter_seen k ts off)

theorem bind_rel {a : Option PBox} {b : Option Tree} (h : Option.Rel Sees a b) (k : Kind) :
    Option.Rel Sees (a.bind fun x => slot k x.kids) (b.bind fun t => lastOf k t.kids) := by
  cases h with
  | none => exact .none
  | some h =>
    obtain ⟨o, ho⟩ := sees_kids h
    rw [Option.bind_some, Option.bind_some, ho]
    exact slot_rel k _ o

theorem rel_vals {a : Option PBox} {b : Option Tree} (h : Option.Rel Sees a b) :
    a.map PBox.vals = b.map (fun t => t.content.vals) := by
  cases h with
  | none => rfl
  | some h => exact congrArg some (sees_vals h)

theorem traks_rel (ts : List Tree) (off : Nat) : List.Forall₂ Sees (traks (seenAll off ts)) (tracks ts) := by
  have h := slot_rel .moov ts off
  unfold traks tracks
  cases ha : slot .moov (seenAll off ts) with
  | none => rw [ha] at h; cases hb : lastOf .moov ts with
    | none => exact .nil
    | some t => rw [hb] at h; cases h
  | some m => rw [ha] at h; cases hb : lastOf .moov ts with
    | none => rw [hb] at h; cases h
    | some t =>
      rw [hb] at h
      cases h with
      | some h =>
        obtain ⟨o, ho⟩ := sees_kids h
        simp only [ho]
        exact filter_seen _ _ _

theorem rel_length {α β : Type} {P : α → β → Prop} {a : List α} {b : List β} (h : List.Forall₂ P a b) :
    a.length = b.length := by
  induction h with
  | nil => rfl
  | cons _ _ ih => rw [List.length_cons, List.length_cons, ih]

theorem rel_get {α β : Type} {P : α → β → Prop} {a : List α} {b : List β} (h : List.Forall₂ P a b) :
    ∀ (i : Nat) (y : β), b[i]? = some y → ∃ x, idx a i = .ok x ∧ P x y := by
  induction h with
  | nil => intro i y h; cases h
  | cons h1 h2 ih =>
    intro i y hy
    cases i with
    | zero => cases hy; exact ⟨_, rfl, h1⟩
    | succ i =>
      obtain ⟨x, hx, hp⟩ := ih i y hy
      refine ⟨x, ?_, hp⟩
      rw [← hx]
      rfl

theorem craw_rel {b : PBox} {t : Tree} (h : Sees b t) :
    Option.Rel Sees (crawOf b) (follow [.mdia, .minf, .stbl, .stsd, .craw] t.kids) := by
  obtain ⟨o, ho⟩ := sees_kids h
  have h1 := bind_rel (bind_rel (bind_rel (bind_rel (slot_rel .mdia t.kids o) .minf) .stbl) .stsd) .craw
  rw [← ho] at h1
  have e : follow [.mdia, .minf, .stbl, .stsd, .craw] t.kids
      = ((((lastOf .mdia t.kids).bind fun t => lastOf .minf t.kids).bind fun t => lastOf .stbl t.kids).bind
          fun t => lastOf .stsd t.kids).bind fun t => lastOf .craw t.kids := by
    simp only [follow, Option.bind_assoc]
  rw [e]
  exact h1

/-- Where the box of a kind stands in the bytes. -/
theorem slot_at {buf : List Nat} (k : Kind) (ts : List Tree) : ∀ off, At buf off (bytesAll ts) →
    ∀ t, lastOf k ts = some t → ∃ o, slot k (seenAll off ts) = some (t.seen o) ∧ At buf o t.bytes := by
  induction ts with
  | nil => intro off _ t h; cases h
  | cons x ts ih =>
    intro off hat t h
    rw [bytesAll] at hat
    unfold lastOf at h
    unfold slot
    rw [List.filter_cons] at h
    rw [seenAll, List.filter_cons, seen_kind]
    have hrest : ∀ t, lastOf k ts = some t →
        ∃ o, slot k (seenAll (off + x.bytes.length) ts) = some (t.seen o) ∧ At buf o t.bytes := ih _ hat.right
    unfold lastOf slot at hrest
    by_cases hx : decide (x.kind = k) = true
    · rw [if_pos hx] at h ⊢
      cases hl : (ts.filter (fun t => decide (t.kind = k))) with
      | nil =>
        rw [hl] at h
        have hf := filter_seen k ts (off + x.bytes.length)
        rw [hl] at hf
        cases hs : (seenAll (off + x.bytes.length) ts).filter (fun b => decide (b.kind = k)) with
        | cons y ys => rw [hs] at hf; cases hf
        | nil =>
          cases h
          exact ⟨off, rfl, hat.left⟩
      | cons y ys =>
        rw [hl, List.getLast?_cons_cons] at h
        rw [hl] at hrest
        obtain ⟨o, h1, h2⟩ := hrest t h
        refine ⟨o, ?_, h2⟩
        cases hs : (seenAll (off + x.bytes.length) ts).filter (fun b => decide (b.kind = k)) with
        | nil => rw [hs] at h1; cases h1
        | cons z zs => rw [List.getLast?_cons_cons, ← hs]; exact h1
    · rw [if_neg hx] at h ⊢
      exact hrest t h

theorem goodAll_mem {tOk : List Nat → Prop} {c : Kind} {ts : List Tree} (h : GoodAll tOk c ts) : ∀ t ∈ ts, Good tOk c t := by
  induction ts with
  | nil => intro t ht; cases ht
  | cons x ts ih =>
    rw [GoodAll] at h
    intro t ht
    rcases List.mem_cons.1 ht with rfl | ht
    · exact h.1
    · exact ih h.2 t ht

theorem lastOf_mem {k : Kind} {ts : List Tree} {t : Tree} (h : lastOf k ts = some t) : t ∈ ts ∧ t.kind = k := by
  have := List.mem_filter.1 (List.mem_of_getLast? h)
  exact ⟨this.1, of_decide_eq_true this.2⟩

theorem find_rel {a : List PBox} {b : List Tree} (h : List.Forall₂ Sees a b) (p : List Nat → Bool) :
    Option.Rel Sees (a.find? (fun x => p x.vals)) (b.find? (fun t => p t.content.vals)) := by
  induction h with
  | nil => exact .none
  | cons h1 h2 ih =>
    rw [List.find?_cons, List.find?_cons, sees_vals h1]
    cases p _ with
    | true => exact .some h1
    | false => exact ih

end Verif.Bmff
