import Verif.Spec.Bmff
/-! # Deciding well-formedness of a concrete container (for the examples of C68) -/

namespace Verif.BmffSpec
open Verif.Bmff (Kind)

instance (l : List (Nat × Nat)) : Decidable (Fit l) := by unfold Fit; infer_instance

instance decRising : ∀ (f : Nat) (l : List (Nat × Nat × Nat)), Decidable (Rising f l)
  | _, [] => .isTrue trivial
  | _, [_] => .isTrue trivial
  | f, (c, n, _) :: (c', n', d') :: rest =>
    have := decRising (f + (c' - c) * n) ((c', n', d') :: rest)
    inferInstanceAs (Decidable (c < c' ∧ f + (c' - c) * n < 2 ^ 32 ∧ Rising (f + (c' - c) * n) ((c', n', d') :: rest)))

instance (l : List (Nat × Nat × Nat)) : Decidable (RunsOk l) := by unfold RunsOk; infer_instance

instance (c : Kind) (t : Tree) : Decidable (Place c t) := by
  cases t with
  | mk k typ uuid wide ct kids tail => cases k <;> (unfold Place; infer_instance)

instance (k : Kind) (u : Option Nat) (w : Bool) (n : Nat) (t : List Nat) (ct : Content) : Decidable (Suits k u w n t ct) := by
  cases ct with
  | cmp1 _ _ _ _ _ _ _ _ _ _ _ _ _ _ _ _ _ m =>
    cases m with
    | none => unfold Suits; infer_instance
    | some x =>
      obtain ⟨a, f, md⟩ := x
      cases md with
      | none => unfold Suits; infer_instance
      | some y => unfold Suits; infer_instance
  | _ => unfold Suits; infer_instance

instance (k : Kind) (kids : List Tree) : Decidable (Single k kids) :=
  decidable_of_iff (k = .stsd → (kids.filter (fun t => t.kind = .craw)).length ≤ 1 ∧
    (kids.filter (fun t => t.kind = .ctmd)).length ≤ 1) ⟨fun h hk j hj => by
      rcases hj with rfl | rfl
      · exact (h hk).1
      · exact (h hk).2, fun h hk => ⟨h hk _ (.inl rfl), h hk _ (.inr rfl)⟩⟩

mutual
def decGood (tOk : List Nat → Prop) [DecidablePred tOk] : (c : Kind) → (t : Tree) → Decidable (Good tOk c t)
  | c, .mk k typ uuid wide content kids tail =>
    have := decGoodAll tOk k kids
    have : Decidable (if parent k then tail = [] else kids = []) :=
      if h : parent k then decidable_of_iff (tail = []) (by rw [if_pos h])
      else match kids with
        | [] => .isTrue (by rw [if_neg h])
        | x :: xs => .isFalse (by rw [if_neg h]; intro e; cases e)
    have : ∀ r, Decidable (∃ t ∈ kids, t.kind = r) := fun r => inferInstance
    decidable_of_iff (Place c (.mk k typ uuid wide content kids tail) ∧
    Suits k uuid wide (Tree.mk k typ uuid wide content kids tail).bytes.length tail content ∧
    Fit content.nums ∧
    (if parent k then tail = [] else kids = []) ∧
    (∀ r ∈ needed k, ∃ t ∈ kids, t.kind = r) ∧
    Single k kids ∧
    (k ∈ [.cmt1, .cmt2, .cmt3, .cmt4] → tOk content.vals) ∧
    (wide = false → (Tree.mk k typ uuid wide content kids tail).bytes.length < 2 ^ 32) ∧
    GoodAll tOk k kids) (by rw [Good])
def decGoodAll (tOk : List Nat → Prop) [DecidablePred tOk] : (c : Kind) → (ts : List Tree) → Decidable (GoodAll tOk c ts)
  | _, [] => .isTrue (by rw [GoodAll]; trivial)
  | c, t :: ts =>
    have := decGood tOk c t
    have := decGoodAll tOk c ts
    decidable_of_iff (Good tOk c t ∧ GoodAll tOk c ts) (by rw [GoodAll])
end

instance (tOk : List Nat → Prop) [DecidablePred tOk] (ts : List Tree) : Decidable (GoodFile tOk ts) :=
  have := decGoodAll tOk .file ts
  by unfold GoodFile; infer_instance

end Verif.BmffSpec
