import Verif.Model.Mos
import Verif.Spec.Mos
import Verif.Proofs.Small
/-! # Leaf MOS files: proofs -/

namespace Verif.Mos
open Verif Verif.Spec Verif.Packed Verif.Kdc Verif.Small

theorem find_eq (n : Nat) (p : Nat → Bool) (i : Nat) (hi : i < n) (h1 : p i = true) (h2 : ∀ j, j < i → p j = false) : (List.range n).find? p = some i := by
  rw [List.find?_range_eq_some]
  exact ⟨h1, List.mem_range.mpr hi, fun j hj => by rw [h2 j hj]; rfl⟩

theorem find_first (pat text : List Nat) (i : Nat) (h : Mos.FirstAt pat text i) : find pat text = some i := by
  refine find_eq _ _ i (by have := h.1; omega) (List.isPrefixOf_iff_prefix.mpr h.2.1) (fun j hj => ?_)
  have := h.2.2 j hj
  rw [← List.isPrefixOf_iff_prefix] at this
  exact Bool.eq_false_iff.mpr this

theorem find_none (pat text : List Nat) (h : Mos.Absent pat text) : find pat text = none := by
  rw [find, List.find?_eq_none]
  intro j _ hp
  exact h j (List.isPrefixOf_iff_prefix.mp hp)

theorem open_eq (tag : List Nat) : openTag ++ tag ++ [62] = Mos.opening tag := rfl
theorem close_eq (tag : List Nat) : closeTag ++ tag ++ [62] = Mos.closing tag := rfl
theorem heading_eq : neutrals = Mos.heading := rfl

theorem opening_length (tag : List Nat) : (Mos.opening tag).length = tag.length + 7 := by
  rw [← open_eq]; simp [openTag]

/-- The parts of a text without the separator -/
theorem splitTerm_none (c : Nat) : ∀ (l : List Nat), l ≠ [] → c ∉ l → splitTerm c l = [l] := by
  intro l
  induction l with
  | nil => intro h; exact absurd rfl h
  | cons x r ih =>
    intro _ hc
    rw [splitTerm, if_neg (fun (e : x = c) => hc (e ▸ List.mem_cons_self))]
    cases r with
    | nil => rfl
    | cons y s => rw [ih (by simp) (fun hm => hc (List.mem_cons_of_mem _ hm))]

/-- The first part, up to the separator -/
theorem splitTerm_cons (c : Nat) : ∀ (l r : List Nat), c ∉ l → splitTerm c (l ++ c :: r) = l :: splitTerm c r := by
  intro l
  induction l with
  | nil => intro r _; rw [List.nil_append, splitTerm, if_pos rfl]
  | cons x l ih =>
    intro r hc
    rw [List.cons_append, splitTerm, if_neg (fun (e : x = c) => hc (e ▸ List.mem_cons_self)), ih r (fun hm => hc (List.mem_cons_of_mem _ hm))]

theorem splitTerm_head (c : Nat) : ∀ (l : List Nat), l ≠ [] → (splitTerm c l).head? = some (l.takeWhile (· ≠ c)) := by
  intro l
  induction l with
  | nil => intro h; exact absurd rfl h
  | cons x r ih =>
    intro _
    rw [splitTerm]
    by_cases h : x = c
    · rw [if_pos h, List.takeWhile_cons_of_neg (by simp [h])]; rfl
    · rw [if_neg h, List.takeWhile_cons_of_pos (by simp [h])]
      cases r with
      | nil => rfl
      | cons y s =>
        have := ih (by simp)
        cases hs : splitTerm c (y :: s) with
        | nil => rw [hs] at this; cases this
        | cons a b => rw [hs] at this; simp only [List.head?_cons, Option.some.injEq] at this ⊢; rw [this]

theorem findIdx_zero (l r : List Nat) (h : 0 ∉ l) : (l ++ 0 :: r).findIdx? (· = 0) = some l.length := by
  induction l with
  | nil => rfl
  | cons x l ih =>
    have hx : x ≠ 0 := fun e => h (e ▸ List.mem_cons_self)
    rw [List.cons_append, List.findIdx?_cons, if_neg (by simpa using hx), ih (fun hm => h (List.mem_cons_of_mem _ hm))]
    rfl

/-- Whole pictures of 16 bits, the less significant byte first -/
theorem dec16le_holds (buf : List Nat) (hb : IsBytes buf) (w h : Nat) (h0 : 0 < w) :
    if w * h * 2 ≤ buf.length then ∃ img, dec16le buf w h = .ok img ∧ Holds img w h fun r c => fieldMSB 16 (swapPairs buf) (r * w + c)
    else dec16le buf w h = fail' := by
  rw [dec16le]
  by_cases hl : w * h * 2 ≤ buf.length
  · rw [if_pos hl, if_neg (by omega), Props.C14_row_parallel_partial .little 16 (by decide) buf hb w h h0 (by simp [Props.RowAligned]),
      Props.C13_sixteen_le buf hb 0 _ w (fun l hl => by rw [List.eq_of_mem_replicate hl, List.length_replicate]), List.length_replicate, Nat.zero_add,
      if_pos (by rw [Nat.mul_comm h w]; exact hl)]
    refine ⟨_, rfl, ?_, ?_⟩
    · rw [← List.flatMap_def, flatMap_len _ w _ (by simp)]
    · intro r c hr hc
      rw [← List.flatMap_def, flatMap_get _ w _ (by simp) r c hr hc]
      simp [hc]
  · rw [if_neg hl, if_pos (by omega)]

/-- the more significant byte first -/
theorem dec16be_holds (buf : List Nat) (hb : IsBytes buf) (w h : Nat) (h0 : 0 < w) :
    if w * h * 2 ≤ buf.length then ∃ img, dec16be buf w h = .ok img ∧ Holds img w h fun r c => fieldMSB 16 buf (r * w + c)
    else dec16be buf w h = fail' := by
  rw [dec16be]
  have := Props.lines_hold 16 (by decide) buf hb w h h0 (by simp [Props.RowAligned]) (by simp [Props.Aligned])
  by_cases hl : w * h * 2 ≤ buf.length
  · rw [if_pos hl, if_neg (by omega)]
    rw [if_pos (by rw [Nat.mul_comm h w]; omega)] at this
    exact this
  · rw [if_neg hl, if_pos (by omega)]

end Verif.Mos
