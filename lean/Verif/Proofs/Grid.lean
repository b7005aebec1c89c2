import Verif.Model.Slice
import Verif.Proofs.Base
import Verif.Spec.Image
/-! # Row-major buffers -/

namespace Verif
open Verif.Spec
variable {α : Type}

theorem slice_ok (l : List α) (a b : Nat) (h1 : a ≤ b) (h2 : b ≤ l.length) :
    slice l a b = .ok ((l.drop a).take (b - a)) := by rw [slice, if_pos ⟨h1, h2⟩]

theorem mapM_ok_of {β : Type} (f : β → R α) (g : β → α) (l : List β) (h : ∀ x ∈ l, f x = .ok (g x)) :
    l.mapM f = .ok (l.map g) := by
  induction l with
  | nil => rfl
  | cons a l ih =>
    rw [List.mapM_cons, h a (by simp)]
    simp only [bind, Except.bind]
    rw [ih (fun x hx => h x (by simp [hx]))]
    rfl

theorem genRows_ok (h w : Nat) (f : Nat → Nat → R α) (g : Nat → Nat → α) (hf : ∀ r c, r < h → c < w → f r c = .ok (g r c)) :
    genRows h w f = .ok ((List.range h).flatMap fun r => (List.range w).map (g r)) := by
  rw [genRows, mapM_ok_of _ (fun r => (List.range w).map (g r))]
  · simp only [bind, Except.bind, List.flatMap_def]
  · intro r hr
    exact mapM_ok_of _ _ _ (fun c hc => hf r c (List.mem_range.mp hr) (List.mem_range.mp hc))

theorem flatMap_len (n m : Nat) (f : Nat → List α) (hf : ∀ r, r < n → (f r).length = m) :
    ((List.range n).flatMap f).length = n * m := by
  induction n with
  | zero => simp
  | succ n ih =>
    rw [List.range_succ, List.flatMap_append, List.length_append, ih (fun r hr => hf r (by omega))]
    simp only [List.flatMap_cons, List.flatMap_nil, List.append_nil]
    rw [hf n (by omega), Nat.add_mul, Nat.one_mul]

theorem flatMap_get (n m : Nat) (f : Nat → List α) (hf : ∀ r, r < n → (f r).length = m) (r j : Nat) (hr : r < n)
    (hj : j < m) : ((List.range n).flatMap f)[r * m + j]? = (f r)[j]? := by
  induction n with
  | zero => omega
  | succ n ih =>
    have hl := flatMap_len n m f (fun r hr => hf r (by omega))
    rw [List.range_succ, List.flatMap_append]
    simp only [List.flatMap_cons, List.flatMap_nil, List.append_nil]
    by_cases h : r < n
    · have : (r + 1) * m ≤ n * m := Nat.mul_le_mul_right _ h
      rw [Nat.add_mul, Nat.one_mul] at this
      rw [List.getElem?_append_left (by omega)]
      exact ih (fun r hr => hf r (by omega)) h
    · have : r = n := by omega
      subst this
      rw [List.getElem?_append_right (by omega), hl]
      congr 1; omega

theorem mul_add_lt {r j n m : Nat} (hr : r < n) (hj : j < m) : r * m + j < n * m := by
  have : (r + 1) * m ≤ n * m := Nat.mul_le_mul_right _ hr
  rw [Nat.add_mul, Nat.one_mul] at this; omega

/-- Two buffers of the same shape are equal when they agree at every row and column. -/
theorem grid_ext (n m : Nat) (l l' : List α) (h1 : l.length = n * m) (h2 : l'.length = n * m)
    (h : ∀ r j, r < n → j < m → l[r * m + j]? = l'[r * m + j]?) : l = l' := by
  apply List.ext_getElem?
  intro i
  by_cases hi : i < n * m
  · have hm : 0 < m := Nat.pos_of_ne_zero (by rintro rfl; simp at hi)
    have := h (i / m) (i % m) (by rw [Nat.div_lt_iff_lt_mul hm]; exact hi) (Nat.mod_lt _ hm)
    rwa [Nat.mul_comm, Nat.div_add_mod] at this
  · rw [List.getElem?_eq_none (by omega), List.getElem?_eq_none (by omega)]

theorem holds_genRows (h w : Nat) (g : Nat → Nat → α) :
    Holds ((List.range h).flatMap fun r => (List.range w).map (g r)) w h g := by
  have hf : ∀ r, r < h → ((List.range w).map (g r)).length = w := by simp
  refine ⟨flatMap_len h w _ hf, ?_⟩
  intro r c hr hc
  rw [flatMap_get h w _ hf r c hr hc]
  simp [hc]

theorem Holds.unique {l l' : List α} {w h : Nat} {f : Nat → Nat → α} (h1 : Holds l w h f) (h2 : Holds l' w h f) : l = l' :=
  grid_ext h w l l' h1.1 h2.1 (fun r c hr hc => by rw [h1.2 r c hr hc, h2.2 r c hr hc])

/-- every full buffer holds the image read off it -/
theorem holds_self [Inhabited α] (data : List α) (w h : Nat) (hl : data.length = h * w) :
    Holds data w h (fun r c => data.getD (r * w + c) default) := by
  refine ⟨hl, ?_⟩
  intro r c hr hc
  have := mul_add_lt hr hc
  simp only
  rw [List.getD_eq_getElem?_getD, List.getElem?_eq_getElem (by omega)]; rfl

end Verif
