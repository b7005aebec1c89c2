import Verif.Model.CliPlan
import Mathlib.Data.List.Perm.Subperm
import Mathlib.Data.List.Nodup
import Mathlib.Tactic.IntervalCases
/-! # Lemmas about names and paths -/

namespace Verif.Cli
open Verif Verif.Path

/-- The number a string of digits stands for -/
def value (l : List Char) : Nat := l.foldl (fun a c => a * 10 + (c.toNat - 48)) 0

theorem value_append (l : List Char) (c : Char) : value (l ++ [c]) = value l * 10 + (c.toNat - 48) := by simp [value]

theorem digit_toNat (d : Nat) (h : d < 10) : (Char.ofNat (48 + d)).toNat - 48 = d := by
  interval_cases d <;> decide

theorem value_dec (n : Nat) : value (dec n) = n := by
  induction n using Nat.strong_induction_on with
  | _ n ih =>
    rw [dec]
    split
    · rename_i h
      show 0 * 10 + _ = _
      rw [digit_toNat n h, Nat.zero_mul, Nat.zero_add]
    · rw [value_append, ih (n / 10) (by omega), digit_toNat _ (by omega)]; omega

theorem dec_inj {a b : Nat} (h : dec a = dec b) : a = b := by rw [← value_dec a, h, value_dec]

theorem value_zeros (k : Nat) (l : List Char) : value (List.replicate k '0' ++ l) = value l := by
  induction k with
  | zero => rfl
  | succ k ih => rw [← ih]; simp [value, List.replicate_succ]

theorem pad4_inj {a b : Nat} (h : pad4 a = pad4 b) : a = b := by
  have := congrArg value h
  rwa [pad4, pad4, value_zeros, value_zeros, value_dec, value_dec] at this

theorem dec_digits (n : Nat) : ∀ c ∈ dec n, c ≠ '_' := by
  induction n using Nat.strong_induction_on with
  | _ n ih =>
    have hd : ∀ d, d < 10 → Char.ofNat (48 + d) ≠ '_' := by intro d h; interval_cases d <;> decide
    rw [dec]
    split
    · rename_i h
      intro c hc
      rw [List.mem_singleton.mp hc]; exact hd n h
    · intro c hc
      rcases List.mem_append.mp hc with h | h
      · exact ih (n / 10) (by omega) c h
      · rw [List.mem_singleton.mp h]; exact hd _ (by omega)

/-- A separator that does not occur on the left splits a string uniquely. -/
theorem split_unique {x : Char} : ∀ {a b c d : List Char}, (∀ y ∈ a, y ≠ x) → (∀ y ∈ c, y ≠ x) → a ++ x :: b = c ++ x :: d → a = c ∧ b = d
  | [], b, [], d, _, _, h => ⟨rfl, by simpa using h⟩
  | [], b, y :: c, d, _, hc, h => by
    simp only [List.nil_append, List.cons_append, List.cons.injEq] at h
    exact absurd h.1.symm (hc y (by simp))
  | y :: a, b, [], d, ha, _, h => by
    simp only [List.nil_append, List.cons_append, List.cons.injEq] at h
    exact absurd h.1 (ha y (by simp))
  | y :: a, b, z :: c, d, ha, hc, h => by
    simp only [List.cons_append, List.cons.injEq] at h
    obtain ⟨h1, h2⟩ := split_unique (fun w hw => ha w (by simp [hw])) (fun w hw => hc w (by simp [hw])) h.2
    exact ⟨by rw [h.1, h1], h2⟩

theorem withFileName_inj {p : Path} {a b : Name} (h : withFileName p [.normal a] = withFileName p [.normal b]) : a = b := by
  unfold withFileName push at h
  generalize (if (fileName p).isSome = true then p.dropLast else p) = q at h
  simp only [isAbs, List.head?_cons] at h
  by_cases hq : q = []
  · simpa [hq] using h
  · simpa [hq] using h

theorem frame_inj {base : Name} {k i j : Nat} (h : frameName base true k i = frameName base true k j) : i = j := by
  unfold frameName at h
  simp only [if_true] at h
  have h := List.append_cancel_right h
  split at h
  · simp only [List.append_cancel_left_eq, List.cons.injEq, true_and] at h
    exact pad4_inj h
  · simp only [List.append_assoc, List.cons_append, List.append_cancel_left_eq, List.cons.injEq, true_and] at h
    exact pad4_inj h

theorem suffix_inj {base : Name} {multi : Bool} {k l i j : Nat} (hk : k ≠ 0) (hl : l ≠ 0) (h : frameName base multi k i = frameName base multi l j) :
    k = l := by
  unfold frameName at h
  have h := List.append_cancel_right h
  cases multi
  · simp only [Bool.false_eq_true, if_false, if_neg hk, if_neg hl, List.append_cancel_left_eq, List.cons.injEq, true_and] at h
    exact dec_inj h
  · simp only [if_true, if_neg hk, if_neg hl, List.append_assoc, List.cons_append, List.append_cancel_left_eq, List.cons.injEq, true_and] at h
    exact dec_inj (split_unique (dec_digits k) (dec_digits l) h).1

theorem mem_candidates {output p : Path} {base : Name} {multi : Bool} {count k : Nat} (h : p ∈ candidates output base multi count k) :
    ∃ i < count, p = withFileName output [.normal (frameName base multi k i)] := by
  obtain ⟨i, hi, rfl⟩ := List.mem_map.mp h
  exact ⟨i, List.mem_range.mp hi, rfl⟩

theorem candidates_nodup (output : Path) (base : Name) (multi : Bool) (count k : Nat) (h : multi = false → count ≤ 1) :
    (candidates output base multi count k).Nodup := by
  cases multi
  · have := h rfl
    interval_cases count <;> simp [candidates, List.range_succ]
  · exact List.nodup_range.map fun i j hij => frame_inj (withFileName_inj hij)

/-- Every round of the loop that ends in a collision uses up a claimed path of its own. -/
theorem findSuffix_some (output : Path) (base : Name) (multi : Bool) (count : Nat) (claimed : List Path) (fuel k : Nat) (hk : k ≠ 0)
    (used : List Path) (hn : used.Nodup) (hs : used ⊆ claimed)
    (hu : ∀ p ∈ used, ∃ l i, l ≠ 0 ∧ l < k ∧ p = withFileName output [.normal (frameName base multi l i)])
    (hf : claimed.length < used.length + fuel) : ∃ r, findSuffix output base multi count claimed fuel k = some r := by
  induction fuel generalizing k used with
  | zero =>
    have := (hn.subperm hs).length_le
    omega
  | succ fuel ih =>
    unfold findSuffix
    dsimp only
    split
    · rename_i h
      obtain ⟨p, hp, hc⟩ := List.any_eq_true.mp h
      obtain ⟨i, _, rfl⟩ := mem_candidates hp
      refine ih (k + 1) (by omega) (withFileName output [.normal (frameName base multi k i)] :: used) ?_ ?_ ?_ (by simp only [List.length_cons]; omega)
      · refine List.nodup_cons.mpr ⟨fun hm => ?_, hn⟩
        obtain ⟨l, j, hl, hlk, he⟩ := hu _ hm
        have := suffix_inj hk hl (withFileName_inj he)
        omega
      · intro q hq
        rcases List.mem_cons.mp hq with rfl | hq
        · exact List.contains_iff_mem.mp hc
        · exact hs hq
      · intro q hq
        rcases List.mem_cons.mp hq with rfl | hq
        · exact ⟨k, i, hk, by omega, rfl⟩
        · obtain ⟨l, j, hl, hlk, he⟩ := hu q hq
          exact ⟨l, j, hl, by omega, he⟩
    · exact ⟨_, rfl⟩

theorem findSuffix_spec {output : Path} {base : Name} {multi : Bool} {count : Nat} {claimed : List Path} {fuel k : Nat} {r : List Path}
    (h : findSuffix output base multi count claimed fuel k = some r) :
    ∃ l ≥ k, r = candidates output base multi count l ∧ (∀ p ∈ r, p ∉ claimed)
      ∧ ∀ m, k ≤ m → m < l → ∃ p ∈ candidates output base multi count m, p ∈ claimed := by
  induction fuel generalizing k with
  | zero => simp [findSuffix] at h
  | succ fuel ih =>
    unfold findSuffix at h
    dsimp only at h
    split at h
    · rename_i hc
      obtain ⟨l, hl, hr, hn, hm⟩ := ih h
      refine ⟨l, by omega, hr, hn, fun m h1 h2 => ?_⟩
      by_cases hmk : m = k
      · subst hmk
        obtain ⟨p, hp, hc⟩ := List.any_eq_true.mp hc
        exact ⟨p, hp, List.contains_iff_mem.mp hc⟩
      · exact hm m (by omega) h2
    · rename_i hc
      injection h with h
      subst h
      refine ⟨k, Nat.le_refl _, rfl, fun p hp hcl => hc (List.any_eq_true.mpr ⟨p, hp, List.contains_iff_mem.mpr hcl⟩), fun m h1 h2 => by omega⟩

end Verif.Cli
