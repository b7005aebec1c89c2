import Verif.Spec.CrxFile

/-! Arithmetic of tiles. -/

namespace Verif.CrxSpec

theorem count_ge (n t : Nat) (ht : 0 < t) : n ≤ tileCount n t * t := by
  have h1 := Nat.div_add_mod (n + t - 1) t
  have h2 := Nat.mod_lt (n + t - 1) ht
  rw [tileCount, Nat.mul_comm]; omega

theorem count_pos (n t : Nat) (hn : 0 < n) (ht : 0 < t) : 0 < tileCount n t := by
  rw [tileCount]; exact Nat.div_pos (by omega) ht

theorem start_lt (n t j : Nat) (hn : 0 < n) (ht : 0 < t) (hj : j < tileCount n t) : j * t < n := by
  have h1 : j * t + t ≤ tileCount n t * t := by rw [← Nat.succ_mul]; exact Nat.mul_le_mul_right _ hj
  have h2 : tileCount n t * t ≤ n + t - 1 := Nat.div_mul_le_self _ _
  omega

theorem extent_mid (n t j : Nat) (hn : 0 < n) (ht : 0 < t) (hj : j + 1 < tileCount n t) : tileExtent n t j = t := by
  have h := start_lt n t (j + 1) hn ht hj
  rw [Nat.succ_mul] at h
  rw [tileExtent]; omega

theorem extent_last (n t j : Nat) (hn : 0 < n) (ht : 0 < t) (hj : j + 1 = tileCount n t) : tileExtent n t j = n - j * t := by
  have h := count_ge n t ht
  rw [← hj, Nat.succ_mul] at h
  rw [tileExtent]; omega

theorem extent_even (n t j : Nat) (hn : n % 2 = 0) (ht : t % 2 = 0) : tileExtent n t j % 2 = 0 := by
  have : j * t % 2 = 0 := by rw [Nat.mul_mod, ht]; simp
  rw [tileExtent]; omega

theorem extent_pos (n t j : Nat) (hn : 0 < n) (ht : 0 < t) (hj : j < tileCount n t) : 0 < tileExtent n t j := by
  have := start_lt n t j hn ht hj
  rw [tileExtent]; omega

theorem extent_in (n t j k : Nat) (hk : k < tileExtent n t j) : j * t + k < n := by
  rw [tileExtent] at hk; omega

theorem index_lt (n t x : Nat) (ht : 0 < t) (hx : x < n) : x / t < tileCount n t := by
  have h := count_ge n t ht
  exact Nat.div_lt_of_lt_mul (by rw [Nat.mul_comm]; omega)

theorem offset_lt (n t x : Nat) (ht : 0 < t) (hx : x < n) : x - x / t * t < tileExtent n t (x / t) ∧ x / t * t ≤ x := by
  have h1 := Nat.div_add_mod x t
  have h2 := Nat.mod_lt x ht
  rw [Nat.mul_comm] at h1
  rw [tileExtent]; omega

end Verif.CrxSpec
