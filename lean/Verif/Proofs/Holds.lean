import Verif.Proofs.PixArray
import Verif.Proofs.Base
/-! # Buffers that hold an image: reading, writing, joining -/

namespace Verif.Spec
open Verif
variable {α : Type}

theorem Holds.same {l : List α} {w h : Nat} {f g : Nat → Nat → α} (hd : Holds l w h f)
    (hfg : ∀ r c, r < h → c < w → f r c = g r c) : Holds l w h g :=
  ⟨hd.1, fun r c hr hc => by rw [hd.2 r c hr hc, hfg r c hr hc]⟩

theorem Holds.cols {l : List α} {w w' h : Nat} {f : Nat → Nat → α} (hd : Holds l w h f) (hw : w = w') : Holds l w' h f := hw ▸ hd

theorem coord_inj {w r c r' c' : Nat} (hc : c < w) (hc' : c' < w) (h : r * w + c = r' * w + c') : r = r' ∧ c = c' := by
  have h1 : (w * r + c) / w = r := by rw [Nat.mul_add_div (by omega), Nat.div_eq_of_lt hc]; rfl
  have h2 : (w * r' + c') / w = r' := by rw [Nat.mul_add_div (by omega), Nat.div_eq_of_lt hc']; rfl
  have h3 : (w * r + c) % w = c := by rw [Nat.mul_add_mod, Nat.mod_eq_of_lt hc]
  have h4 : (w * r' + c') % w = c' := by rw [Nat.mul_add_mod, Nat.mod_eq_of_lt hc']
  rw [Nat.mul_comm r, Nat.mul_comm r'] at h
  exact ⟨by rw [← h1, ← h2, h], by rw [← h3, ← h4, h]⟩

theorem Holds.read {l : List α} {w h : Nat} {f : Nat → Nat → α} (hd : Holds l w h f) {r c : Nat} (hr : r < h) (hc : c < w) {i : Nat}
    (hi : i = r * w + c) : idx l i = .ok (f r c) := by
  obtain ⟨h1, h2⟩ := Verif.Pix.Holds.get hd hr hc
  rw [hi, idx_lt _ _ h1, h2]

theorem Holds.write {l : List α} {w h : Nat} {f : Nat → Nat → α} (hd : Holds l w h f) {r c : Nat} (hr : r < h) (hc : c < w) (v : α) {i : Nat}
    (hi : i = r * w + c) : ∃ l', upd l i v = .ok l' ∧ Holds l' w h fun r' c' => if r' = r ∧ c' = c then v else f r' c' := by
  have hlt : i < l.length := by rw [hi, hd.1]; exact mul_add_lt hr hc
  refine ⟨l.set i v, upd_lt _ _ _ hlt, by rw [List.length_set, hd.1], ?_⟩
  intro r' c' hr' hc'
  rw [List.getElem?_set]
  show _ = some (if r' = r ∧ c' = c then v else f r' c')
  by_cases he : r' = r ∧ c' = c
  · obtain ⟨rfl, rfl⟩ := he
    rw [if_pos hi, if_pos hlt, if_pos ⟨rfl, rfl⟩]
  · rw [if_neg (by intro h; exact he (coord_inj hc' hc (by omega))), if_neg he, hd.2 r' c' hr' hc']

theorem Holds.append {a b : List α} {w n m : Nat} {f : Nat → Nat → α} (ha : Holds a w n f) (hb : Holds b w m fun r c => f (n + r) c) :
    Holds (a ++ b) w (n + m) f := by
  refine ⟨by rw [List.length_append, ha.1, hb.1, Nat.add_mul], ?_⟩
  intro r c hr hc
  by_cases h : r < n
  · rw [List.getElem?_append_left (by rw [ha.1]; exact mul_add_lt h hc), ha.2 r c h hc]
  · have h1 : n * w ≤ r * w := Nat.mul_le_mul_right _ (by omega)
    have := hb.2 (r - n) c (by omega) hc
    rw [Nat.sub_mul] at this
    change _ = some (f (n + (r - n)) c) at this
    rw [show n + (r - n) = r by omega] at this
    rw [List.getElem?_append_right (by rw [ha.1]; omega), ha.1, show r * w + c - n * w = r * w - n * w + c by omega, this]

/-- Some of the rows. -/
theorem Holds.part {l : List α} {w h : Nat} {f : Nat → Nat → α} (hd : Holds l w h f) (a n k : Nat) (hk : k = min n (h - a)) :
    Holds ((l.drop (a * w)).take (n * w)) w k fun r c => f (a + r) c := by
  refine ⟨?_, ?_⟩
  · rw [List.length_take, List.length_drop, hd.1, ← Nat.sub_mul, hk]
    rcases Nat.le_total n (h - a) with h1 | h1
    · have := Nat.mul_le_mul_right w h1
      rw [Nat.min_eq_left h1, Nat.min_eq_left this]
    · have := Nat.mul_le_mul_right w h1
      rw [Nat.min_eq_right h1, Nat.min_eq_right this]
  · intro r c hr hc
    have h1 : r * w + c < n * w := mul_add_lt (by omega) hc
    rw [List.getElem?_take_of_lt h1, List.getElem?_drop, ← Nat.add_assoc, ← Nat.add_mul, hd.2 (a + r) c (by omega) hc]

theorem holds_flatMap (w h : Nat) (f : Nat → Nat → α) : Holds ((List.range h).flatMap fun r => (List.range w).map (f r)) w h f := by
  induction h with
  | zero => exact ⟨by simp, by intro r c hr; omega⟩
  | succ h ih =>
    rw [List.range_succ, List.flatMap_append]
    refine Holds.append ih ⟨by simp, ?_⟩
    intro r c hr hc
    have : r = 0 := by omega
    subst this
    simp [hc]

theorem holds_replicate (w h : Nat) (v : α) : Holds (List.replicate (w * h) v) w h fun _ _ => v := by
  refine ⟨by rw [List.length_replicate, Nat.mul_comm], ?_⟩
  intro r c hr hc
  rw [List.getElem?_replicate, if_pos (by rw [Nat.mul_comm w h]; exact mul_add_lt hr hc)]

end Verif.Spec
