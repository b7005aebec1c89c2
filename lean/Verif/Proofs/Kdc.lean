import Verif.Model.Kdc
import Verif.Spec.Kdc
import Verif.Proofs.Grid
import Mathlib.Data.List.Rotate
/-! # Kodak KDC files: proofs -/

namespace Verif.Kdc
open Verif Verif.Spec Verif.Packed

theorem idx_getD (l : List Nat) (i : Nat) (h : i < l.length) : idx l i = .ok (l.getD i 0) := by
  rw [idx, List.getElem?_eq_getElem h, List.getD_eq_getElem?_getD, List.getElem?_eq_getElem h]; rfl

theorem shift_turn (row : Nat) : ∃ m a, idx mul (row % 4) = .ok m ∧ idx add (row % 4) = .ok a ∧ row * m + a = Spec.Kdc.turn row := by
  have h : row % 4 < 4 := Nat.mod_lt _ (by decide)
  rw [Spec.Kdc.turn]
  rcases (by omega : row % 4 = 0 ∨ row % 4 = 1 ∨ row % 4 = 2 ∨ row % 4 = 3) with e | e | e | e <;> rw [e]
  · exact ⟨162, 0, rfl, rfl, by simp only; omega⟩
  · exact ⟨192, 636, rfl, rfl, by simp only; omega⟩
  · exact ⟨187, 424, rfl, rfl, by simp only; omega⟩
  · exact ⟨92, 212, rfl, rfl, by simp only; omega⟩

theorem sample_eq (src : List Nat) (row col : Nat) :
    dc120Sample src 848 row col = idx src (row * 848 + (col + Spec.Kdc.turn row) % 848) := by
  obtain ⟨m, a, hm, ha, hs⟩ := shift_turn row
  rw [dc120Sample, hm, ha]
  simp only [bind, Except.bind]
  rw [hs]

theorem decodeDc120_ok (src : List Nat) (h : Nat) (hl : h * 848 ≤ src.length) :
    ∃ img, decodeDc120 src 848 h = .ok img ∧ Holds img 848 h fun r c => src.getD (r * 848 + (c + Spec.Kdc.turn r) % 848) 0 := by
  refine ⟨_, genRows_ok _ _ _ (fun r c => src.getD (r * 848 + (c + Spec.Kdc.turn r) % 848) 0) ?_, holds_genRows _ _ _⟩
  intro r c hr hc
  have : (c + Spec.Kdc.turn r) % 848 < 848 := Nat.mod_lt _ (by decide)
  have := mul_add_lt hr this
  rw [sample_eq, idx_getD _ _ (by omega)]

/-- The rows of the picture are those of the file, turned -/
theorem rows_turned (src img : List Nat) (h : Nat) (hl : h * 848 ≤ src.length)
    (hi : Holds img 848 h fun r c => src.getD (r * 848 + (c + Spec.Kdc.turn r) % 848) 0) (r : Nat) (hr : r < h) :
    Spec.Kdc.row img 848 r = (Spec.Kdc.row src 848 r).rotate (Spec.Kdc.turn r) := by
  have hb : r * 848 + 848 ≤ h * 848 := Nat.le_trans (Nat.le_of_eq (Nat.succ_mul r 848).symm) (Nat.mul_le_mul_right 848 hr)
  have l1 : (Spec.Kdc.row img 848 r).length = 848 := by
    rw [Spec.Kdc.row, List.length_take, List.length_drop, hi.1]; omega
  have l2 : (Spec.Kdc.row src 848 r).length = 848 := by
    rw [Spec.Kdc.row, List.length_take, List.length_drop]; omega
  apply List.ext_getElem?
  intro c
  by_cases hc : c < 848
  · rw [List.getElem?_rotate (by omega), l2, Spec.Kdc.row, Spec.Kdc.row, List.getElem?_take_of_lt hc,
      List.getElem?_take_of_lt (Nat.mod_lt _ (by decide)), List.getElem?_drop, List.getElem?_drop, hi.2 r c hr hc]
    have : (c + Spec.Kdc.turn r) % 848 < 848 := Nat.mod_lt _ (by decide)
    show some (src.getD (r * 848 + (c + Spec.Kdc.turn r) % 848) 0) = _
    rw [List.getD_eq_getElem?_getD, List.getElem?_eq_getElem (by omega)]
    rfl
  · rw [List.getElem?_eq_none (by omega), List.getElem?_eq_none (by rw [List.length_rotate]; omega)]

theorem mapM_not_ok {α β : Type} (f : β → R α) (l : List β) (x : β) (hx : x ∈ l) (hf : f x = panic') (ha : ∀ y ∈ l, f y ≠ fail') :
    l.mapM f = panic' := by
  induction l with
  | nil => cases hx
  | cons a l ih =>
    rw [List.mapM_cons]
    cases ea : f a with
    | error e =>
      cases e with
      | panic => rfl
      | fail => exact absurd ea (ha a (by simp))
    | ok v =>
      simp only [bind, Except.bind]
      have : x ∈ l := by
        rcases List.mem_cons.mp hx with e | e
        · rw [← e, hf] at ea; cases ea
        · exact e
      rw [ih this (fun y hy => ha y (by simp [hy]))]

theorem idx_ne_fail (l : List Nat) (i : Nat) : idx l i ≠ fail' := by
  rw [idx]; split <;> intro h <;> cases h

theorem genRows_panics (h w : Nat) (f : Nat → Nat → R Nat) (hf : ∀ r c, f r c ≠ fail') (r c : Nat) (hr : r < h) (hc : c < w) (hp : f r c = panic') :
    genRows h w f = panic' := by
  have hne : ∀ r, (List.range w).mapM (fun c => f r c) ≠ fail' := by
    intro r
    induction (List.range w) with
    | nil => intro h; cases h
    | cons a l ih =>
      rw [List.mapM_cons]
      cases ea : f r a with
      | error e =>
        cases e with
        | panic => intro h; cases h
        | fail => exact absurd ea (hf r a)
      | ok v =>
        simp only [bind, Except.bind]
        cases e2 : l.mapM (fun c => f r c) with
        | error e =>
          rw [e2] at ih
          exact ih
        | ok v => intro h; cases h
  have h1 : (List.range w).mapM (fun c => f r c) = panic' := mapM_not_ok _ _ c (List.mem_range.mpr hc) hp (fun y _ => hf r y)
  rw [genRows, mapM_not_ok _ _ r (List.mem_range.mpr hr) h1 (fun y _ => hne y)]
  rfl

theorem decodeDc120_short (src : List Nat) (hl : src.length < 848 * 976) : decodeDc120 src 848 976 = panic' := by
  apply genRows_panics _ _ _ ?_ 975 ((848 * 976 - 1 - (975 * 848) + 848 * 976 - Spec.Kdc.turn 975) % 848) (by decide) (Nat.mod_lt _ (by decide))
  · rw [sample_eq]
    have : Spec.Kdc.turn 975 = 89912 := by decide
    rw [this]
    rw [idx, List.getElem?_eq_none (by omega)]
  · intro r c
    rw [sample_eq]
    exact idx_ne_fail _ _

theorem swapped_ok (src : List Nat) : swapped src = .ok (Spec.Kdc.swapPairs src) := by
  have key : ∀ n (l : List Nat), l.length / 2 = n →
      ∃ x, ((List.range n).map fun i => (l.drop (i * 2)).take 2).mapM swap = .ok x ∧ x.flatten = Spec.Kdc.swapPairs l := by
    intro n
    induction n with
    | zero =>
      intro l hl
      refine ⟨[], rfl, ?_⟩
      match l, hl with
      | [], _ => rfl
      | [a], _ => rfl
      | a :: b :: l, hl => simp only [List.length_cons] at hl; omega
    | succ n ih =>
      intro l hl
      match l, hl with
      | [], hl => simp at hl
      | [a], hl => simp at hl
      | a :: b :: l, hl =>
        obtain ⟨x, hx, hf⟩ := ih l (by simp only [List.length_cons] at hl; omega)
        refine ⟨[b, a] :: x, ?_, by rw [List.flatten_cons, hf]; rfl⟩
        rw [List.range_succ_eq_map, List.map_cons, List.map_map, List.mapM_cons]
        have e1 : ((a :: b :: l).drop (0 * 2)).take 2 = [a, b] := rfl
        have e2 : ((fun i => ((a :: b :: l).drop (i * 2)).take 2) ∘ Nat.succ) = fun i => (l.drop (i * 2)).take 2 := by
          funext i
          simp only [Function.comp]
          rw [show Nat.succ i * 2 = i * 2 + 1 + 1 by omega, List.drop_succ_cons, List.drop_succ_cons]
        rw [e1, e2, hx]
        rfl
  obtain ⟨x, hx, hf⟩ := key _ src rfl
  rw [swapped, chunksExact, if_neg (by decide)]
  simp only [bind, Except.bind]
  rw [hx]
  simp only [hf]

/-- The samples that are done after `i` rows and `k` pairs of columns -/
def Done (jpeg : List Nat) (w h i k : Nat) (out : List Nat) : Prop :=
  out.length = h * w ∧ ∀ r c, r < h → c < w → (r < 2 * i ∨ r < 2 * i + 2 ∧ c < 2 * k) → out[r * w + c]? = some (Spec.Kdc.mosaic jpeg w r c)

theorem setAt_ok (out : List Nat) (w r c v : Nat) (h : r * w + c < out.length) : setAt out w r c v = .ok (out.set (r * w + c) v) := by
  rw [setAt, upd, if_pos h]

theorem place_inj {w r c r' c' : Nat} (hc : c < w) (hc' : c' < w) (h : r * w + c = r' * w + c') : r = r' ∧ c = c' := by
  have hw : 0 < w := by omega
  have e : r = r' := by
    have := congrArg (· / w) h
    simp only [Nat.mul_comm _ w, Nat.mul_add_div hw, Nat.div_eq_of_lt hc, Nat.div_eq_of_lt hc'] at this
    omega
  subst e
  exact ⟨rfl, by omega⟩

theorem block_ok (jpeg : List Nat) (w n i k : Nat) (out : List Nat) (hi : i < n) (hk : 2 * k + 1 < w) (hj : jpeg.length = n * w * 3)
    (hd : Done jpeg w (2 * n) i k out) : ∃ o, block w (i * 2) (jpeg.drop (i * w * 3)) (2 * k) out = .ok o ∧ Done jpeg w (2 * n) i (k + 1) o := by
  have hn : (i + 1) * w ≤ n * w := Nat.mul_le_mul_right _ hi
  rw [Nat.add_mul, Nat.one_mul] at hn
  have hm : (i * 2 + 2) * w ≤ 2 * n * w := Nat.mul_le_mul_right _ (by omega)
  have hjd : ∀ c q, c < w → q < 3 → idx (jpeg.drop (i * w * 3)) (c * 3 + q) = .ok (Spec.Kdc.rgb jpeg w i c q) := by
    intro c q hc hq
    rw [idx_getD _ _ (by rw [List.length_drop]; omega), Spec.Kdc.rgb, List.getD_eq_getElem?_getD, List.getElem?_drop, List.getD_eq_getElem?_getD,
      show i * w * 3 + (c * 3 + q) = (i * w + c) * 3 + q by omega]
  have b1 : ∀ a c, a < 2 → c < w → (i * 2 + a) * w + c < 2 * n * w := by
    intro a c ha hc
    have : (i * 2 + a) * w ≤ (i * 2 + 1) * w := Nat.mul_le_mul_right _ (by omega)
    have : (i * 2 + 2) * w = (i * 2 + 1) * w + w := Nat.succ_mul _ _
    omega
  have L := hd.1
  refine ⟨(((out.set ((i * 2 + 0) * w + (2 * k + 0)) (Spec.Kdc.rgb jpeg w i (2 * k) 1 * 2)).set ((i * 2 + 1) * w + (2 * k + 1))
    (Spec.Kdc.rgb jpeg w i (2 * k + 1) 1 * 2)).set ((i * 2 + 0) * w + (2 * k + 1)) (Spec.Kdc.rgb jpeg w i (2 * k) 0 + Spec.Kdc.rgb jpeg w i (2 * k + 1) 0)).set
    ((i * 2 + 1) * w + (2 * k + 0)) (Spec.Kdc.rgb jpeg w i (2 * k) 2 + Spec.Kdc.rgb jpeg w i (2 * k + 1) 2), ?_, ?_⟩
  · rw [block]
    rw [hjd _ _ (by omega) (by decide), hjd _ _ (by omega) (by decide), hjd _ _ (by omega) (by decide), hjd _ _ (by omega) (by decide),
      hjd _ _ (by omega) (by decide), hjd _ _ (by omega) (by decide)]
    simp only [bind, Except.bind]
    rw [setAt_ok _ _ _ _ _ (by rw [L]; exact b1 0 _ (by decide) (by omega))]
    simp only
    rw [setAt_ok _ _ _ _ _ (by rw [List.length_set, L]; exact b1 1 _ (by decide) (by omega))]
    simp only
    rw [setAt_ok _ _ _ _ _ (by rw [List.length_set, List.length_set, L]; exact b1 0 _ (by decide) (by omega))]
    simp only
    rw [setAt_ok _ _ _ _ _ (by rw [List.length_set, List.length_set, List.length_set, L]; exact b1 1 _ (by decide) (by omega))]
  · refine ⟨by simp only [List.length_set]; exact L, ?_⟩
    simp only [Nat.add_zero]
    intro r c hr hc hin
    have hlt : r * w + c < out.length := by rw [L]; exact mul_add_lt hr hc
    by_cases hnew : (r = i * 2 ∨ r = i * 2 + 1) ∧ (c = 2 * k ∨ c = 2 * k + 1)
    · rcases hnew with ⟨e | e, f | f⟩
      · rw [List.getElem?_set_ne (fun h => by have := place_inj (by omega) hc h; omega),
          List.getElem?_set_ne (fun h => by have := place_inj (by omega) hc h; omega),
          List.getElem?_set_ne (fun h => by have := place_inj (by omega) hc h; omega), e, f,
          List.getElem?_set_self (by rw [← e, ← f]; exact hlt)]
        rw [Spec.Kdc.mosaic, show i * 2 % 2 = 0 by omega, show 2 * k % 2 = 0 by omega, show i * 2 / 2 = i by omega, show 2 * k / 2 * 2 = 2 * k by omega]
        simp only; rw [Nat.mul_comm]
      · rw [List.getElem?_set_ne (fun h => by have := place_inj (by omega) hc h; omega), e, f,
          List.getElem?_set_self (by rw [List.length_set, List.length_set, ← e, ← f]; exact hlt)]
        rw [Spec.Kdc.mosaic, show i * 2 % 2 = 0 by omega, show (2 * k + 1) % 2 = 1 by omega, show i * 2 / 2 = i by omega,
          show (2 * k + 1) / 2 * 2 = 2 * k by omega]
        rfl
      · rw [e, f, List.getElem?_set_self (by rw [List.length_set, List.length_set, List.length_set, ← e, ← f]; exact hlt)]
        rw [Spec.Kdc.mosaic, show (i * 2 + 1) % 2 = 1 by omega, show 2 * k % 2 = 0 by omega, show (i * 2 + 1) / 2 = i by omega,
          show 2 * k / 2 * 2 = 2 * k by omega]
        rfl
      · rw [List.getElem?_set_ne (fun h => by have := place_inj (by omega) hc h; omega),
          List.getElem?_set_ne (fun h => by have := place_inj (by omega) hc h; omega), e, f,
          List.getElem?_set_self (by rw [List.length_set, ← e, ← f]; exact hlt)]
        rw [Spec.Kdc.mosaic, show (i * 2 + 1) % 2 = 1 by omega, show (2 * k + 1) % 2 = 1 by omega, show (i * 2 + 1) / 2 = i by omega,
          show (2 * k + 1) / 2 * 2 = 2 * k by omega]
        simp only; rw [Nat.mul_comm]
    · rw [List.getElem?_set_ne (fun h => by have := place_inj (by omega) hc h; omega),
          List.getElem?_set_ne (fun h => by have := place_inj (by omega) hc h; omega),
          List.getElem?_set_ne (fun h => by have := place_inj (by omega) hc h; omega),
          List.getElem?_set_ne (fun h => by have := place_inj (by omega) hc h; omega)]
      exact hd.2 r c hr hc (by omega)

theorem blockRow_ok (jpeg : List Nat) (w n i : Nat) (out : List Nat) (hi : i < n) (hw : w % 2 = 0) (hj : jpeg.length = n * w * 3)
    (hd : Done jpeg w (2 * n) i 0 out) : ∃ o, blockRow w jpeg i out = .ok o ∧ Done jpeg w (2 * n) (i + 1) 0 o := by
  have hn : i * w ≤ n * w := Nat.mul_le_mul_right _ (by omega)
  rw [blockRow, from', if_pos (by omega)]
  simp only [bind, Except.bind]
  obtain ⟨o, ho, hd'⟩ := forN_inv ((w + 1) / 2) (fun k => block w (i * 2) (jpeg.drop (i * w * 3)) (2 * k)) (fun k o => Done jpeg w (2 * n) i k o) out hd
    (fun k o hk h => block_ok jpeg w n i k o hi (by omega) hj h)
  exact ⟨o, ho, hd'.1, fun r c hr hc h => hd'.2 r c hr hc (by omega)⟩

theorem mosaic_ok (jpeg : List Nat) (w n : Nat) (hw : w % 2 = 0) (hj : jpeg.length = n * w * 3) :
    ∃ o, forN n (blockRow w jpeg) (List.replicate (w * (2 * n)) 0) = .ok o ∧ Holds o w (2 * n) (Spec.Kdc.mosaic jpeg w) := by
  obtain ⟨o, ho, hd⟩ := forN_inv n (blockRow w jpeg) (fun i o => Done jpeg w (2 * n) i 0 o) (List.replicate (w * (2 * n)) 0)
    ⟨by rw [List.length_replicate, Nat.mul_comm], fun r c hr hc h => by omega⟩
    (fun i o hi h => blockRow_ok jpeg w n i o hi hw hj h)
  exact ⟨o, ho, hd.1, fun r c hr hc => hd.2 r c hr hc (by omega)⟩

end Verif.Kdc
