import Verif.Model.FujiRotate
import Verif.Spec.FujiRotate
import Verif.Proofs.Base
import Verif.Proofs.Grid
/-! # Lemmas for C86: the diagonal arrangement -/

namespace Verif.FujiRotate
open Verif Verif.Pix

/-- The samples done are at their places, the rest is zero. -/
structure Placed (N : Nat) (π : Nat → Nat → Nat) (f : Nat → Nat → Nat) (D : Nat → Nat → Prop) (out : List Nat) : Prop where
  len : out.length = N
  put : ∀ r c, D r c → out[π r c]? = some (f r c)
  rest : ∀ j, j < N → (∀ r c, D r c → π r c ≠ j) → out[j]? = some 0

theorem Placed.set {N : Nat} {π : Nat → Nat → Nat} {f : Nat → Nat → Nat} {D D' : Nat → Nat → Prop} {out : List Nat} (h : Placed N π f D out) (k m : Nat)
    (hN : π k m < N) (hD : ∀ r c, D' r c ↔ D r c ∨ (r = k ∧ c = m)) (hne : ∀ r c, D r c → π r c ≠ π k m) : Placed N π f D' (out.set (π k m) (f k m)) := by
  refine ⟨by rw [List.length_set, h.len], ?_, ?_⟩
  · intro r c hd
    rcases (hD r c).mp hd with hd | ⟨rfl, rfl⟩
    · rw [List.getElem?_set_ne (fun e => hne r c hd e.symm)]
      exact h.put r c hd
    · exact List.getElem?_set_self (by rw [h.len]; exact hN)
  · intro j hj hno
    have : π k m ≠ j := hno k m ((hD k m).mpr (.inr ⟨rfl, rfl⟩))
    rw [List.getElem?_set_ne this]
    exact h.rest j hj fun r c hd => hno r c ((hD r c).mpr (.inl hd))

theorem placed_loop (N cw ch : Nat) (π : Nat → Nat → Nat) (f : Nat → Nat → Nat) (g : Nat → Nat → List Nat → R (List Nat))
    (hN : ∀ r c, r < ch → c < cw → π r c < N) (hinj : ∀ r c r' c', r < ch → c < cw → r' < ch → c' < cw → π r c = π r' c' → r = r' ∧ c = c')
    (hg : ∀ r c out, r < ch → c < cw → out.length = N → g r c out = .ok (out.set (π r c) (f r c))) :
    ∃ out, forN ch (fun r out => forN cw (fun c out => g r c out) out) (List.replicate N 0) = .ok out ∧ Placed N π f (fun r c => r < ch ∧ c < cw) out := by
  obtain ⟨out, e, h⟩ := forN_inv ch (fun r out => forN cw (fun c out => g r c out) out) (fun k out => Placed N π f (fun r c => r < k ∧ c < cw) out)
    (List.replicate N 0) ⟨List.length_replicate, fun r c hd => absurd hd.1 (Nat.not_lt_zero _), fun j hj _ => List.getElem?_replicate_of_lt hj⟩ (by
      intro k out hk h
      obtain ⟨out', e', h'⟩ := forN_inv cw (fun c out => g k c out) (fun m out => Placed N π f (fun r c => (r < k ∧ c < cw) ∨ (r = k ∧ c < m)) out) out
        ⟨h.len, fun r c hd => h.put r c (by omega), fun j hj hno => h.rest j hj fun r c hd => hno r c (.inl hd)⟩ (by
          intro m out hm h
          refine ⟨_, hg k m out hk hm h.len, h.set k m (hN k m hk hm) (fun r c => by omega) ?_⟩
          intro r c hd e
          have := hinj r c k m (by omega) (by omega) hk hm e
          omega)
      exact ⟨out', e', h'.len, fun r c hd => h'.put r c (by omega), fun j hj hno => h'.rest j hj fun r c hd => hno r c (by omega)⟩)
  exact ⟨out, e, h⟩

theorem pair_inj {n a b c d : Nat} (hb : b < n) (hd : d < n) (h : a * n + b = c * n + d) : a = c ∧ b = d := by
  have hn : 0 < n := by omega
  have h1 : (a * n + b) / n = a := by rw [Nat.mul_comm, Nat.mul_add_div hn, Nat.div_eq_of_lt hb, Nat.add_zero]
  have h2 : (c * n + d) / n = c := by rw [Nat.mul_comm, Nat.mul_add_div hn, Nat.div_eq_of_lt hd, Nat.add_zero]
  have : a = c := by rw [← h1, ← h2, h]
  subst this
  omega

theorem pair_lt {n a b m : Nat} (hb : b < n) (ha : a < m) : a * n + b < n * m := by
  calc a * n + b < a * n + n := by omega
    _ = (a + 1) * n := by rw [Nat.succ_mul]
    _ ≤ m * n := Nat.mul_le_mul_right _ ha
    _ = n * m := Nat.mul_comm _ _

/-- The place of a sample -/
def placeRow (cw : Nat) (alt : Bool) (row col : Nat) : Nat := if alt then cw / 2 - 1 + row - col / 2 else cw - 1 - col + row / 2
def placeCol (alt : Bool) (row col : Nat) : Nat := if alt then (col + 1) / 2 + row else (row + 1) / 2 + col

theorem rotateImage_ok (src : List Nat) (f : Nat → Nat → Nat) (width x y cw ch : Nat) (alt : Bool) (h0 : 0 < cw) (h1 : 0 < ch)
    (hev : if alt then cw % 2 = 0 else ch % 2 = 0) (hx : x + cw ≤ width)
    (hs : ∀ r c, r < ch → c < cw → src[(y + r) * width + (x + c)]? = some (f r c)) :
    ∃ out, rotateImage src width x y cw ch alt =
        .ok (⟨if alt then ch + cw / 2 else cw + ch / 2, (if alt then ch + cw / 2 else cw + ch / 2) - 1, out⟩, if alt then ch else cw) ∧
      Placed ((if alt then ch + cw / 2 else cw + ch / 2) * ((if alt then ch + cw / 2 else cw + ch / 2) - 1))
        (fun r c => placeRow cw alt r c * (if alt then ch + cw / 2 else cw + ch / 2) + placeCol alt r c) f (fun r c => r < ch ∧ c < cw) out := by
  generalize hrw : (if alt then ch + cw / 2 else cw + ch / 2) = rw'
  have hrow : ∀ r c, r < ch → c < cw → placeRow cw alt r c < rw' - 1 ∧ placeCol alt r c < rw' := by
    intro r c hr hc
    unfold placeRow placeCol
    cases alt <;> simp only [if_true, Bool.false_eq_true, if_false] at * <;> omega
  obtain ⟨out, e, hp⟩ := placed_loop (rw' * (rw' - 1)) cw ch (fun r c => placeRow cw alt r c * rw' + placeCol alt r c) f
    (fun row col out => do
      let inb ← slice src ((row + y) * width + x) src.length
      let oRow ← (if alt then usub rw' (ch + 1 - row + col / 2) else .ok (cw - 1 - col + row / 2) : R Nat)
      let oCol := if alt then (col + 1) / 2 + row else (row + 1) / 2 + col
      let v ← idx inb col
      upd out (oRow * rw' + oCol) v)
    (fun r c hr hc => pair_lt (hrow r c hr hc).2 (hrow r c hr hc).1)
    (fun r c r' c' hr hc hr' hc' he => by
      obtain ⟨e1, e2⟩ := pair_inj (hrow r c hr hc).2 (hrow r' c' hr' hc').2 he
      unfold placeRow at e1
      unfold placeCol at e2
      cases alt <;> simp only [if_true, Bool.false_eq_true, if_false] at * <;> omega)
    (fun r c out hr hc hl => by
      have hlen : (y + r) * width + (x + c) < src.length := by
        have := hs r c hr hc
        exact (List.getElem?_eq_some_iff.mp this).1
      have hq : (r + y) * width = (y + r) * width := by rw [Nat.add_comm]
      rw [slice_ok src _ _ (by omega) (Nat.le_refl _)]
      have ho : (if alt then usub rw' (ch + 1 - r + c / 2) else .ok (cw - 1 - c + r / 2) : R Nat) = .ok (placeRow cw alt r c) := by
        unfold placeRow
        cases alt
        · simp only [Bool.false_eq_true, if_false]
        · simp only [if_true] at *
          unfold usub
          rw [if_pos (by omega)]
          congr 1
          omega
      have hi : idx ((src.drop ((r + y) * width + x)).take (src.length - ((r + y) * width + x))) c = .ok (f r c) := by
        unfold idx
        rw [List.getElem?_take_of_lt (by omega), List.getElem?_drop, hq, Nat.add_assoc, hs r c hr hc]
      have hu : upd out (placeRow cw alt r c * rw' + placeCol alt r c) (f r c) = .ok (out.set (placeRow cw alt r c * rw' + placeCol alt r c) (f r c)) := by
        unfold upd
        rw [if_pos (by rw [hl]; exact pair_lt (hrow r c hr hc).2 (hrow r c hr hc).1)]
      show (do
        let oRow ← (if alt then usub rw' (ch + 1 - r + c / 2) else .ok (cw - 1 - c + r / 2) : R Nat)
        let v ← idx ((src.drop ((r + y) * width + x)).take (src.length - ((r + y) * width + x))) c
        upd out (oRow * rw' + (if alt then (c + 1) / 2 + r else (r + 1) / 2 + c)) v) = _
      rw [ho]
      show (do
        let v ← idx ((src.drop ((r + y) * width + x)).take (src.length - ((r + y) * width + x))) c
        upd out (placeRow cw alt r c * rw' + (if alt then (c + 1) / 2 + r else (r + 1) / 2 + c)) v) = _
      rw [hi]
      exact hu)
  refine ⟨out, ?_, hp⟩
  unfold rotateImage
  simp only
  rw [hrw, show usub rw' 1 = .ok (rw' - 1) by unfold usub; rw [if_pos (by cases alt <;> simp only [if_true, Bool.false_eq_true, if_false] at hrw <;> omega)]]
  have : forN ch (fun row out => do
      let inb ← slice src ((row + y) * width + x) src.length
      forN cw (fun col out => do
        let oRow ← (if alt then usub rw' (ch + 1 - row + col / 2) else .ok (cw - 1 - col + row / 2) : R Nat)
        let oCol := if alt then (col + 1) / 2 + row else (row + 1) / 2 + col
        let v ← idx inb col
        upd out (oRow * rw' + oCol) v) out) (List.replicate (rw' * (rw' - 1)) 0) = .ok out := by
    rw [← e]
    refine forN_congr _ _ _ _ fun r s hr => ?_
    have hl : (r + y) * width + x ≤ src.length := by
      have := (List.getElem?_eq_some_iff.mp (hs r 0 hr h0)).1
      have hq : (r + y) * width = (y + r) * width := by rw [Nat.add_comm]
      omega
    rw [slice_ok src _ _ hl (Nat.le_refl _)]
    rfl
  show (do
    let out ← forN ch _ _
    .ok (⟨rw', rw' - 1, out⟩, if alt then ch else cw) : R (Pix Nat × Nat)) = _
  rw [this]
  rfl

end Verif.FujiRotate
