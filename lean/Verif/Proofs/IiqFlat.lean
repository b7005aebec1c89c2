import Verif.Model.IiqFlat
import Verif.Spec.IiqFlat
import Verif.Props.IiqPoly
import Mathlib.Tactic.FieldSimp
/-! # Proofs about the flat field -/

namespace Verif.IiqFlat
open Verif Verif.Spec Verif.IiqCorr Verif.IiqPoly Verif.Spec.IiqFlat

theorem forN_imp {σ : Type} (n : Nat) (f : Nat → σ → R σ) (Inv : Nat → σ → Prop) (Post : σ → Prop) (s : σ) (h0 : Inv 0 s)
    (hpost : ∀ s, Inv n s → Post s) (hstep : ∀ i s, i < n → Inv i s → ∃ s', f i s = .ok s' ∧ Inv (i + 1) s') :
    ∃ s', forN n f s = .ok s' ∧ Post s' := by
  obtain ⟨s', h1, h2⟩ := forN_inv n f Inv s h0 hstep
  exact ⟨s', h1, hpost s' h2⟩

theorem count_eq (size start len step j : Nat) (h : step ≤ start + len) :
    count size start len step (j + 1) = .ok (min (min size (start + j * step + step)) (start + len - step) - (start + j * step)) := by
  have e : start + (j + 1) * step = start + j * step + step := by rw [Nat.add_mul, Nat.one_mul, Nat.add_assoc]
  rw [count, e, Nat.add_sub_cancel]
  split
  · rw [usub, if_pos h]; rfl
  · rw [show min (min size (start + j * step + step)) (start + len - step) - (start + j * step) = 0 by omega]

theorem wide_eq (a b : Nat) (hb : 0 < b) : a / b + (if a % b ≠ 0 then 1 else 0) = parts a b := by
  rw [parts]
  have h1 := Nat.div_add_mod a b
  have h2 := Nat.mod_lt a hb
  split
  · rename_i h
    symm
    rw [Nat.div_eq_iff hb]
    have e : (a / b + 1) * b = b * (a / b) + b := by ring
    constructor <;> (try rw [e]) <;> omega
  · rename_i h
    symm
    rw [Nat.div_eq_iff hb]
    have e : (a / b + 0) * b = b * (a / b) := by ring
    constructor <;> (try rw [e]) <;> omega

theorem parts_le (a b : Nat) (hb : 0 < b) : a ≤ parts a b * b := by
  have := Nat.div_add_mod (a + b - 1) b
  have h2 := Nat.mod_lt (a + b - 1) hb
  have e : parts a b * b = b * ((a + b - 1) / b) := by rw [parts, Nat.mul_comm]
  omega

theorem parts_two (a b : Nat) (hb : 0 < b) (h : 2 ≤ parts a b) : b < a := by
  have := (Nat.le_div_iff_mul_le hb).1 h
  omega

theorem parts_pos (a b : Nat) (hb : 0 < b) (ha : 0 < a) : 0 < parts a b := Nat.div_pos (by omega) hb

/-- The colour that a pixel is corrected with -/
def chan (color : Nat → Nat → Nat) (m : Nat × Nat) (nc r c : Nat) : Nat := if nc > 2 then color (r - m.2) (c - m.1) else 0

/-- The corrected pixel -/
def val (color : Nat → Nat → Nat) (m : Nat × Nat) (nc : Nat) (g : Grid) (data : List ℚ) (f : Nat → Nat → Nat) (r c : Nat) : Nat :=
  if chan color m nc r c % 2 = 0 then Spec.IiqCorr.word (f r c * factor g (nc / 2) data (chan color m nc r c / 2) r c) else f r c

/-- The picture when all pixels before row `R` and column `C` are corrected -/
def stage (color : Nat → Nat → Nat) (m : Nat × Nat) (nc : Nat) (g : Grid) (data : List ℚ) (f : Nat → Nat → Nat) (R C r c : Nat) : Nat :=
  if Inside g r c ∧ (r < R ∨ (r = R ∧ c < C)) then val color m nc g data f r c else f r c

theorem stage_congr (color m nc g data f) {R C R' C' r c : Nat} (h : Inside g r c → ((r < R ∨ (r = R ∧ c < C)) ↔ (r < R' ∨ (r = R' ∧ c < C')))) :
    stage color m nc g data f R C r c = stage color m nc g data f R' C' r c := by
  rw [stage, stage]
  by_cases hi : Inside g r c
  · rw [if_congr (and_congr_right fun _ => h hi) rfl rfl]
  · rw [if_neg (fun x => hi x.1), if_neg (fun x => hi x.1)]

section
variable (color : Nat → Nat → Nat) (m : Nat × Nat) (nc : Nat) (g : Grid) (data : List ℚ) (f : Nat → Nat → Nat) (w h : Nat)
  (hnc : nc = 2 ∨ nc = 4) (hcol : nc = 4 → ∀ r c, color r c < 4) (hm : nc = 4 → m.1 ≤ g.left ∧ m.2 ≤ g.top)
include hnc hcol hm

theorem pixel_ok (row col : Nat) (mult : Nat → ℚ) (img : List Nat) (hr : row < h) (hc : col < w) (hi : Inside g row col)
    (hmul : ∀ q, q < nc / 2 → mult (2 * q) = factor g (nc / 2) data q row col) (H : Holds img w h (stage color m nc g data f row col)) :
    ∃ img', pixel color m nc w row col mult img = .ok img' ∧ Holds img' w h (stage color m nc g data f row (col + 1)) := by
  have hs : stage color m nc g data f row col row col = f row col := by
    rw [stage, if_neg (by intro x; have := x.2; omega)]
  have hcl : (if nc > 2 then do
      assert' (decide (row ≥ m.2))
      assert' (decide (col ≥ m.1))
      .ok (color (row - m.2) (col - m.1))
    else .ok 0 : R Nat) = .ok (chan color m nc row col) := by
    rw [chan]
    split
    · have := hm (by omega)
      have h1 := hi.1
      have h2 := hi.2.2.1
      rw [decide_eq_true (show row ≥ m.2 by omega), decide_eq_true (show col ≥ m.1 by omega)]
      rfl
    · rfl
  rw [pixel, hcl]
  simp only [bind, Except.bind]
  have key : ∀ r c, r < h → c < w → stage color m nc g data f row (col + 1) r c =
      if r = row ∧ c = col then val color m nc g data f row col else stage color m nc g data f row col r c := by
    intro r c _ _
    by_cases e : r = row ∧ c = col
    · obtain ⟨rfl, rfl⟩ := e
      rw [if_pos ⟨rfl, rfl⟩, stage, if_pos ⟨hi, Or.inr ⟨rfl, by omega⟩⟩]
    · rw [if_neg e]
      apply stage_congr
      intro _
      omega
  by_cases hev : chan color m nc row col % 2 = 0
  · rw [if_pos hev, idx, H.2 row col hr hc, hs]
    simp only
    obtain ⟨img', h1, h2⟩ := holds_upd H row col (toWord (f row col * mult (chan color m nc row col))) hr hc
    refine ⟨img', h1, holds_congr h2 fun r c hr' hc' => ?_⟩
    rw [key r c hr' hc']
    refine if_congr Iff.rfl ?_ rfl
    rw [val, if_pos hev, Props.toWord_eq]
    have hlt : chan color m nc row col / 2 < nc / 2 := by
      rw [chan]
      rcases hnc with e | e
      · rw [e, if_neg (by omega : ¬ (2 : Nat) > 2)]; decide
      · have := hcol e (row - m.2) (col - m.1)
        rw [e, if_pos (by omega)]
        omega
    have h3 := hmul _ hlt
    rw [show 2 * (chan color m nc row col / 2) = chan color m nc row col by omega] at h3
    rw [h3]
  · rw [if_neg hev]
    refine ⟨img, rfl, holds_congr H fun r c hr' hc' => ?_⟩
    rw [key r c hr' hc']
    split
    · rename_i e
      obtain ⟨rfl, rfl⟩ := e
      rw [hs, val, if_neg hev]
    · rfl

theorem row_ok (hdx : 0 < g.dx) (hw : 0 < g.width) (row : Nat) (mrow : Rows) (img : List Nat) (hr : row < h) (h1 : g.top ≤ row)
    (h2 : row + g.dy < g.top + g.height)
    (hrow : ∀ q x, q < nc / 2 → x < parts g.width g.dx → mrow (2 * q) x = across g (nc / 2) data q row x)
    (H : Holds img w h (stage color m nc g data f row 0)) :
    ∃ img', flatRow color m nc (parts g.width g.dx) w g.left g.width g.dx row mrow img = .ok img' ∧ Holds img' w h (stage color m nc g data f (row + 1) 0) := by
  have hdq : (g.dx : ℚ) ≠ 0 := by exact_mod_cast hdx.ne'
  have hp := parts_pos g.width g.dx hdx hw
  have hple := parts_le g.width g.dx hdx
  rw [flatRow]
  refine forN_imp _ _ (fun j img => Holds img w h (stage color m nc g data f row (g.left + j * g.dx))) _ img
    (holds_congr H fun r c _ _ => stage_congr _ _ _ _ _ _ fun hi => by have := hi.2.2.1; omega) ?_ ?_
  · intro img' H1
    refine holds_congr H1 fun r c _ _ => stage_congr _ _ _ _ _ _ fun hi => ?_
    have := hi.2.2.2
    have e : (parts g.width g.dx - 1) * g.dx + g.dx = parts g.width g.dx * g.dx := by
      rw [Nat.sub_mul, Nat.one_mul]
      have := Nat.le_mul_of_pos_left g.dx hp
      omega
    omega
  · intro j img hj Hj
    have hl := parts_two g.width g.dx hdx (by omega)
    rw [count_eq _ _ _ _ _ (by omega)]
    generalize hn : min (min w (g.left + j * g.dx + g.dx)) (g.left + g.width - g.dx) - (g.left + j * g.dx) = n
    have ee : g.left + (j + 1) * g.dx = g.left + j * g.dx + g.dx := by rw [Nat.add_mul, Nat.one_mul, Nat.add_assoc]
    have key : ∃ st, forN n (fun k (st : List Nat × (Nat → Rat)) => do
        let img ← pixel color m nc w row (g.left + (j + 1) * g.dx - g.dx + k) st.2 st.1
        .ok (img, next st.2)) (img, first mrow g.dx (j + 1)) = .ok st ∧ Holds st.1 w h (stage color m nc g data f row (g.left + j * g.dx + n)) := by
     refine forN_imp n _ (fun k st => Holds st.1 w h (stage color m nc g data f row (g.left + j * g.dx + k)) ∧
        (∀ q, q < nc / 2 → st.2 (2 * q) = between (across g (nc / 2) data q row j) (across g (nc / 2) data q row (j + 1)) g.dx k) ∧
        (∀ q, q < nc / 2 → st.2 (2 * q + 1) = (across g (nc / 2) data q row (j + 1) - across g (nc / 2) data q row j) / g.dx))
      _ (img, first mrow g.dx (j + 1)) ⟨Hj, ?_, ?_⟩ (fun s hs => hs.1) ?_
     · intro q hq
       simp only [first]
       rw [if_pos (by omega), Nat.add_sub_cancel, hrow q j hq (by omega), between]
       simp
     · intro q hq
       simp only [first]
       rw [if_neg (by omega), Nat.add_sub_cancel, Nat.add_sub_cancel, hrow q j hq (by omega), hrow q (j + 1) hq (by omega)]
     · rintro k ⟨im, mu⟩ hk ⟨A, B, C⟩
       have e3 : g.left + (j + 1) * g.dx - g.dx + k = g.left + j * g.dx + k := by rw [ee]; omega
       have hk2 : k < g.dx := by omega
       have e4 : (g.left + j * g.dx + k - g.left) / g.dx = j := by
         rw [show g.left + j * g.dx + k - g.left = k + j * g.dx by omega, Nat.add_mul_div_right _ _ hdx, Nat.div_eq_of_lt hk2, Nat.zero_add]
       have e5 : (g.left + j * g.dx + k - g.left) % g.dx = k := by
         rw [show g.left + j * g.dx + k - g.left = k + j * g.dx by omega, Nat.add_mul_mod_self_right, Nat.mod_eq_of_lt hk2]
       obtain ⟨im', e6, H6⟩ := pixel_ok color m nc g data f w h hnc hcol hm row (g.left + j * g.dx + k) mu im hr (by omega) ⟨h1, h2, by omega, by omega⟩
         (fun q hq => by rw [factor, e4, e5]; exact B q hq) A
       refine ⟨(im', next mu), by rw [e3, e6]; rfl, H6, ?_, ?_⟩
       · intro q hq
         simp only [next]
         rw [if_pos (by omega)]
         have hB := B q hq
         have hC := C q hq
         simp only at hB hC
         rw [hB, hC, between, between]
         push_cast
         field_simp
         ring
       · intro q hq
         simp only [next]
         rw [if_neg (by omega)]
         exact C q hq
    obtain ⟨st, e2, H2⟩ := key
    refine ⟨st.1, ?_, holds_congr H2 fun r c _ _ => stage_congr _ _ _ _ _ _ fun hi => ?_⟩
    · show (forN n _ _ >>= fun st : List Nat × (Nat → Rat) => Except.ok st.1) = _
      rw [e2]
      rfl
    have := hi.2.2.2
    rw [ee]
    omega

end

theorem readRow_ok (data : List ℚ) (n wide h5 y : Nat) (nc : Nat) (hn : nc / 2 = n) (mrow : Rows) (hd : (y + 1) * wide * n ≤ data.length) :
    ∃ m', readRow data nc wide h5 y mrow = .ok m' ∧ ∀ q x, q < n → x < wide →
      (y = 0 → m' (2 * q) x = data.getD ((y * wide + x) * n + q) 0) ∧
      (y ≠ 0 → m' (2 * q) x = mrow (2 * q) x ∧ m' (2 * q + 1) x = (data.getD ((y * wide + x) * n + q) 0 - mrow (2 * q) x) / h5) := by
  let T : Nat → Nat → ℚ := fun c x =>
    if y = 0 then (if c % 2 = 0 then data.getD ((y * wide + x) * n + c / 2) 0 else mrow c x)
    else (if c % 2 = 0 then mrow c x else (data.getD ((y * wide + x) * n + c / 2) 0 - mrow (c - 1) x) / h5)
  rw [readRow]
  refine forN_imp wide _
    (fun X mm => ∀ c x, mm c x = if c / 2 < n ∧ x < X then T c x else mrow c x) _ mrow (fun c x => by rw [if_neg (by omega)]) ?_ ?_
  · refine fun m' H q x hq hx => ⟨fun hy => ?_, fun hy => ⟨?_, ?_⟩⟩
    · rw [H, if_pos ⟨by omega, hx⟩]
      show (if y = 0 then _ else _) = _
      rw [if_pos hy, if_pos (by omega), show 2 * q / 2 = q by omega]
    · rw [H, if_pos ⟨by omega, hx⟩]
      show (if y = 0 then _ else _) = _
      rw [if_neg hy, if_pos (by omega)]
    · rw [H, if_pos ⟨by omega, hx⟩]
      show (if y = 0 then _ else _) = _
      rw [if_neg hy, if_neg (by omega), show (2 * q + 1) / 2 = q by omega, Nat.add_sub_cancel]
  · intro X mm hX HX
    refine forN_imp (nc / 2) _
      (fun K m => ∀ c x, m c x = if c / 2 < n ∧ (x < X ∨ (x = X ∧ c / 2 < K)) then T c x else mrow c x) _ mm
      (fun c x => by rw [HX]; exact if_congr (by omega) rfl rfl) ?_ ?_
    · exact fun m2 H2 c x => by rw [H2]; exact if_congr (by omega) rfl rfl
    · intro K m1 hK H1
      have hlt : (y * wide + X) * (nc / 2) + K < data.length := by
        refine lt_of_lt_of_le ?_ hd
        have : (y * wide + X + 1) * n ≤ (y + 1) * wide * n := Nat.mul_le_mul_right _ (by rw [Nat.add_mul, Nat.one_mul]; omega)
        rw [Nat.add_mul _ 1, Nat.one_mul] at this
        rw [hn]
        omega
      rw [Props.idxQ _ _ hlt, hn]
      refine ⟨_, rfl, fun c x => ?_⟩
      by_cases hy : y = 0
      · rw [if_pos hy, put]
        by_cases hc : c = 2 * K ∧ x = X
        · obtain ⟨rfl, rfl⟩ := hc
          rw [if_pos ⟨rfl, rfl⟩, if_pos (by omega)]
          show _ = (if y = 0 then _ else _)
          rw [if_pos hy, if_pos (by omega), show 2 * K / 2 = K by omega]
        · rw [if_neg hc, H1]
          by_cases hc2 : c = 2 * K + 1 ∧ x = X
          · rw [if_neg (by omega), if_pos (by omega)]
            show _ = (if y = 0 then _ else _)
            rw [if_pos hy, if_neg (by omega)]
          · exact if_congr (by omega) rfl rfl
      · rw [if_neg hy, put]
        by_cases hc : c = 2 * K + 1 ∧ x = X
        · obtain ⟨rfl, rfl⟩ := hc
          rw [if_pos ⟨rfl, rfl⟩, if_pos (by omega), H1, if_neg (by omega)]
          show _ = (if y = 0 then _ else _)
          rw [if_neg hy, if_neg (by omega), show (2 * K + 1) / 2 = K by omega, Nat.add_sub_cancel]
        · rw [if_neg hc, H1]
          by_cases hc2 : c = 2 * K ∧ x = X
          · rw [if_neg (by omega), if_pos (by omega)]
            show _ = (if y = 0 then _ else _)
            rw [if_neg hy, if_pos (by omega)]
          · exact if_congr (by omega) rfl rfl

section
variable (color : Nat → Nat → Nat) (m : Nat × Nat) (nc : Nat) (g : Grid) (data : List ℚ) (f : Nat → Nat → Nat) (w h : Nat)
  (hnc : nc = 2 ∨ nc = 4) (hcol : nc = 4 → ∀ r c, color r c < 4) (hm : nc = 4 → m.1 ≤ g.left ∧ m.2 ≤ g.top)
  (hdx : 0 < g.dx) (hdy : 0 < g.dy) (hw : 0 < g.width)
include hnc hcol hm hdx hdy hw

theorem band_ok (ht : g.dy ≤ g.top + g.height) (j : Nat) (mrow : Rows) (img : List Nat) (H : Holds img w h (stage color m nc g data f (g.top + j * g.dy) 0))
    (hrow : (∀ q x, q < nc / 2 → x < parts g.width g.dx → mrow (2 * q) x = node g (nc / 2) data q j x ∧
        mrow (2 * q + 1) x = (node g (nc / 2) data q (j + 1) x - node g (nc / 2) data q j x) / g.dy) ∨
      min h (g.top + g.height - g.dy) ≤ g.top + j * g.dy) :
    ∃ st, band color m nc (parts g.width g.dx) w h g.left g.top g.width g.height g.dx g.dy (j + 1) (mrow, img) = .ok st ∧
      Holds st.2 w h (stage color m nc g data f (g.top + (j + 1) * g.dy) 0) ∧
      ((∀ q x, q < nc / 2 → x < parts g.width g.dx → st.1 (2 * q) x = node g (nc / 2) data q (j + 1) x) ∨
        min h (g.top + g.height - g.dy) ≤ g.top + (j + 1) * g.dy) := by
  have hdq : (g.dy : ℚ) ≠ 0 := by exact_mod_cast hdy.ne'
  have ee : g.top + (j + 1) * g.dy = g.top + j * g.dy + g.dy := by rw [Nat.add_mul, Nat.one_mul, Nat.add_assoc]
  rw [band, count_eq _ _ _ _ _ ht]
  generalize hn : min (min h (g.top + j * g.dy + g.dy)) (g.top + g.height - g.dy) - (g.top + j * g.dy) = n
  show ∃ st, forN n _ _ = .ok st ∧ _
  rcases hrow with hrow | hdone
  · refine forN_imp n _ (fun k st => Holds st.2 w h (stage color m nc g data f (g.top + j * g.dy + k) 0) ∧
      ∀ q x, q < nc / 2 → x < parts g.width g.dx → st.1 (2 * q) x = between (node g (nc / 2) data q j x) (node g (nc / 2) data q (j + 1) x) g.dy k ∧
        st.1 (2 * q + 1) x = (node g (nc / 2) data q (j + 1) x - node g (nc / 2) data q j x) / g.dy) _ (mrow, img) ⟨H, ?_⟩ ?_ ?_
    · intro q x hq hx
      refine ⟨?_, (hrow q x hq hx).2⟩
      show mrow (2 * q) x = _
      rw [(hrow q x hq hx).1, between]
      simp
    · rintro ⟨mr, im⟩ ⟨A, B⟩
      refine ⟨holds_congr A fun r c hr _ => stage_congr _ _ _ _ _ _ fun hi => ?_, ?_⟩
      · have := hi.2.1
        rw [ee]
        omega
      · by_cases hnn : n = g.dy
        · left
          intro q x hq hx
          rw [(B q x hq hx).1, hnn, between]
          field_simp
          ring
        · right
          rw [ee]
          omega
    · rintro k ⟨mr, im⟩ hk ⟨A, B⟩
      have e3 : g.top + (j + 1) * g.dy - g.dy + k = g.top + j * g.dy + k := by rw [ee]; omega
      have hk2 : k < g.dy := by omega
      have e4 : (g.top + j * g.dy + k - g.top) / g.dy = j := by
        rw [show g.top + j * g.dy + k - g.top = k + j * g.dy by omega, Nat.add_mul_div_right _ _ hdy, Nat.div_eq_of_lt hk2, Nat.zero_add]
      have e5 : (g.top + j * g.dy + k - g.top) % g.dy = k := by
        rw [show g.top + j * g.dy + k - g.top = k + j * g.dy by omega, Nat.add_mul_mod_self_right, Nat.mod_eq_of_lt hk2]
      obtain ⟨im', e6, H6⟩ := row_ok color m nc g data f w h hnc hcol hm hdx hw (g.top + j * g.dy + k) mr im (by omega) (by omega) (by omega)
        (fun q x hq hx => by rw [across, e4, e5]; exact (B q x hq hx).1) A
      refine ⟨(advance mr, im'), by rw [e3, e6]; rfl, H6, fun q x hq hx => ⟨?_, ?_⟩⟩
      · simp only [advance]
        rw [if_pos (by omega)]
        have hB := B q x hq hx
        simp only at hB
        rw [hB.1, hB.2, between, between]
        push_cast
        field_simp
        ring
      · simp only [advance]
        rw [if_neg (by omega)]
        exact (B q x hq hx).2
  · have hn0 : n = 0 := by omega
    rw [hn0]
    refine ⟨(mrow, img), rfl, holds_congr H fun r c hr _ => stage_congr _ _ _ _ _ _ fun hi => ?_, Or.inr (by rw [ee]; omega)⟩
    have := hi.2.1
    rw [ee]
    omega

theorem flat_ok (hh : 0 < g.height) (hd : parts g.height g.dy * parts g.width g.dx * (nc / 2) ≤ data.length) (img : List Nat) (H : Holds img w h f) :
    ∃ st, forN (parts g.height g.dy) (step color m data nc (parts g.width g.dx) w h g.left g.top g.width g.height g.dx g.dy) (fun _ _ => 0, img) = .ok st ∧
      Holds st.2 w h (fun r c => if Inside g r c then val color m nc g data f r c else f r c) := by
  have hp := parts_pos g.height g.dy hdy hh
  have hple := parts_le g.height g.dy hdy
  refine forN_imp _ _ (fun Y st => (Y = 0 → Holds st.2 w h f) ∧ (Y ≠ 0 → Holds st.2 w h (stage color m nc g data f (g.top + (Y - 1) * g.dy) 0) ∧
      ((∀ q x, q < nc / 2 → x < parts g.width g.dx → st.1 (2 * q) x = node g (nc / 2) data q (Y - 1) x) ∨
        min h (g.top + g.height - g.dy) ≤ g.top + (Y - 1) * g.dy))) _ _ ⟨fun _ => H, fun x => absurd rfl x⟩ ?_ ?_
  · rintro st ⟨_, B⟩
    refine holds_congr (B (by omega)).1 fun r c _ _ => ?_
    rw [stage]
    refine if_congr ⟨fun x => x.1, fun x => ⟨x, ?_⟩⟩ rfl rfl
    have := x.2.1
    have e : (parts g.height g.dy - 1) * g.dy + g.dy = parts g.height g.dy * g.dy := by
      rw [Nat.sub_mul, Nat.one_mul]
      have := Nat.le_mul_of_pos_left g.dy hp
      omega
    omega
  · rintro y ⟨mr, im⟩ hy ⟨A, B⟩
    obtain ⟨m', e1, R1⟩ := readRow_ok data (nc / 2) (parts g.width g.dx) g.dy y nc rfl mr
      (le_trans (Nat.mul_le_mul_right _ (Nat.mul_le_mul_right _ hy)) hd)
    rw [step, e1]
    simp only [bind, Except.bind]
    cases y with
    | zero =>
      refine ⟨(m', im), if_pos rfl, fun x => absurd x (by omega), fun _ => ⟨holds_congr (A rfl) fun r c _ _ => ?_, Or.inl fun q x hq hx => (R1 q x hq hx).1 rfl⟩⟩
      rw [stage, if_neg]
      rintro ⟨hi, h2⟩
      have := hi.1
      omega
    | succ j =>
      rw [if_neg (by omega)]
      obtain ⟨B1, B2⟩ := B (by omega)
      rw [Nat.add_sub_cancel] at B1 B2
      obtain ⟨st, e2, H2, H3⟩ := band_ok color m nc g data f w h hnc hcol hm hdx hdy hw (by have := parts_two g.height g.dy hdy (by omega); omega) j m' im B1 (by
        rcases B2 with B2 | B2
        · left
          intro q x hq hx
          have h1 := (R1 q x hq hx).2 (by omega)
          have h2 := B2 q x hq hx
          simp only at h2
          rw [h1.1, h1.2, h2]
          exact ⟨rfl, rfl⟩
        · exact Or.inr B2)
      exact ⟨st, e2, fun x => absurd x (by omega), fun _ => ⟨H2, H3⟩⟩

end

end Verif.IiqFlat
