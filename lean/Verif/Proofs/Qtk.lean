import Verif.Model.Qtk
import Verif.Spec.Qtk
import Verif.Proofs.Base
import Verif.Proofs.BitRun
import Verif.Proofs.HuffDecode
import Mathlib.Tactic.IntervalCases
/-! # QuickTake 100: the three passes -/

namespace Verif.Qtk
open Verif Verif.Pumps Verif.Spec.Qtk

theorem clamp_byte (v : Int) : clamp v = byte v := by
  unfold clamp byte; split <;> (try split) <;> omega

theorem byte_range (v : Int) : 0 ≤ byte v ∧ byte v ≤ 255 := by unfold byte; omega

theorem line_zero (first : Int) (f : Nat → Int → Int) : line first f 0 = f 0 first := rfl
theorem line_succ (first : Int) (f : Nat → Int → Int) (j : Nat) : line first f (j + 1) = f (j + 1) (line first f j) := rfl

theorem line_range (first : Int) (f : Nat → Int → Int) (hf : ∀ j l, 0 ≤ f j l ∧ f j l ≤ 255) (j : Nat) : 0 ≤ line first f j ∧ line first f j ≤ 255 := by
  cases j with
  | zero => exact hf _ _
  | succ j => exact hf _ _

theorem green_range (n : Nat) (q : Nat → Nat → Nat) (r j : Nat) : 0 ≤ green n q r j ∧ green n q r j ≤ 255 := by
  cases r with
  | zero => exact line_range _ _ (fun _ _ => byte_range _) j
  | succ r => exact line_range _ _ (fun _ _ => byte_range _) j

theorem get_ok (pix : Pix) (r c : Nat) (hr : r < 484) (hc : c < 644) : get pix r c = .ok (pix r c) := by rw [get, if_pos ⟨hr, hc⟩]
theorem set_ok (pix : Pix) (r c : Nat) (v : Int) (hr : r < 484) (hc : c < 644) : set pix r c v = .ok (put pix r c v) := by rw [set, if_pos ⟨hr, hc⟩]

/-- Reading from place `k` of the bits -/
theorem read_field (bits : List Bool) (p : PumpMSB) (k n : Nat) (h : p.Rep (bits.drop k)) (hn : 0 < n) (h32 : n ≤ 32) (hl : k + n ≤ bits.length) :
    ∃ p', getBits p n = .ok (field bits k n, p') ∧ p'.Rep (bits.drop (k + n)) := by
  have hle : n ≤ (bits.drop k).length := by rw [List.length_drop]; omega
  obtain ⟨p', e, r⟩ := Verif.Ljpeg.getBits_ok PumpMSB.lawful p _ n h h32 hle hn
  rw [takeZ_of_le hle] at e
  rw [List.drop_drop] at r
  exact ⟨p', e, r⟩

theorem field_lt (bits : List Bool) (k n : Nat) : field bits k n < 2 ^ n := by
  refine Nat.lt_of_lt_of_le (natMSB_lt _) (Nat.pow_le_pow_right (by omega) ?_)
  rw [List.length_take]; omega

theorem idx_getD (l : List α) (i : Nat) (d : α) (h : i < l.length) : idx l i = .ok (l.getD i d) := by
  rw [idx, List.getElem?_eq_getElem h, List.getD_eq_getElem?_getD, List.getElem?_eq_getElem h]; rfl

/-! ## Greens -/

/-- The array after one green sample -/
def next (pix : Pix) (r j : Nat) (val : Int) : Pix :=
  let p1 := put pix (r + 2) (2 + r % 2 + 2 * j) val
  let p2 := if j = 0 then put (put p1 (r + 2) (r % 2) val) (r + 3) ((r + 1) % 2) val else p1
  if r = 0 then put (put p2 1 (2 + r % 2 + 2 * j + 1) val) 1 (2 + r % 2 + 2 * j + 3) val else p2

theorem next_at (pix : Pix) (r j : Nat) (val : Int) (a b : Nat) :
    next pix r j val a b = if (a = r + 2 ∧ b = 2 + r % 2 + 2 * j) ∨ (j = 0 ∧ a = r + 2 ∧ b = r % 2) ∨ (j = 0 ∧ a = r + 3 ∧ b = (r + 1) % 2) ∨
      (r = 0 ∧ a = 1 ∧ (b = 2 + r % 2 + 2 * j + 1 ∨ b = 2 + r % 2 + 2 * j + 3)) then val else pix a b := by
  have hput : ∀ (pix : Pix) (r c : Nat), put pix r c val a b = if a = r ∧ b = c then val else pix a b := fun _ _ _ => rfl
  unfold next
  by_cases h1 : j = 0
  · rw [if_pos h1]
    by_cases h2 : r = 0
    · rw [if_pos h2]; simp only [hput]; split_ifs <;> first | rfl | (exfalso; omega)
    · rw [if_neg h2]; simp only [hput]; split_ifs <;> first | rfl | (exfalso; omega)
  · rw [if_neg h1]
    by_cases h2 : r = 0
    · rw [if_pos h2]; simp only [hput]; split_ifs <;> first | rfl | (exfalso; omega)
    · rw [if_neg h2]; simp only [hput]; split_ifs <;> first | rfl | (exfalso; omega)

theorem greenStep_eq (pix : Pix) (p : PumpMSB) (r j : Nat) (v0 : Int) (bits : List Bool) (k : Nat) (hp : p.Rep (bits.drop k)) (hl : k + 4 ≤ bits.length)
    (hr : r + 3 < 484) (hc : 2 * j + 5 < 644) :
    ∃ p', greenStep (r + 2) (2 + r % 2 + 2 * j) (p, pix, v0) = .ok (p', next pix r j (byte ((pix (r + 1) (2 + r % 2 + 2 * j - 1) +
        2 * pix (r + 1) (2 + r % 2 + 2 * j + 1) + pix (r + 2) (2 + r % 2 + 2 * j - 2)) / 4 + greenSteps.getD (field bits k 4) 0)),
        byte ((pix (r + 1) (2 + r % 2 + 2 * j - 1) + 2 * pix (r + 1) (2 + r % 2 + 2 * j + 1) + pix (r + 2) (2 + r % 2 + 2 * j - 2)) / 4 +
          greenSteps.getD (field bits k 4) 0)) ∧ p'.Rep (bits.drop (k + 4)) := by
  obtain ⟨p', e, rp⟩ := read_field bits p k 4 hp (by omega) (by omega) hl
  refine ⟨p', ?_, rp⟩
  have hs : idx gstep (field bits k 4) = .ok (greenSteps.getD (field bits k 4) 0) := idx_getD _ _ _ (field_lt bits k 4)
  rw [greenStep]
  simp only [bind, Except.bind, show r + 2 - 1 = r + 1 by omega, show r + 2 + 1 = r + 3 by omega]
  rw [get_ok _ _ _ (by omega) (by omega)]
  simp only []
  rw [get_ok _ _ _ (by omega) (by omega)]
  simp only []
  rw [get_ok _ _ _ (by omega) (by omega)]
  simp only [e, hs, clamp_byte]
  generalize byte _ = val
  rw [set_ok _ _ _ _ (by omega) (by omega)]
  simp only []
  have h1 : (2 + r % 2 + 2 * j < 4) = (j = 0) := by apply propext; omega
  have h2 : (r + 2 = 2) = (r = 0) := by apply propext; omega
  have h3 : (r + 3) % 2 = (r + 1) % 2 := by omega
  simp only [h1, h2, h3, next]
  by_cases hj : j = 0
  · simp only [if_pos hj]
    rw [set_ok _ _ _ _ (by omega) (by omega)]
    simp only []
    rw [set_ok _ _ _ _ (by omega) (by omega)]
    simp only [show 2 + r % 2 + 2 * j - 2 = r % 2 by omega]
    by_cases h0 : r = 0
    · simp only [if_pos h0]
      rw [set_ok _ _ _ _ (by omega) (by omega)]
      simp only []
      rw [set_ok _ _ _ _ (by omega) (by omega)]
      simp only [h0]
    · simp only [if_neg h0]
  · simp only [if_neg hj]
    by_cases h0 : r = 0
    · simp only [if_pos h0]
      rw [set_ok _ _ _ _ (by omega) (by omega)]
      simp only []
      rw [set_ok _ _ _ _ (by omega) (by omega)]
      simp only [h0]
    · simp only [if_neg h0]

/-- The finished rows, with their borders -/
def RowsG (n : Nat) (G : Nat → Nat → Int) (r : Nat) (pix : Pix) : Prop :=
  ∀ r', r' < r → ∀ c, (c + r') % 2 = 0 → c ≤ 2 * n + 3 → pix (r' + 2) c = G r' (min ((c - 2) / 2) (n - 1))

/-- Before row `r` -/
def RowInv (n : Nat) (G : Nat → Nat → Int) (r : Nat) (pix : Pix) : Prop :=
  RowsG n G r pix ∧ (∀ a b, (a + b) % 2 = 1 → pix a b = 128) ∧ pix (r + 2) (r % 2) = (if r = 0 then 128 else G (r - 1) 0) ∧
  (r = 0 → pix 1 1 = 128 ∧ pix 1 3 = 128)

/-- In row `r`, after `j` samples -/
def ColInv (n : Nat) (G : Nat → Nat → Int) (r j : Nat) (pix : Pix) (val : Int) : Prop :=
  RowsG n G r pix ∧ (∀ a b, (a + b) % 2 = 1 → pix a b = 128) ∧
  (if j = 0 then pix (r + 2) (r % 2) = (if r = 0 then 128 else G (r - 1) 0) ∧ (r = 0 → pix 1 1 = 128 ∧ pix 1 3 = 128)
   else val = G r (j - 1) ∧ (∀ c, (c + r) % 2 = 0 → c < 2 + r % 2 + 2 * j → pix (r + 2) c = G r ((c - 2) / 2)) ∧ pix (r + 3) ((r + 1) % 2) = G r 0 ∧
     (r = 0 → pix 1 (2 * j + 1) = G 0 (j - 1) ∧ pix 1 (2 * j + 3) = G 0 (j - 1)))

theorem green_pred (n : Nat) (q : Nat → Nat → Nat) (r j : Nat) (hj : j < n) (pix : Pix) (val : Int) (h : ColInv n (green n q) r j pix val) :
    byte ((pix (r + 1) (2 + r % 2 + 2 * j - 1) + 2 * pix (r + 1) (2 + r % 2 + 2 * j + 1) + pix (r + 2) (2 + r % 2 + 2 * j - 2)) / 4 +
      greenSteps.getD (q r j) 0) = green n q r j := by
  obtain ⟨hg, _, hc⟩ := h
  have hleft : pix (r + 2) (2 + r % 2 + 2 * j - 2) = if j = 0 then (if r = 0 then 128 else green n q (r - 1) 0) else green n q r (j - 1) := by
    split at hc
    · next h0 => rw [if_pos h0, show 2 + r % 2 + 2 * j - 2 = r % 2 by omega]; exact hc.1
    · next h0 =>
      rw [if_neg h0, hc.2.1 _ (by omega) (by omega)]
      congr 1; omega
  rw [hleft]
  cases r with
  | zero =>
    cases j with
    | zero =>
      rw [if_pos rfl] at hc
      obtain ⟨h1, h2⟩ := hc.2 rfl
      show byte ((pix 1 1 + 2 * pix 1 3 + 128) / 4 + _) = byte (128 + _)
      rw [h1, h2]; rfl
    | succ j =>
      rw [if_neg (by omega)] at hc
      obtain ⟨h1, h2⟩ := hc.2.2.2 rfl
      rw [show 2 + 0 % 2 + 2 * (j + 1) - 1 = 2 * (j + 1) + 1 by omega, show 2 + 0 % 2 + 2 * (j + 1) + 1 = 2 * (j + 1) + 3 by omega, Nat.zero_add, h1, h2,
        if_neg (by omega)]
      show _ = byte (green n q 0 j + _)
      rw [Nat.add_sub_cancel]
      congr 2
      omega
  | succ r =>
    have hup : ∀ c, (c + r) % 2 = 0 → c ≤ 2 * n + 3 → pix (r + 1 + 1) c = green n q r (min ((c - 2) / 2) (n - 1)) := hg r (Nat.lt_succ_self r)
    rw [hup _ (by omega) (by omega), hup _ (by omega) (by omega), if_neg (show ¬(r + 1 = 0) by omega), Nat.add_sub_cancel]
    have hl : (if j = 0 then green n q r 0 else green n q (r + 1) (j - 1)) = (match j with | 0 => green n q r 0 | j + 1 => green n q (r + 1) j) := by
      cases j with
      | zero => rfl
      | succ j => rw [if_neg (by omega), Nat.add_sub_cancel]
    rw [hl]
    have hul : green n q r (min ((2 + (r + 1) % 2 + 2 * j - 1 - 2) / 2) (n - 1)) = if (r + 1) % 2 = 0 then green n q r (j - 1) else green n q r j := by
      split <;> (congr 1; omega)
    have hur : green n q r (min ((2 + (r + 1) % 2 + 2 * j + 1 - 2) / 2) (n - 1)) = if (r + 1) % 2 = 0 then green n q r j else green n q r (min (j + 1) (n - 1)) := by
      split <;> (congr 1; omega)
    rw [hul, hur]
    cases j <;> rfl

theorem green_col (n : Nat) (G : Nat → Nat → Int) (r j : Nat) (pix : Pix) (val : Int) (h : ColInv n G r j pix val) :
    ColInv n G r (j + 1) (next pix r j (G r j)) (G r j) := by
  obtain ⟨hg, ho, hc⟩ := h
  refine ⟨?_, ?_, ?_⟩
  · intro r' hr' c h1 h2
    rw [next_at, if_neg (by omega)]
    exact hg r' hr' c h1 h2
  · intro a b hab
    rw [next_at, if_neg (by omega)]
    exact ho a b hab
  · rw [if_neg (by omega)]
    refine ⟨rfl, ?_, ?_, ?_⟩
    · intro c h1 h2
      rw [next_at]
      split
      · next h =>
        congr 1
        omega
      · next h =>
        have hj0 : j ≠ 0 := by omega
        rw [if_neg hj0] at hc
        exact hc.2.1 c h1 (by omega)
    · rw [next_at]
      split
      · next h => congr 1; omega
      · next h =>
        have hj0 : j ≠ 0 := by omega
        rw [if_neg hj0] at hc
        exact hc.2.2.1
    · rintro rfl
      rw [next_at, next_at, if_pos (by omega), if_pos (by omega)]
      exact ⟨rfl, rfl⟩

theorem greenRow_ok (n : Nat) (hn : 0 < n) (hn2 : n ≤ 320) (bits : List Bool) (r : Nat) (hr : r < 480) (hl : 4 * ((r + 1) * n) ≤ bits.length)
    (p : PumpMSB) (pix : Pix) (hp : p.Rep (bits.drop (4 * (r * n)))) (h : RowInv n (green n (greenCode bits n)) r pix) :
    ∃ p' pix', greenRow (2 * n) r (p, pix) = .ok (p', pix') ∧ p'.Rep (bits.drop (4 * ((r + 1) * n))) ∧
      RowInv n (green n (greenCode bits n)) (r + 1) pix' := by
  obtain ⟨h1, h2, h3, h4⟩ := h
  have hcnt : (2 * n + 2 - (2 + r % 2) + 1) / 2 = n := by omega
  obtain ⟨⟨p1, pix1, v1⟩, e, ⟨rp, i1⟩⟩ := forN_inv n (fun j => greenStep (r + 2) (2 + r % 2 + 2 * j))
    (fun j st => st.1.Rep (bits.drop (4 * (r * n + j))) ∧ ColInv n (green n (greenCode bits n)) r j st.2.1 st.2.2) (p, pix, 0)
    ⟨hp, h1, h2, by rw [if_pos rfl]; exact ⟨h3, h4⟩⟩ (by
      rintro j ⟨p, pix, v⟩ hj ⟨rp, i⟩
      have hle : r * n + j + 1 ≤ (r + 1) * n := by rw [Nat.succ_mul]; omega
      obtain ⟨p', e, rp'⟩ := greenStep_eq pix p r j v bits _ rp (by omega) (by omega) (by omega)
      have hv := green_pred n (greenCode bits n) r j hj pix v i
      rw [greenCode] at hv
      rw [hv] at e
      exact ⟨_, e, rp', green_col n _ r j pix v i⟩)
  obtain ⟨k1, k2, k3⟩ := i1
  rw [if_neg (by omega)] at k3
  obtain ⟨k4, k5, k6, _⟩ := k3
  dsimp only at k1 k2 k4 k5 k6 rp
  refine ⟨p1, put pix1 (r + 2) (2 * n + 2 + r % 2) v1, ?_, by rw [show (r + 1) * n = r * n + n from Nat.succ_mul r n]; exact rp, ?_, ?_, ?_, ?_⟩
  · rw [greenRow]
    simp only [bind, Except.bind, show (r + 2) % 2 = r % 2 by omega, hcnt, e]
    rw [set_ok _ _ _ _ (by omega) (by omega)]
  · intro r' hr' c hc1 hc2
    rw [put]
    split
    · next h =>
      rw [k4]
      obtain ⟨ha, hb⟩ := h
      have : r' = r := by omega
      subst this
      congr 1
      omega
    · next h =>
      by_cases hrr : r' = r
      · subst hrr
        rw [k5 c hc1 (by omega)]
        congr 1
        omega
      · exact k1 r' (by omega) c hc1 hc2
  · intro a b hab
    rw [put, if_neg (by omega)]
    exact k2 a b hab
  · rw [put, if_neg (by omega), if_neg (by omega)]
    exact k6
  · intro h; omega

theorem greens_ok (n h : Nat) (hn : 0 < n) (hn2 : n ≤ 320) (hh : h ≤ 480) (bits : List Bool) (hl : 4 * (h * n) ≤ bits.length)
    (p : PumpMSB) (hp : p.Rep bits) :
    ∃ p' pix', greens (2 * n) h (p, fun _ _ => 128) = .ok (p', pix') ∧ p'.Rep (bits.drop (4 * (h * n))) ∧
      RowsG n (green n (greenCode bits n)) h pix' ∧ ∀ a b, (a + b) % 2 = 1 → pix' a b = 128 := by
  obtain ⟨⟨p1, pix1⟩, e, rp, i1⟩ := forN_inv h (greenRow (2 * n))
    (fun r st => st.1.Rep (bits.drop (4 * (r * n))) ∧ RowInv n (green n (greenCode bits n)) r st.2) (p, fun _ _ => 128)
    ⟨by simpa using hp, fun r' hr' => absurd hr' (by omega), fun _ _ _ => rfl, rfl, fun _ => ⟨rfl, rfl⟩⟩ (by
      rintro r ⟨p, pix⟩ hr ⟨rp, i⟩
      have : (r + 1) * n ≤ h * n := Nat.mul_le_mul_right _ hr
      obtain ⟨p', pix', e, rp', i'⟩ := greenRow_ok n hn hn2 bits r (by omega) (by omega) p pix rp i
      exact ⟨(p', pix'), e, rp', i'⟩)
  exact ⟨p1, pix1, e, rp, i1.1, i1.2.1⟩

/-! ## Reds and blues -/

theorem other_range (q : Nat → Nat → Nat) (r j : Nat) : 0 ≤ other q r j ∧ other q r j ≤ 255 := by
  match r with
  | 0 => exact line_range _ _ (fun _ _ => byte_range _) j
  | 1 => exact line_range _ _ (fun _ _ => byte_range _) j
  | r + 2 => exact line_range _ _ (fun _ _ => byte_range _) j

/-- The array after one other sample -/
def nextX (pix : Pix) (r j : Nat) (val : Int) : Pix :=
  let p1 := put pix (r + 2) (3 - r % 2 + 2 * j) val
  let p2 := if r < 2 then put p1 r (3 - r % 2 + 2 * j + 2) val else p1
  if j = 0 then put p2 (r + 4) (1 - r % 2) val else p2

theorem nextX_at (pix : Pix) (r j : Nat) (val : Int) (a b : Nat) :
    nextX pix r j val a b = if (a = r + 2 ∧ b = 3 - r % 2 + 2 * j) ∨ (r < 2 ∧ a = r ∧ b = 3 - r % 2 + 2 * j + 2) ∨
      (j = 0 ∧ a = r + 4 ∧ b = 1 - r % 2) then val else pix a b := by
  have hput : ∀ (pix : Pix) (r c : Nat), put pix r c val a b = if a = r ∧ b = c then val else pix a b := fun _ _ _ => rfl
  unfold nextX
  by_cases h1 : j = 0
  · rw [if_pos h1]
    by_cases h2 : r < 2
    · rw [if_pos h2]; simp only [hput]; split_ifs <;> first | rfl | (exfalso; omega)
    · rw [if_neg h2]; simp only [hput]; split_ifs <;> first | rfl | (exfalso; omega)
  · rw [if_neg h1]
    by_cases h2 : r < 2
    · rw [if_pos h2]; simp only [hput]; split_ifs <;> first | rfl | (exfalso; omega)
    · rw [if_neg h2]; simp only [hput]; split_ifs <;> first | rfl | (exfalso; omega)

/-- The table used -/
def tableOf (pix : Pix) (r j : Nat) : Nat :=
  if r < 2 ∨ j = 0 then 2 else busy (pix r (3 - r % 2 + 2 * j)) (pix (r + 2) (3 - r % 2 + 2 * j - 2)) (pix r (3 - r % 2 + 2 * j - 2))

theorem busy_lt (a b c : Int) : busy a b c < 6 := by unfold busy; dsimp only; split_ifs <;> omega

theorem sharpness_busy (u l ul : Int) : sharpness ((u - l).natAbs + (u - ul).natAbs + (l - ul).natAbs : Nat) = busy u l ul := by
  unfold sharpness busy
  dsimp only
  generalize (u - l).natAbs + (u - ul).natAbs + (l - ul).natAbs = d
  split_ifs <;> omega

theorem otherStep_eq (pix : Pix) (p : PumpMSB) (r j : Nat) (bits : List Bool) (k : Nat) (hp : p.Rep (bits.drop k)) (hl : k + 2 ≤ bits.length)
    (hr : r + 4 < 484) (hc : 2 * j + 5 < 644) :
    ∃ p', Verif.Qtk.otherStep (r + 2) (3 - r % 2 + 2 * j) (p, pix) = .ok (p', nextX pix r j (byte ((pix r (3 - r % 2 + 2 * j) + pix (r + 2) (3 - r % 2 + 2 * j - 2)) / 2 +
        Spec.Qtk.otherStep (tableOf pix r j) (field bits k 2)))) ∧ p'.Rep (bits.drop (k + 2)) := by
  obtain ⟨p', e, rp⟩ := read_field bits p k 2 hp (by omega) (by omega) hl
  refine ⟨p', ?_, rp⟩
  have ht : tableOf pix r j < 6 := by unfold tableOf; split; · omega
                                      · exact busy_lt _ _ _
  have hs1 : idx rstep (tableOf pix r j) = .ok (otherSteps.getD (tableOf pix r j) []) := idx_getD _ _ _ ht
  have hs2 : idx (otherSteps.getD (tableOf pix r j) []) (field bits k 2) = .ok (Spec.Qtk.otherStep (tableOf pix r j) (field bits k 2)) := by
    refine idx_getD _ _ _ ?_
    have : (otherSteps.getD (tableOf pix r j) []).length = 4 := by
      generalize tableOf pix r j = t at ht
      interval_cases t <;> rfl
    rw [this]; exact field_lt bits k 2
  have hsh : sharp pix (r + 2) (3 - r % 2 + 2 * j) (pix r (3 - r % 2 + 2 * j)) (pix (r + 2) (3 - r % 2 + 2 * j - 2)) = .ok (tableOf pix r j) := by
    rw [sharp, tableOf]
    by_cases hc' : r < 2 ∨ j = 0
    · rw [if_pos (by omega), if_pos hc']
    · rw [if_neg (by omega), if_neg hc']
      simp only [bind, Except.bind, show r + 2 - 2 = r by omega]
      rw [get_ok _ _ _ (by omega) (by omega)]
      simp only [sharpness_busy]
  rw [Verif.Qtk.otherStep]
  simp only [bind, Except.bind, show r + 2 - 2 = r by omega, show r + 2 + 2 = r + 4 by omega]
  rw [get_ok _ _ _ (by omega) (by omega)]
  simp only []
  rw [get_ok _ _ _ (by omega) (by omega)]
  simp only [hsh, e, hs1, hs2, clamp_byte]
  generalize byte _ = val
  rw [set_ok _ _ _ _ (by omega) (by omega)]
  simp only []
  have h1 : (3 - r % 2 + 2 * j < 4) = (j = 0) := by apply propext; omega
  have h2 : (r + 2 < 4) = (r < 2) := by apply propext; omega
  simp only [h1, h2, nextX]
  by_cases h0 : r < 2
  · simp only [if_pos h0]
    rw [set_ok _ _ _ _ (by omega) (by omega)]
    simp only []
    by_cases hj : j = 0
    · simp only [if_pos hj]
      rw [set_ok _ _ _ _ (by omega) (by omega)]
      simp only [show 3 - r % 2 + 2 * j - 2 = 1 - r % 2 by omega]
    · simp only [if_neg hj]
  · simp only [if_neg h0]
    by_cases hj : j = 0
    · simp only [if_pos hj]
      rw [set_ok _ _ _ _ (by omega) (by omega)]
      simp only [show 3 - r % 2 + 2 * j - 2 = 1 - r % 2 by omega]
    · simp only [if_neg hj]

/-- The finished rows of one parity -/
def RowsX (n : Nat) (X : Nat → Nat → Int) (r : Nat) (pix : Pix) : Prop :=
  ∀ r', r' < r → r' % 2 = r % 2 → ∀ j, j < n → pix (r' + 2) (3 - r' % 2 + 2 * j) = X r' j

/-- Nothing else changes: not the greens, nor the rows of the other parity -/
def Same (r : Nat) (pix0 pix : Pix) : Prop := ∀ a b, (a + b) % 2 = 0 ∨ a % 2 ≠ r % 2 → pix a b = pix0 a b

/-- Before row `r` -/
def RowInvX (n : Nat) (X : Nat → Nat → Int) (pix0 : Pix) (r : Nat) (pix : Pix) : Prop :=
  RowsX n X r pix ∧ Same r pix0 pix ∧ pix (r + 2) (1 - r % 2) = (if r < 2 then 128 else X (r - 2) 0) ∧ (r < 2 → pix r (3 - r % 2) = 128)

/-- In row `r`, after `j` samples -/
def ColInvX (n : Nat) (X : Nat → Nat → Int) (pix0 : Pix) (r j : Nat) (pix : Pix) : Prop :=
  RowsX n X r pix ∧ Same r pix0 pix ∧
  (if j = 0 then pix (r + 2) (1 - r % 2) = (if r < 2 then 128 else X (r - 2) 0) ∧ (r < 2 → pix r (3 - r % 2) = 128)
   else (∀ j', j' < j → pix (r + 2) (3 - r % 2 + 2 * j') = X r j') ∧ pix (r + 4) (1 - r % 2) = X r 0 ∧ (r < 2 → pix r (3 - r % 2 + 2 * j) = X r (j - 1)))

theorem other_pred (n : Nat) (q : Nat → Nat → Nat) (r j : Nat) (hj : j < n) (pix0 pix : Pix) (h : ColInvX n (other q) pix0 r j pix) :
    byte ((pix r (3 - r % 2 + 2 * j) + pix (r + 2) (3 - r % 2 + 2 * j - 2)) / 2 + Spec.Qtk.otherStep (tableOf pix r j) (q r j)) = other q r j := by
  obtain ⟨hg, _, hc⟩ := h
  have hleft : pix (r + 2) (3 - r % 2 + 2 * j - 2) = if j = 0 then (if r < 2 then 128 else other q (r - 2) 0) else other q r (j - 1) := by
    split at hc
    · next h0 => rw [if_pos h0, show 3 - r % 2 + 2 * j - 2 = 1 - r % 2 by omega]; exact hc.1
    · next h0 =>
      rw [if_neg h0, show 3 - r % 2 + 2 * j - 2 = 3 - r % 2 + 2 * (j - 1) by omega]
      exact hc.1 _ (by omega)
  by_cases h2 : r < 2
  · have hup : pix r (3 - r % 2 + 2 * j) = if j = 0 then 128 else other q r (j - 1) := by
      split at hc
      · next h0 => rw [if_pos h0, h0]; exact hc.2 h2
      · next h0 => rw [if_neg h0]; exact hc.2.2 h2
    rw [tableOf, if_pos (Or.inl h2), hleft, hup, if_pos h2]
    have hr : r = 0 ∨ r = 1 := by omega
    cases j with
    | zero =>
      rw [if_pos rfl]
      rcases hr with rfl | rfl <;> rfl
    | succ j =>
      rw [if_neg (by omega), Nat.add_sub_cancel]
      rcases hr with rfl | rfl
      · show _ = byte (other q 0 j + _)
        congr 2; omega
      · show _ = byte (other q 1 j + _)
        congr 2; omega
  · obtain ⟨r, rfl⟩ : ∃ r', r = r' + 2 := ⟨r - 2, by omega⟩
    have hup : ∀ j', j' < n → pix (r + 2) (3 - (r + 2) % 2 + 2 * j') = other q r j' := by
      intro j' hj'
      rw [show 3 - (r + 2) % 2 = 3 - r % 2 by omega]
      exact hg r (by omega) (by omega) j' hj'
    rw [tableOf, hleft, hup j hj, if_neg h2, Nat.add_sub_cancel]
    cases j with
    | zero =>
      rw [if_pos rfl, if_pos (Or.inr rfl)]
      rfl
    | succ j =>
      rw [if_neg (by omega), if_neg (by omega), Nat.add_sub_cancel, show 3 - (r + 2) % 2 + 2 * (j + 1) - 2 = 3 - (r + 2) % 2 + 2 * j by omega, hup j (by omega)]
      rfl

theorem other_col (n : Nat) (X : Nat → Nat → Int) (pix0 : Pix) (r j : Nat) (pix : Pix) (h : ColInvX n X pix0 r j pix) :
    ColInvX n X pix0 r (j + 1) (nextX pix r j (X r j)) := by
  obtain ⟨hg, ho, hc⟩ := h
  refine ⟨?_, ?_, ?_⟩
  · intro r' hr' hp j' hj'
    rw [nextX_at, if_neg (by omega)]
    exact hg r' hr' hp j' hj'
  · intro a b hab
    rw [nextX_at, if_neg (by omega)]
    exact ho a b hab
  · rw [if_neg (by omega)]
    refine ⟨?_, ?_, ?_⟩
    · intro j' hj'
      rw [nextX_at]
      split
      · congr 1; omega
      · have hj0 : j ≠ 0 := by omega
        rw [if_neg hj0] at hc
        exact hc.1 j' (by omega)
    · rw [nextX_at]
      split
      · congr 1; omega
      · have hj0 : j ≠ 0 := by omega
        rw [if_neg hj0] at hc
        exact hc.2.1
    · intro h2
      rw [nextX_at, if_pos (by omega)]
      rfl

theorem otherRow_ok (n : Nat) (hn : 0 < n) (hn2 : n ≤ 320) (bits : List Bool) (h r k : Nat) (hr : r < 480)
    (hk : ∀ j, j < n → otherCode bits n h r j = field bits (k + 2 * j) 2) (hl : k + 2 * n ≤ bits.length)
    (p : PumpMSB) (pix0 pix : Pix) (hp : p.Rep (bits.drop k)) (hi : RowInvX n (other (otherCode bits n h)) pix0 r pix) :
    ∃ p' pix', otherRow (2 * n) (r + 2) (p, pix) = .ok (p', pix') ∧ p'.Rep (bits.drop (k + 2 * n)) ∧
      RowInvX n (other (otherCode bits n h)) pix0 (r + 2) pix' := by
  obtain ⟨h1, h2, h3, h4⟩ := hi
  have hcnt : (2 * n + 2 - (3 - r % 2) + 1) / 2 = n := by omega
  obtain ⟨⟨p1, pix1⟩, e, ⟨rp, i1⟩⟩ := forN_inv n (fun j => Verif.Qtk.otherStep (r + 2) (3 - r % 2 + 2 * j))
    (fun j st => st.1.Rep (bits.drop (k + 2 * j)) ∧ ColInvX n (other (otherCode bits n h)) pix0 r j st.2) (p, pix)
    ⟨hp, h1, h2, by rw [if_pos rfl]; exact ⟨h3, h4⟩⟩ (by
      rintro j ⟨p, pix⟩ hj ⟨rp, i⟩
      obtain ⟨p', e, rp'⟩ := otherStep_eq pix p r j bits _ rp (by omega) (by omega) (by omega)
      have hv := other_pred n (otherCode bits n h) r j hj pix0 pix i
      rw [hk j hj] at hv
      rw [hv] at e
      exact ⟨_, e, rp', other_col n _ pix0 r j pix i⟩)
  obtain ⟨k1, k2, k3⟩ := i1
  rw [if_neg (by omega)] at k3
  obtain ⟨k4, k5, _⟩ := k3
  dsimp only at k1 k2 k4 k5 rp
  refine ⟨p1, pix1, ?_, rp, ?_, ?_, ?_, ?_⟩
  · rw [otherRow, show (r + 2) % 2 = r % 2 by omega, hcnt]
    exact e
  · intro r' hr' hp' j hj
    by_cases hrr : r' = r
    · subst hrr; exact k4 j hj
    · exact k1 r' (by omega) (by omega) j hj
  · intro a b hab
    exact k2 a b (by omega)
  · rw [if_neg (by omega), show (r + 2) % 2 = r % 2 by omega]
    exact k5
  · intro h; omega

theorem others_ok (n h rb : Nat) (hn : 0 < n) (hn2 : n ≤ 320) (hh : h ≤ 480) (hrb : rb < 2) (bits : List Bool) (k : Nat)
    (hk : ∀ i j, rb + 2 * i < h → j < n → otherCode bits n h (rb + 2 * i) j = field bits (k + 2 * (i * n) + 2 * j) 2)
    (hl : k + 2 * ((h - rb + 1) / 2 * n) ≤ bits.length) (p : PumpMSB) (hp : p.Rep (bits.drop k)) (pix0 : Pix)
    (h0 : ∀ a b, (a + b) % 2 = 1 → a % 2 = rb % 2 → pix0 a b = 128) :
    ∃ p' pix', others (2 * n) h rb (p, pix0) = .ok (p', pix') ∧ p'.Rep (bits.drop (k + 2 * ((h - rb + 1) / 2 * n))) ∧
      (∀ r, r < h → r % 2 = rb → ∀ j, j < n → pix' (r + 2) (3 - r % 2 + 2 * j) = other (otherCode bits n h) r j) ∧ Same rb pix0 pix' := by
  obtain ⟨⟨p1, pix1⟩, e, rp, i1⟩ := forN_inv ((h - rb + 1) / 2) (fun i => otherRow (2 * n) (2 + rb + 2 * i))
    (fun i st => st.1.Rep (bits.drop (k + 2 * (i * n))) ∧ RowInvX n (other (otherCode bits n h)) pix0 (rb + 2 * i) st.2) (p, pix0)
    ⟨by simpa using hp, fun r' hr' hp' => absurd hr' (by omega), fun _ _ _ => rfl, by rw [if_pos (by omega)]; exact h0 _ _ (by omega) (by omega),
      fun _ => h0 _ _ (by omega) (by omega)⟩ (by
      rintro i ⟨p, pix⟩ hi ⟨rp, iv⟩
      have hle : (i + 1) * n ≤ (h - rb + 1) / 2 * n := Nat.mul_le_mul_right _ hi
      rw [Nat.succ_mul] at hle
      obtain ⟨p', pix', e, rp', i'⟩ := otherRow_ok n hn hn2 bits h (rb + 2 * i) (k + 2 * (i * n)) (by omega) (fun j hj => hk i j (by omega) hj) (by omega)
        p pix0 pix rp iv
      refine ⟨(p', pix'), ?_, ?_, i'⟩
      · rw [show 2 + rb + 2 * i = rb + 2 * i + 2 by omega]; exact e
      · rw [show k + 2 * ((i + 1) * n) = k + 2 * (i * n) + 2 * n by rw [show (i + 1) * n = i * n + n from Nat.succ_mul i n]; omega]; exact rp')
  refine ⟨p1, pix1, e, rp, ?_, ?_⟩
  · intro r hr hp' j hj
    exact i1.1 r (by omega) (by omega) j hj
  · intro a b hab
    exact i1.2.1 a b (by omega)

/-! ## The third pass -/

theorem mix_ok (n h : Nat) (hn2 : n ≤ 320) (hh : h ≤ 480) (g x : Nat → Nat → Int) (pix0 : Pix) (hg : RowsG n g h pix0)
    (hx : ∀ r, r < h → ∀ j, j < n → pix0 (r + 2) (3 - r % 2 + 2 * j) = x r j) :
    ∃ pix, mix (2 * n) h pix0 = .ok pix ∧ ∀ r c, r < h → c < 2 * n → pix (r + 2) (c + 2) = pixel n g x r c := by
  have hinner : ∀ r pix, r < h → ((∀ a b, (a + b) % 2 = 0 ∨ r + 2 ≤ a → pix a b = pix0 a b) ∧
      ∀ r' j, r' < r → j < n → pix (r' + 2) (3 - r' % 2 + 2 * j) = pixel n g x r' (1 - r' % 2 + 2 * j)) →
      ∃ pix', forN ((2 * n + 2 - (3 - (r + 2) % 2) + 1) / 2) (fun j => mixStep (r + 2) (3 - (r + 2) % 2 + 2 * j)) pix = .ok pix' ∧
        (∀ a b, (a + b) % 2 = 0 ∨ r + 1 + 2 ≤ a → pix' a b = pix0 a b) ∧
        ∀ r' j, r' < r + 1 → j < n → pix' (r' + 2) (3 - r' % 2 + 2 * j) = pixel n g x r' (1 - r' % 2 + 2 * j) := by
    rintro r pix hr ⟨a1, a2⟩
    rw [show (2 * n + 2 - (3 - (r + 2) % 2) + 1) / 2 = n by omega, show (r + 2) % 2 = r % 2 by omega]
    obtain ⟨pix', e, i1, i2, i3, i4⟩ := forN_inv n (fun j => mixStep (r + 2) (3 - r % 2 + 2 * j))
      (fun k pix => (∀ a b, (a + b) % 2 = 0 ∨ r + 1 + 2 ≤ a → pix a b = pix0 a b) ∧
        (∀ r' j, r' < r → j < n → pix (r' + 2) (3 - r' % 2 + 2 * j) = pixel n g x r' (1 - r' % 2 + 2 * j)) ∧
        (∀ j, j < k → pix (r + 2) (3 - r % 2 + 2 * j) = pixel n g x r (1 - r % 2 + 2 * j)) ∧
        ∀ j, k ≤ j → pix (r + 2) (3 - r % 2 + 2 * j) = pix0 (r + 2) (3 - r % 2 + 2 * j)) pix
      ⟨fun a b h => a1 a b (by omega), a2, fun j hj => absurd hj (by omega), fun j _ => a1 _ _ (by omega)⟩ (by
        rintro k pix hk ⟨b1, b2, b3, b4⟩
        refine ⟨put pix (r + 2) (3 - r % 2 + 2 * k) (pixel n g x r (1 - r % 2 + 2 * k)), ?_, ?_, ?_, ?_, ?_⟩
        · rw [mixStep]
          simp only [bind, Except.bind]
          rw [get_ok _ _ _ (by omega) (by omega)]
          simp only []
          rw [get_ok _ _ _ (by omega) (by omega)]
          simp only []
          rw [get_ok _ _ _ (by omega) (by omega)]
          simp only []
          rw [set_ok _ _ _ _ (by omega) (by omega), b4 k (Nat.le_refl _), hx r hr k hk, b1 _ _ (by omega), b1 _ _ (by omega),
            hg r hr _ (by omega) (by omega), hg r hr _ (by omega) (by omega), clamp_byte]
          congr 2
          rw [pixel, if_neg (by omega)]
          dsimp only
          have hc2 : (1 - r % 2 + 2 * k) / 2 = k := by omega
          rw [hc2]
          have hL : g r (min ((3 - r % 2 + 2 * k - 1 - 2) / 2) (n - 1)) = if r % 2 = 0 then g r k else g r (k - 1) := by
            split <;> (congr 1; omega)
          have hR : g r (min ((3 - r % 2 + 2 * k + 1 - 2) / 2) (n - 1)) = if r % 2 = 0 then g r (min (k + 1) (n - 1)) else g r k := by
            split <;> (congr 1; omega)
          rw [hL, hR, Int.mul_comm (x r k) 4]
        · intro a b hab
          rw [put, if_neg (by omega)]
          exact b1 a b hab
        · intro r' j hr' hj
          rw [put, if_neg (by omega)]
          exact b2 r' j hr' hj
        · intro j hj
          rw [put]
          split
          · next h => congr 1; omega
          · exact b3 j (by omega)
        · intro j hj
          rw [put, if_neg (by omega)]
          exact b4 j (by omega))
    refine ⟨pix', e, i1, ?_⟩
    intro r' j hr' hj
    by_cases hrr : r' = r
    · subst hrr; exact i3 j hj
    · exact i2 r' j (by omega) hj
  obtain ⟨pix, e, i1, i2⟩ := forN_inv h _ (fun r pix => (∀ a b, (a + b) % 2 = 0 ∨ r + 2 ≤ a → pix a b = pix0 a b) ∧
      ∀ r' j, r' < r → j < n → pix (r' + 2) (3 - r' % 2 + 2 * j) = pixel n g x r' (1 - r' % 2 + 2 * j)) pix0
      ⟨fun _ _ _ => rfl, fun _ _ hr => absurd hr (by omega)⟩ (fun r pix hr hi => hinner r pix hr hi)
  refine ⟨pix, e, ?_⟩
  intro r c hr hc
  by_cases hp : (r + c) % 2 = 0
  · rw [i1 _ _ (by omega), hg r hr _ (by omega) (by omega), pixel, if_pos hp]
    congr 1
    omega
  · have := i2 r (c / 2) hr (by omega)
    rw [show 3 - r % 2 + 2 * (c / 2) = c + 2 by omega, show 1 - r % 2 + 2 * (c / 2) = c by omega] at this
    exact this

end Verif.Qtk
