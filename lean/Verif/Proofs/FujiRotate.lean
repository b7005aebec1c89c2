import Verif.Model.FujiRotate
import Verif.Spec.FujiRotate
import Verif.Spec.Image
import Verif.Proofs.Grid
import Verif.Proofs.Holds
import Mathlib.Tactic.Linarith
import Mathlib.Tactic.Ring
import Mathlib.Tactic.FieldSimp
import Mathlib.Algebra.Order.Floor.Ring
/-! # Lemmas for C86 -/

namespace Verif.FujiRotate
open Verif Verif.Pix Verif.Color Verif.Spec Verif.Spec.FujiRotate

theorem round_near (q : ℚ) : |q - round q| ≤ 1 / 2 := by
  unfold round
  split
  · have h1 := Int.floor_le (q + 1 / 2)
    have h2 := Int.lt_floor_add_one (q + 1 / 2)
    rw [abs_le]; constructor <;> linarith
  · have h1 := Int.floor_le (-q + 1 / 2)
    have h2 := Int.lt_floor_add_one (-q + 1 / 2)
    push_cast
    rw [abs_le]; constructor <;> linarith

theorem round_neg (q : ℚ) : round q < 0 ↔ q ≤ -1 / 2 := by
  unfold round
  split
  · rename_i h
    have : (0 : Int) ≤ ⌊q + 1 / 2⌋ := Int.floor_nonneg.mpr (by linarith)
    constructor
    · intro h'; omega
    · intro h'; linarith
  · rename_i h
    constructor
    · intro h'
      have : (1 : Int) ≤ ⌊-q + 1 / 2⌋ := by omega
      have := Int.le_floor.mp this
      push_cast at this
      linarith
    · intro h'
      have : (1 : Int) ≤ ⌊-q + 1 / 2⌋ := Int.le_floor.mpr (by push_cast; linarith)
      omega

theorem round_ge (q : ℚ) (n : Nat) (hq : -1 / 2 < q) : (n : Int) ≤ round q ↔ (n : ℚ) - 1 / 2 ≤ q := by
  unfold round
  split
  · rw [Int.le_floor]
    push_cast
    constructor <;> intro h <;> linarith
  · rename_i h
    have h1 : ⌊-q + 1 / 2⌋ = 0 := by
      rw [Int.floor_eq_iff]
      push_cast
      constructor <;> linarith
    rw [h1]
    constructor
    · intro h'
      have : n = 0 := by omega
      subst this
      push_cast; linarith
    · intro h'
      have hn : (n : ℚ) < 1 := by linarith
      have : n < 1 := by exact_mod_cast hn
      omega

/-- The pixel is not skipped -/
def Seen (w h : Nat) (x y : ℚ) : Prop := -1 / 2 < x ∧ x < w - 1 / 2 ∧ -1 / 2 < y ∧ y < h - 1 / 2

theorem blend_eq (f : Nat → Nat → ℚ) (x y : ℚ) :
    blend (x - ⌊x⌋) (y - ⌊y⌋) (f ⌊y⌋.toNat ⌊x⌋.toNat) (f ⌊y⌋.toNat (⌊x⌋.toNat + 1)) (f (⌊y⌋.toNat + 1) ⌊x⌋.toNat) (f (⌊y⌋.toNat + 1) (⌊x⌋.toNat + 1)) =
      between f x y := by
  unfold blend between
  ring

theorem at_ok {src : Pix Rgb} {f : Nat → Nat → Rgb} (hs : Holds src.data src.width src.height f) {r c : Nat} (hr : r < src.height) (hc : c < src.width) :
    src.at' r c = .ok (f r c) := by
  unfold Pix.at' idx
  rw [hs.2 r c hr hc]

theorem turnPixel_ok (src : Pix Rgb) (f : Nat → Nat → Rgb) (hs : Holds src.data src.width src.height f) (W H row col : Nat) :
    ∃ p, turnPixel src W H row col = .ok p ∧
      (Seen src.width src.height (fromX src.width W H row col) (fromY src.height W H row col) →
        ∀ k, Shows (fun r c => chan k (f r c)) src.width src.height (fromX src.width W H row col) (fromY src.height W H row col) (chan k p)) ∧
      (¬ Seen src.width src.height (fromX src.width W H row col) (fromY src.height W H row col) → p = (0, 0, 0)) := by
  unfold turnPixel
  simp only
  have ex : ((col : ℚ) - (W : ℚ) / 2 + ((row : ℚ) - (H : ℚ) / 2)) * invSqrt2 + (src.width : ℚ) / 2 = fromX src.width W H row col := by
    unfold fromX invSqrt2 cos45; ring
  have ey : ((row : ℚ) - (H : ℚ) / 2 - ((col : ℚ) - (W : ℚ) / 2)) * invSqrt2 + (src.height : ℚ) / 2 = fromY src.height W H row col := by
    unfold fromY invSqrt2 cos45; ring
  rw [ex, ey]
  generalize fromX src.width W H row col = x
  generalize fromY src.height W H row col = y
  split
  · rename_i h
    refine ⟨_, rfl, ?_, fun _ => rfl⟩
    intro hsn
    exfalso
    obtain ⟨h1, h2, h3, h4⟩ := hsn
    rw [round_neg, round_neg, round_ge x _ h1, round_ge y _ h3] at h
    rcases h with h | h | h | h <;> linarith
  · rename_i h
    simp only [not_or, Int.not_lt, Int.not_le] at h
    obtain ⟨h1, h2, h3, h4⟩ := h
    have hsn : Seen src.width src.height x y := by
      have a1 : -1 / 2 < x := by
        by_contra hc
        have := (round_neg x).mpr (by linarith)
        omega
      have a3 : -1 / 2 < y := by
        by_contra hc
        have := (round_neg y).mpr (by linarith)
        omega
      refine ⟨a1, ?_, a3, ?_⟩
      · by_contra hc
        have := (round_ge x src.width a1).mpr (by linarith)
        omega
      · by_contra hc
        have := (round_ge y src.height a3).mpr (by linarith)
        omega
    have henc : (⌊x⌋ < 0 ∨ ⌊y⌋ < 0 ∨ (src.width : Int) ≤ ⌊x⌋ + 1 ∨ (src.height : Int) ≤ ⌊y⌋ + 1) ↔ ¬ Enclosed src.width src.height x y := by
      unfold Enclosed
      rw [← Int.floor_nonneg (a := x), ← Int.floor_nonneg (a := y)]
      omega
    split
    · rename_i hb
      have hne := henc.mp hb
      rw [at_ok hs (by omega) (by omega)]
      refine ⟨_, rfl, ?_, fun hn => absurd hsn hn⟩
      intro _ k
      refine ⟨fun he => absurd he hne, fun _ => ⟨(round y).toNat, (round x).toNat, by omega, by omega, ?_, ?_, rfl⟩⟩
      · have := round_near y
        rwa [show (((round y).toNat : Nat) : ℚ) = ((round y : Int) : ℚ) by
          rw [show ((round y : Int) : ℚ) = (((round y).toNat : Int) : ℚ) by rw [Int.toNat_of_nonneg h3]]; rfl]
      · have := round_near x
        rwa [show (((round x).toNat : Nat) : ℚ) = ((round x : Int) : ℚ) by
          rw [show ((round x : Int) : ℚ) = (((round x).toNat : Int) : ℚ) by rw [Int.toNat_of_nonneg h1]]; rfl]
    · rename_i hb
      have he : Enclosed src.width src.height x y := by
        by_contra hc
        exact hb (henc.mpr hc)
      obtain ⟨b1, b2, b3, b4⟩ := he
      have c1 : 0 ≤ ⌊x⌋ := Int.floor_nonneg.mpr b1
      have c2 : 0 ≤ ⌊y⌋ := Int.floor_nonneg.mpr b2
      have d1 : (⌊x⌋ + 1).toNat = ⌊x⌋.toNat + 1 := by omega
      have d2 : (⌊y⌋ + 1).toNat = ⌊y⌋.toNat + 1 := by omega
      rw [d1, d2, at_ok hs (by omega) (by omega), at_ok hs (by omega) (by omega), at_ok hs (by omega) (by omega), at_ok hs (by omega) (by omega)]
      refine ⟨_, rfl, ?_, fun hn => absurd hsn hn⟩
      intro _ k
      refine ⟨fun _ => ?_, fun hn => absurd ⟨b1, b2, b3, b4⟩ hn⟩
      rw [← blend_eq]
      unfold chan
      split
      · rfl
      · split <;> rfl

theorem genRows_exists {α : Type} (h w : Nat) (f : Nat → Nat → R α) (P : Nat → Nat → α → Prop) (hf : ∀ r c, r < h → c < w → ∃ p, f r c = .ok p ∧ P r c p) [Inhabited α] :
    ∃ (l : List α) (g : Nat → Nat → α), genRows h w f = .ok l ∧ Holds l w h g ∧ ∀ r c, r < h → c < w → P r c (g r c) := by
  have hg : ∃ g : Nat → Nat → α, ∀ r c, r < h → c < w → f r c = .ok (g r c) ∧ P r c (g r c) := by
    refine ⟨fun r c => if hh : r < h ∧ c < w then (hf r c hh.1 hh.2).choose else default, ?_⟩
    intro r c hr hc
    simp only [dif_pos (show r < h ∧ c < w from ⟨hr, hc⟩)]
    exact (hf r c hr hc).choose_spec
  obtain ⟨g, hg⟩ := hg
  exact ⟨_, g, genRows_ok h w f g (fun r c hr hc => (hg r c hr hc).1), holds_flatMap _ _ _, fun r c hr hc => (hg r c hr hc).2⟩

theorem rotate45_ok (src : Pix Rgb) (f : Nat → Nat → Rgb) (hs : Holds src.data src.width src.height f) (t W H : Nat) (hd : calcDimension src.width t = (W, H)) :
    ∃ out g, rotate45 src t = .ok ⟨W, H, out⟩ ∧ Holds out W H g ∧ ∀ row col, row < H → col < W →
      (Seen src.width src.height (fromX src.width W H row col) (fromY src.height W H row col) →
        ∀ k, Shows (fun r c => chan k (f r c)) src.width src.height (fromX src.width W H row col) (fromY src.height W H row col) (chan k (g row col))) ∧
      (¬ Seen src.width src.height (fromX src.width W H row col) (fromY src.height W H row col) → g row col = (0, 0, 0)) := by
  unfold rotate45
  rw [hd]
  obtain ⟨l, g, h1, h2, h3⟩ := genRows_exists H W (turnPixel src W H) _ (fun r c _ _ => turnPixel_ok src f hs W H r c)
  refine ⟨l, g, ?_, h2, h3⟩
  simp only [h1]
  rfl

/-! ## Sizes -/

theorem sqrt2_le : (2 : ℚ) ≤ sqrt2 ^ 2 ∧ sqrt2 ^ 2 ≤ 2 + 1 / 2 ^ 51 ∧ 0 < sqrt2 := by
  unfold sqrt2; refine ⟨?_, ?_, ?_⟩ <;> norm_num

theorem floor_sqrt2 (t : Nat) (ht : t < 2 ^ 24) : ⌊(t : ℚ) * sqrt2⌋.toNat = Nat.sqrt (2 * t ^ 2) := by
  obtain ⟨a1, a2, a3⟩ := sqrt2_le
  have h1 : Nat.sqrt (2 * t ^ 2) ^ 2 ≤ 2 * t ^ 2 := Nat.sqrt_le' _
  have h2 : 2 * t ^ 2 < (Nat.sqrt (2 * t ^ 2) + 1) ^ 2 := Nat.lt_succ_sqrt' _
  generalize Nat.sqrt (2 * t ^ 2) = n at h1 h2
  have h1q : (n : ℚ) ^ 2 ≤ 2 * (t : ℚ) ^ 2 := by exact_mod_cast h1
  have h2q : 2 * (t : ℚ) ^ 2 + 1 ≤ ((n : ℚ) + 1) ^ 2 := by exact_mod_cast h2
  have ht0 : (0 : ℚ) ≤ t := Nat.cast_nonneg t
  have hn0 : (0 : ℚ) ≤ n := Nat.cast_nonneg n
  have htq : (t : ℚ) < 2 ^ 24 := by exact_mod_cast ht
  have ht2 : (t : ℚ) ^ 2 < 2 ^ 48 := by nlinarith
  have hsq : ((t : ℚ) * sqrt2) ^ 2 = (t : ℚ) ^ 2 * sqrt2 ^ 2 := by ring
  have e : ⌊(t : ℚ) * sqrt2⌋ = (n : Int) := by
    rw [Int.floor_eq_iff]
    push_cast
    constructor
    · refine abs_le_of_sq_le_sq' ?_ (by positivity) |>.2
      rw [hsq]; nlinarith
    · refine lt_of_pow_lt_pow_left₀ 2 (by positivity) ?_
      rw [hsq]
      have : (t : ℚ) ^ 2 * sqrt2 ^ 2 ≤ (t : ℚ) ^ 2 * (2 + 1 / 2 ^ 51) := mul_le_mul_of_nonneg_left a2 (by positivity)
      have : (t : ℚ) ^ 2 * (1 / 2 ^ 51) < 1 := by
        have : (t : ℚ) ^ 2 * (1 / 2 ^ 51) < 2 ^ 48 * (1 / 2 ^ 51) := mul_lt_mul_of_pos_right ht2 (by positivity)
        have : (2 : ℚ) ^ 48 * (1 / 2 ^ 51) < 1 := by norm_num
        linarith
      linarith
  rw [e]; rfl

theorem calcDimension_eq (w t : Nat) (ht : t ≤ w) (hw : w < 2 ^ 24) :
    calcDimension w t = (max (Nat.sqrt (2 * t ^ 2)) (Nat.sqrt (2 * (w - t) ^ 2)), min (Nat.sqrt (2 * t ^ 2)) (Nat.sqrt (2 * (w - t) ^ 2))) := by
  unfold calcDimension
  have e : ((w : ℚ) - t) = ((w - t : Nat) : ℚ) := by rw [Nat.cast_sub ht]
  simp only
  rw [e, floor_sqrt2 t (by omega), floor_sqrt2 (w - t) (by omega)]
  split
  · rw [max_eq_left (by omega), min_eq_right (by omega)]
  · rw [max_eq_right (by omega), min_eq_left (by omega)]

theorem toNat_floor_le (q : ℚ) (hq : 0 ≤ q) : ((⌊q⌋.toNat : Nat) : ℚ) ≤ q := by
  have h := Int.floor_le q
  have h0 : 0 ≤ ⌊q⌋ := Int.floor_nonneg.mpr hq
  rw [show ((⌊q⌋.toNat : Nat) : ℚ) = ((⌊q⌋ : Int) : ℚ) by
    rw [show ((⌊q⌋ : Int) : ℚ) = ((⌊q⌋.toNat : Int) : ℚ) by rw [Int.toNat_of_nonneg h0]]; rfl]
  exact h

theorem calcDimension_sum (w t W H : Nat) (ht : t ≤ w) (hd : calcDimension w t = (W, H)) : (W : ℚ) + H ≤ w * sqrt2 := by
  obtain ⟨_, _, a3⟩ := sqrt2_le
  have h1 := toNat_floor_le ((t : ℚ) * sqrt2) (by positivity)
  have htq : (t : ℚ) ≤ w := by exact_mod_cast ht
  have h2 := toNat_floor_le (((w : ℚ) - t) * sqrt2) (mul_nonneg (by linarith) a3.le)
  unfold calcDimension at hd
  simp only at hd
  split at hd
  · obtain ⟨rfl, rfl⟩ := Prod.mk.inj hd
    linarith
  · obtain ⟨rfl, rfl⟩ := Prod.mk.inj hd
    linarith

theorem cos45_bounds : (7 : ℚ) / 10 < cos45 ∧ cos45 < 71 / 100 ∧ cos45 * sqrt2 ≤ 1 + 1 / 2 ^ 52 := by
  unfold cos45 sqrt2; refine ⟨?_, ?_, ?_⟩ <;> norm_num

/-- All pixels but the lower left one are seen when the picture has at most one column more than rows. -/
theorem seen (w h t W H row col : Nat) (ht : t ≤ w) (hw : w < 2 ^ 24) (hwh : w ≤ h + 1) (hd : calcDimension w t = (W, H)) (hr : row < H) (hc : col < W)
    (hcorner : w ≤ h ∨ row + 1 < H ∨ 0 < col) : Seen w h (fromX w W H row col) (fromY h W H row col) := by
  have hs := calcDimension_sum w t W H ht hd
  obtain ⟨c1, c2, c3⟩ := cos45_bounds
  have c0 : 0 < cos45 := by linarith
  have hwq : (w : ℚ) < 2 ^ 24 := by exact_mod_cast hw
  have hw0 : (0 : ℚ) ≤ w := Nat.cast_nonneg w
  have hhq : (w : ℚ) ≤ h + 1 := by exact_mod_cast hwh
  have hrq : (row : ℚ) + 1 ≤ H := by exact_mod_cast hr
  have hcq : (col : ℚ) + 1 ≤ W := by exact_mod_cast hc
  have hr0 : (0 : ℚ) ≤ row := Nat.cast_nonneg row
  have hc0 : (0 : ℚ) ≤ col := Nat.cast_nonneg col
  -- the reach of half the sum of the sides
  have reach : cos45 * ((W : ℚ) + H) ≤ w + 1 / 2 ^ 20 := by
    have e1 : cos45 * ((W : ℚ) + H) ≤ cos45 * (w * sqrt2) := mul_le_mul_of_nonneg_left hs c0.le
    have e2 : cos45 * (w * sqrt2) = w * (cos45 * sqrt2) := by ring
    have e3 : (w : ℚ) * (cos45 * sqrt2) ≤ w * (1 + 1 / 2 ^ 52) := mul_le_mul_of_nonneg_left c3 hw0
    have e4 : (w : ℚ) * (1 / 2 ^ 52) ≤ 2 ^ 24 * (1 / 2 ^ 52) := mul_le_mul_of_nonneg_right hwq.le (by positivity)
    have e5 : (2 : ℚ) ^ 24 * (1 / 2 ^ 52) ≤ 1 / 2 ^ 20 := by norm_num
    linarith
  have tiny : (1 : ℚ) / 2 ^ 20 < 1 / 100 := by norm_num
  have m1 : 0 ≤ cos45 * ((col : ℚ) + row) := by positivity
  have m2 : cos45 * ((col : ℚ) + row) ≤ cos45 * ((W : ℚ) + H - 2) := mul_le_mul_of_nonneg_left (by linarith) c0.le
  have m3 : cos45 * ((row : ℚ) - col) ≤ cos45 * ((H : ℚ) - 1) := mul_le_mul_of_nonneg_left (by linarith) c0.le
  have m4 : cos45 * (1 - (W : ℚ)) ≤ cos45 * ((row : ℚ) - col) := mul_le_mul_of_nonneg_left (by linarith) c0.le
  unfold Seen fromX fromY
  refine ⟨?_, ?_, ?_, ?_⟩
  · nlinarith
  · nlinarith
  · nlinarith
  · rcases hcorner with hh | hh
    · have hhq' : (w : ℚ) ≤ h := by exact_mod_cast hh
      nlinarith
    · have m5 : cos45 * ((row : ℚ) - col) ≤ cos45 * ((H : ℚ) - 2) := by
        refine mul_le_mul_of_nonneg_left ?_ c0.le
        rcases hh with hh | hh
        · have : (row : ℚ) + 2 ≤ H := by exact_mod_cast hh
          linarith
        · have : (1 : ℚ) ≤ col := by exact_mod_cast hh
          linarith
      nlinarith

/-! ## What a picture shows -/

theorem between_le (f : Nat → Nat → ℚ) (w h : Nat) (x y hi : ℚ) (he : Enclosed w h x y) (hf : ∀ i j, i < h → j < w → f i j ≤ hi) : between f x y ≤ hi := by
  obtain ⟨b1, b2, b3, b4⟩ := he
  have c1 : 0 ≤ ⌊x⌋ := Int.floor_nonneg.mpr b1
  have c2 : 0 ≤ ⌊y⌋ := Int.floor_nonneg.mpr b2
  have u1 := Int.floor_le x
  have u2 := Int.lt_floor_add_one x
  have u3 := Int.floor_le y
  have u4 := Int.lt_floor_add_one y
  unfold between
  simp only
  have p1 := hf ⌊y⌋.toNat ⌊x⌋.toNat (by omega) (by omega)
  have p2 := hf ⌊y⌋.toNat (⌊x⌋.toNat + 1) (by omega) (by omega)
  have p3 := hf (⌊y⌋.toNat + 1) ⌊x⌋.toNat (by omega) (by omega)
  have p4 := hf (⌊y⌋.toNat + 1) (⌊x⌋.toNat + 1) (by omega) (by omega)
  generalize f ⌊y⌋.toNat ⌊x⌋.toNat = a at *
  generalize f ⌊y⌋.toNat (⌊x⌋.toNat + 1) = b at *
  generalize f (⌊y⌋.toNat + 1) ⌊x⌋.toNat = c at *
  generalize f (⌊y⌋.toNat + 1) (⌊x⌋.toNat + 1) = d at *
  generalize hX : x - ⌊x⌋ = X
  generalize hY : y - ⌊y⌋ = Y
  have X0 : 0 ≤ X := by linarith
  have X1 : 0 ≤ 1 - X := by linarith
  have Y0 : 0 ≤ Y := by linarith
  have Y1 : 0 ≤ 1 - Y := by linarith
  have q1 : a + (b - a) * X ≤ hi := by
    have := mul_le_mul_of_nonneg_right p1 X1
    have := mul_le_mul_of_nonneg_right p2 X0
    linarith
  have q2 : c + (d - c) * X ≤ hi := by
    have := mul_le_mul_of_nonneg_right p3 X1
    have := mul_le_mul_of_nonneg_right p4 X0
    linarith
  have := mul_le_mul_of_nonneg_right q1 Y1
  have := mul_le_mul_of_nonneg_right q2 Y0
  linarith

theorem between_neg (f : Nat → Nat → ℚ) (x y : ℚ) : between (fun i j => -f i j) x y = -between f x y := by
  unfold between
  ring

theorem shows_le (f : Nat → Nat → ℚ) (w h : Nat) (x y v hi : ℚ) (hv : Shows f w h x y v) (hf : ∀ i j, i < h → j < w → f i j ≤ hi) : v ≤ hi := by
  by_cases he : Enclosed w h x y
  · rw [hv.1 he]; exact between_le f w h x y hi he hf
  · obtain ⟨i, j, hi', hj, _, _, rfl⟩ := hv.2 he
    exact hf i j hi' hj

theorem shows_ge (f : Nat → Nat → ℚ) (w h : Nat) (x y v lo : ℚ) (hv : Shows f w h x y v) (hf : ∀ i j, i < h → j < w → lo ≤ f i j) : lo ≤ v := by
  by_cases he : Enclosed w h x y
  · rw [hv.1 he]
    have := between_le (fun i j => -f i j) w h x y (-lo) he (fun i j hi hj => by have := hf i j hi hj; linarith)
    rw [between_neg] at this
    linarith
  · obtain ⟨i, j, hi', hj, _, _, rfl⟩ := hv.2 he
    exact hf i j hi' hj

theorem shows_ramp (f : Nat → Nat → ℚ) (w h : Nat) (x y v a b d : ℚ) (hv : Shows f w h x y v) (hf : ∀ i j, i < h → j < w → f i j = a + b * j + d * i) :
    (Enclosed w h x y → v = a + b * x + d * y) ∧ |v - (a + b * x + d * y)| ≤ (|b| + |d|) / 2 := by
  by_cases he : Enclosed w h x y
  · have e : v = a + b * x + d * y := by
      rw [hv.1 he]
      obtain ⟨b1, b2, b3, b4⟩ := he
      have c1 : 0 ≤ ⌊x⌋ := Int.floor_nonneg.mpr b1
      have c2 : 0 ≤ ⌊y⌋ := Int.floor_nonneg.mpr b2
      unfold between
      simp only
      rw [hf _ _ (by omega) (by omega), hf _ _ (by omega) (by omega), hf _ _ (by omega) (by omega), hf _ _ (by omega) (by omega)]
      have e1 : ((⌊x⌋.toNat : Nat) : ℚ) = ((⌊x⌋ : Int) : ℚ) := by
        rw [show ((⌊x⌋ : Int) : ℚ) = ((⌊x⌋.toNat : Int) : ℚ) by rw [Int.toNat_of_nonneg c1]]; rfl
      have e2 : ((⌊y⌋.toNat : Nat) : ℚ) = ((⌊y⌋ : Int) : ℚ) := by
        rw [show ((⌊y⌋ : Int) : ℚ) = ((⌊y⌋.toNat : Int) : ℚ) by rw [Int.toNat_of_nonneg c2]]; rfl
      push_cast
      rw [e1, e2]
      ring
    refine ⟨fun _ => e, ?_⟩
    rw [e, sub_self, abs_zero]
    positivity
  · refine ⟨fun h => absurd h he, ?_⟩
    obtain ⟨i, j, hi, hj, ei, ej, rfl⟩ := hv.2 he
    rw [hf i j hi hj, show a + b * j + d * i - (a + b * x + d * y) = -(b * (x - j) + d * (y - i)) by ring, abs_neg]
    refine (abs_add_le _ _).trans ?_
    rw [abs_mul, abs_mul]
    have := mul_le_mul_of_nonneg_left ej (abs_nonneg b)
    have := mul_le_mul_of_nonneg_left ei (abs_nonneg d)
    linarith

end Verif.FujiRotate
