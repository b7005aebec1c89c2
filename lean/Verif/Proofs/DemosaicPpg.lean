import Verif.Proofs.Demosaic
import Verif.Props.Dng
import Mathlib.Tactic.Linarith
import Mathlib.Tactic.FieldSimp
/-! # PPG as a whole -/

namespace Verif.Demosaic
open Verif.Spec.Demosaic
open Verif Verif.Dng Verif.Pix

theorem pick (n e w s a b c d : ℚ) :
    (let min := n
     let min := if e < min then e else min
     let min := if w < min then w else min
     let min := if s < min then s else min
     if min = n then a else if min = e then b else if min = w then c else d) =
    if n ≤ e ∧ n ≤ w ∧ n ≤ s then a else if e ≤ w ∧ e ≤ s then b else if w ≤ s then c else d := by
  have key : ∀ (x y : ℚ), (if y < x then y else x) ≤ x ∧ (if y < x then y else x) ≤ y ∧ ((if y < x then y else x) = x ∨ (if y < x then y else x) = y) := by
    intro x y
    split_ifs with h
    · exact ⟨le_of_lt h, le_refl _, .inr rfl⟩
    · exact ⟨le_refl _, le_of_not_gt h, .inl rfl⟩
  simp only []
  have k1 := key n e
  generalize (if e < n then e else n) = m1 at k1 ⊢
  have k2 := key m1 w
  generalize (if w < m1 then w else m1) = m2 at k2 ⊢
  have k3 := key m2 s
  generalize (if s < m2 then s else m2) = m at k3 ⊢
  have a1 : m ≤ n := le_trans k3.1 (le_trans k2.1 k1.1)
  have a2 : m ≤ e := le_trans k3.1 (le_trans k2.1 k1.2.1)
  have a3 : m ≤ w := le_trans k3.1 k2.2.1
  have a4 : m ≤ s := k3.2.1
  have a5 : m = n ∨ m = e ∨ m = w ∨ m = s := by
    rcases k3.2.2 with h | h
    · rcases k2.2.2 with h' | h'
      · rcases k1.2.2 with h'' | h''
        · exact .inl (h.trans (h'.trans h''))
        · exact .inr (.inl (h.trans (h'.trans h'')))
      · exact .inr (.inr (.inl (h.trans h')))
    · exact .inr (.inr (.inr h))
  clear k1 k2 k3 key
  by_cases c1 : n ≤ e ∧ n ≤ w ∧ n ≤ s
  · rw [if_pos c1, if_pos]
    rcases a5 with h | h | h | h
    · exact h
    · exact le_antisymm a1 (h ▸ c1.1)
    · exact le_antisymm a1 (h ▸ c1.2.1)
    · exact le_antisymm a1 (h ▸ c1.2.2)
  · rw [if_neg c1, if_neg (fun h : m = n => c1 ⟨h ▸ a2, h ▸ a3, h ▸ a4⟩)]
    by_cases c2 : e ≤ w ∧ e ≤ s
    · rw [if_pos c2, if_pos]
      rcases a5 with h | h | h | h
      · exact absurd ⟨h ▸ a2, h ▸ a3, h ▸ a4⟩ c1
      · exact h
      · exact le_antisymm a2 (h ▸ c2.1)
      · exact le_antisymm a2 (h ▸ c2.2)
    · rw [if_neg c2, if_neg (fun h : m = e => c2 ⟨h ▸ a3, h ▸ a4⟩)]
      by_cases c3 : w ≤ s
      · rw [if_pos c3, if_pos]
        rcases a5 with h | h | h | h
        · exact absurd ⟨h ▸ a2, h ▸ a3, h ▸ a4⟩ c1
        · exact absurd ⟨h ▸ a3, h ▸ a4⟩ c2
        · exact h
        · exact le_antisymm a3 (h ▸ c3)
      · rw [if_neg c3, if_neg (fun h : m = w => c3 (h ▸ a4))]

theorem greenValue_eq (f : Nat → Nat → ℚ) (r c : Nat) :
    greenValue (f r c) (f (r - 1) c) (f (r - 2) c) (f r (c + 1)) (f r (c + 2)) (f (r + 1) c) (f (r + 2) c) (f r (c - 1)) (f r (c - 2)) =
      greenInside f r c := by
  have := pick (|f r c - f (r - 2) c| * 2 + |f (r - 1) c - f (r + 1) c|) (|f r c - f r (c + 2)| * 2 + |f r (c - 1) - f r (c + 1)|)
    (|f r c - f r (c - 2)| * 2 + |f r (c - 1) - f r (c + 1)|) (|f r c - f (r + 2) c| * 2 + |f (r - 1) c - f (r + 1) c|)
    ((f (r - 1) c * 3 + f (r + 1) c + f r c - f (r - 2) c) / 4) ((f r (c + 1) * 3 + f r (c - 1) + f r c - f r (c + 2)) / 4)
    ((f r (c - 1) * 3 + f r (c + 1) + f r c - f r (c - 2)) / 4) ((f (r + 1) c * 3 + f (r - 1) c + f r c - f (r + 2) c) / 4)
  simp only [greenValue, greenInside, mul_comm (2 : ℚ), mul_comm (3 : ℚ)]
  exact this

theorem hue_eq (a b c d e : ℚ) : hueTransit a b c d e = hue a b c d e := by
  unfold hueTransit hue
  have : (a < b ∧ b < c ∨ a > b ∧ b > c) ↔ (a < b ∧ b < c ∨ c < b ∧ b < a) := by
    constructor <;> rintro (h | h) <;> first | exact .inl h | exact .inr ⟨h.2, h.1⟩
  by_cases h : a < b ∧ b < c ∨ c < b ∧ b < a
  · rw [if_pos h, if_pos (this.mpr h)]
  · rw [if_neg h, if_neg (fun h' => h (this.mp h')), mul_comm]

theorem inner_iff {w h r c : Nat} : Inner w h r c ↔ ¬ OnFrame w h r c := by
  unfold Inner OnFrame; omega

/-- The four stages -/
theorem stages {f : Nat → Nat → ℚ} {col : Nat → Nat → Nat} (B : BayerCol col) {w h fuel : Nat} (hw : 6 ≤ w) (hh : 6 ≤ h) {m0 m1 m2 m3 out : Mem}
    (hm : Meas f col w h m0) (h1 : borders fuel w h col m0 = some m1) (h2 : Par (rowTasks w h (greenPixel col)) m1 m2)
    (h3 : Par (rowTasks w h (rbAtGreenPixel col)) m2 m3) (h4 : Par (rowTasks w h (rbAtNonGreenPixel col)) m3 out)
    {r c k : Nat} (hr : r < h) (hc : c < w) (hk : k < 3) : out (r, c, k) = ppg f col w h r c k := by
  have U1 := borders_upd B hw hh hm h1
  have U2 : Upd m1 m2 (S2 col w h) (fin2 col m1) := par_final (inv2 B w h m1) h2
  have U3 : Upd m2 m3 (S3 col w h) (fin3 col m2) := par_final (inv3 B w h m2) h3
  have U4 : Upd m3 out (S4 col w h) (fin4 col m3) := par_final (inv4 B w h m3) h4
  have M1 := U1.meas hm fun d hd => hd.2.2.2.2
  have M2 := U2.meas M1 fun d hd e => hd.2.1 (e.symm.trans hd.2.2)
  have M3 := U3.meas M2 fun d hd e => by
    have h1 := hd.2.1; have h2 := hd.2.2
    omega
  have M4 := U4.meas M3 fun d hd e => by
    have h1 := hd.2.1; have h2 := hd.2.2; have := B.lt d.1 d.2.1
    omega
  -- measured samples at a place whose colour is known
  have at1 : ∀ {y x k}, y < h → x < w → col y x = k → m1 (y, x, k) = f y x := fun hy hx e => e ▸ M1 _ _ hy hx
  have at2 : ∀ {y x k}, y < h → x < w → col y x = k → m2 (y, x, k) = f y x := fun hy hx e => e ▸ M2 _ _ hy hx
  have at3 : ∀ {y x k}, y < h → x < w → col y x = k → m3 (y, x, k) = f y x := fun hy hx e => e ▸ M3 _ _ hy hx
  -- green
  have G2 : ∀ y x, y < h → x < w → m2 (y, x, 1) = green f col w h y x := by
    intro y x hy hx
    unfold green
    by_cases e : col y x = 1
    · rw [if_pos e]; exact at2 hy hx e
    · rw [if_neg e]
      by_cases hf : OnFrame w h y x
      · rw [if_pos hf, (U2 (y, x, 1)).2 (fun hd => inner_iff.mp hd.1 hf)]
        exact (U1 (y, x, 1)).1 ⟨hy, hx, hf, by show 1 < 3; omega, fun e' => e e'.symm⟩
      · rw [if_neg hf]
        have hi := inner_iff.mpr hf
        rw [(U2 (y, x, 1)).1 ⟨hi, e, rfl⟩, fin2]
        obtain ⟨i1, i2, i3, i4⟩ := hi
        have N := nb B i1 i3
        have d1 := (B.right y x).mpr e
        have d2 := (B.down y x).mpr e
        simp only []
        rw [at1 hy hx rfl, at1 (by omega) hx (N.n1.trans d2), at1 (by omega) hx N.n2, at1 hy (by omega) d1, at1 hy (by omega) N.e2,
          at1 (by omega) hx d2, at1 (by omega) hx N.s2, at1 hy (by omega) (N.w1.trans d1), at1 hy (by omega) N.w2]
        exact greenValue_eq f y x
  have G3 : ∀ y x, y < h → x < w → m3 (y, x, 1) = green f col w h y x := by
    intro y x hy hx
    rw [(U3 (y, x, 1)).2 (fun hd => by have := hd.2.2; simp at this)]
    exact G2 y x hy hx
  have G4 : ∀ y x, y < h → x < w → out (y, x, 1) = green f col w h y x := by
    intro y x hy hx
    rw [(U4 (y, x, 1)).2 (fun hd => by
      have h1 := hd.2.1; have h2 := hd.2.2; have := B.lt y x
      simp only at h1 h2
      omega)]
    exact G3 y x hy hx
  unfold ppg
  simp only []
  by_cases e : col r c = k
  · rw [if_pos e]; exact e ▸ M4 r c hr hc
  · rw [if_neg e]
    by_cases e1 : k = 1
    · rw [if_pos e1, e1]; exact G4 r c hr hc
    · rw [if_neg e1]
      by_cases hf : OnFrame w h r c
      · rw [if_pos hf, (U4 _).2 (fun hd => inner_iff.mp hd.1 hf), (U3 _).2 (fun hd => inner_iff.mp hd.1 hf),
          (U2 _).2 (fun hd => inner_iff.mp hd.1 hf)]
        exact (U1 (r, c, k)).1 ⟨hr, hc, hf, hk, fun e' => e e'.symm⟩
      · rw [if_neg hf]
        have hi := inner_iff.mpr hf
        obtain ⟨i1, i2, i3, i4⟩ := id hi
        have N := nb B i1 i3
        by_cases eg : col r c = 1
        · have d1 := B.right r c
          have d2 := B.down r c
          have d3 := B.cross r c eg
          have l := B.lt r (c + 1)
          rw [if_pos eg, (U4 _).2 (fun hd => hd.2.1 eg), (U3 (r, c, k)).1 ⟨hi, eg, show k = 0 ∨ k = 2 by omega⟩, fin3]
          simp only []
          by_cases ek : col r (c + 1) = k
          · rw [if_pos ek, if_pos ek, G2 _ _ hr (by omega), G2 _ _ hr hc, G2 _ _ hr (by omega), at2 hr (by omega) (N.w1.trans ek),
              at2 hr (by omega) ek]
            exact hue_eq ..
          · have ev : col (r + 1) c = k := by
              have : col r (c + 1) ≠ 1 := fun h => d1.mp h eg
              omega
            rw [if_neg ek, if_neg ek, G2 _ _ (by omega) hc, G2 _ _ hr hc, G2 _ _ (by omega) hc, at2 (by omega) hc (N.n1.trans ev),
              at2 (by omega) hc ev]
            exact hue_eq ..
        · have l := B.lt r c
          have ed : col (r + 1) (c + 1) = k := by
            rw [B.diag r c eg]
            omega
          rw [if_neg eg, (U4 (r, c, k)).1 ⟨hi, eg, show k = 2 - col r c by omega⟩, fin4, across]
          simp only [hue_eq]
          rw [at3 (by omega) (by omega) (N.ne.trans ed), at3 (by omega) (by omega) (N.sw.trans ed), at3 (by omega) (by omega) N.ne2,
            at3 hr hc rfl, at3 (by omega) (by omega) N.sw2, at3 (by omega) (by omega) (N.nw.trans ed), at3 (by omega) (by omega) ed,
            at3 (by omega) (by omega) N.nw2, at3 (by omega) (by omega) N.se2, G3 _ _ (by omega) (by omega), G3 _ _ hr hc,
            G3 _ _ (by omega) (by omega), G3 _ _ (by omega) (by omega), G3 _ _ (by omega) (by omega)]

end Verif.Demosaic

namespace Verif.Demosaic
open Verif.Spec.Demosaic
open Verif Verif.Dng Verif.Pix

/-! ## Patterns -/

theorem letterCode_rgb {c : Char} (h : c = 'R' ∨ c = 'G' ∨ c = 'B') : Verif.Spec.letterCode c = some (channel c) := by
  rcases h with rfl | rfl | rfl <;> rfl

theorem cfa_colFn {name : List Char} {n : Nat} (hp : Verif.Spec.IsPattern name n n) (hl : ∀ c ∈ name, c = 'R' ∨ c = 'G' ∨ c = 'B')
    (x y : Nat) : ∃ cfa s, CFA.new name = .ok cfa ∧ cfa.name = name ∧ cfa.shift x y = .ok s ∧
      Verif.Spec.Holds s.name n n (fun r j => Props.letterOf (colour name n (r + y) (j + x))) ∧ ∀ r c, colFn s r c = colour name n (r + y) (c + x) := by
  obtain ⟨hw0, -, hw, -, -, -⟩ := Props.dims_of hp
  obtain ⟨c, e, en, hc⟩ := Props.cfa_new hp
  obtain ⟨s, e', hs, hn⟩ := Props.cfa_shift hc hw0 hw0 hw hw (fun r j hr hj => Props.colours_lt hp hr hj) x y
  have key : ∀ r c, Props.colours name n ((r + y) % n) ((c + x) % n) = colour name n (r + y) (c + x) := by
    intro r c
    have hlt : (r + y) % n * n + (c + x) % n < name.length := by
      rw [hp.1]; exact mul_add_lt (Nat.mod_lt _ hw0) (Nat.mod_lt _ hw0)
    rw [Props.colours, colour, List.getD_eq_getElem?_getD, List.getElem?_eq_getElem hlt, Option.bind_some, letterCode_rgb (hl _ (List.getElem_mem hlt))]
    rfl
  refine ⟨c, s, e, en, e', ?_, fun r c' => ?_⟩
  · simpa only [key] using hn
  · rw [colFn, Props.cfa_colorAt hs hw hw]
    simp only [Nat.mod_add_mod]
    exact key r c'

theorem bayer_pattern {name : List Char} (h : IsBayer name) :
    Verif.Spec.IsPattern name 2 2 ∧ (∀ c ∈ name, c = 'R' ∨ c = 'G' ∨ c = 'B') ∧ 'R' ∈ name ∧ 'G' ∈ name ∧ 'B' ∈ name := by
  rcases h with rfl | rfl | rfl | rfl <;> decide

theorem isRgb_of {c : CFA} (hl : ∀ ch ∈ c.name, ch = 'R' ∨ ch = 'G' ∨ ch = 'B') (hr : 'R' ∈ c.name) (hg : 'G' ∈ c.name) (hb : 'B' ∈ c.name) :
    isRgb c = true := by
  simp only [isRgb, Bool.and_eq_true, List.all_eq_true, List.contains_iff_mem, Bool.or_eq_true, decide_eq_true_eq]
  exact ⟨⟨⟨fun x hx => by have := hl x hx; tauto, hr⟩, hg⟩, hb⟩

/-! ## Means -/

theorem mean_const {l : List (Nat × Nat)} {f : Nat → Nat → ℚ} {v : ℚ} (h : ∀ p ∈ l, f p.1 p.2 = v) (hl : l ≠ []) :
    mean (l.map fun p => f p.1 p.2) = v := by
  have e : (l.map fun p => f p.1 p.2) = List.replicate l.length v := by
    rw [List.eq_replicate_iff]
    refine ⟨by simp, fun b hb => ?_⟩
    obtain ⟨p, hp, rfl⟩ := List.mem_map.mp hb
    exact h p hp
  rw [mean, e, List.sum_replicate, List.length_replicate, nsmul_eq_mul]
  have : (l.length : ℚ) ≠ 0 := by
    have : l.length ≠ 0 := fun h => hl (List.length_eq_zero_iff.mp h)
    exact_mod_cast this
  field_simp

theorem localMean_flat {f : Nat → Nat → ℚ} {col : Nat → Nat → Nat} {v : Nat → ℚ} {w h d r c k : Nat}
    (hf : ∀ r c, r < h → c < w → f r c = v (col r c))
    (hx : ∃ y x, y < h ∧ x < w ∧ y ≤ r + d ∧ r ≤ y + d ∧ x ≤ c + d ∧ c ≤ x + d ∧ col y x = k) : localMean f col w h d r c k = v k := by
  apply mean_const
  · intro p hp
    rw [List.mem_filter, mem_places, decide_eq_true_eq] at hp
    rw [hf _ _ hp.1.1 hp.1.2, hp.2.2.2.2.2]
  · obtain ⟨y, x, h1, h2, h3⟩ := hx
    intro e
    have : (y, x) ∈ (places w h).filter fun p => decide (p.1 ≤ r + d ∧ r ≤ p.1 + d ∧ p.2 ≤ c + d ∧ c ≤ p.2 + d ∧ col p.1 p.2 = k) := by
      rw [List.mem_filter, mem_places, decide_eq_true_eq]
      exact ⟨⟨h1, h2⟩, h3⟩
    rw [e] at this
    cases this

theorem near_any' (m : Mem) {col : Nat → Nat → Nat} (B : BayerCol col) {w h : Nat} (hw : 2 ≤ w) (hh : 2 ≤ h) {r c k : Nat} (hr : r < h) (hc : c < w) (hk : k < 3) :
    ∃ y x, y < h ∧ x < w ∧ y ≤ r + 1 ∧ r ≤ y + 1 ∧ x ≤ c + 1 ∧ c ≤ x + 1 ∧ col y x = k := by
  have := sums_pos B hw hh m hr hc hk
  rw [sums, sums_eq] at this
  simp only [Nat.zero_add] at this
  rw [List.length_pos_iff_exists_mem] at this
  obtain ⟨d, hd⟩ := this
  rw [around_eq, List.mem_filter, List.mem_filter, mem_places] at hd
  simp only [decide_eq_true_eq] at hd
  exact ⟨d.1, d.2, hd.1.1.1, hd.1.1.2, hd.1.2.1, hd.1.2.2.1, hd.1.2.2.2.1, hd.1.2.2.2.2, hd.2⟩

theorem near_any {col : Nat → Nat → Nat} (B : BayerCol col) {w h : Nat} (hw : 2 ≤ w) (hh : 2 ≤ h) {r c k : Nat} (hr : r < h) (hc : c < w) (hk : k < 3) :
    ∃ y x, y < h ∧ x < w ∧ y ≤ r + 1 ∧ r ≤ y + 1 ∧ x ≤ c + 1 ∧ c ≤ x + 1 ∧ col y x = k := near_any' (fun _ => 0) B hw hh hr hc hk

theorem hue_flat (a b : ℚ) : hue a a a b b = b := by
  unfold hue
  rw [if_neg (by simp)]
  ring

/-- A field of one colour comes back as that colour. -/
theorem ppg_flat {f : Nat → Nat → ℚ} {col : Nat → Nat → Nat} (B : BayerCol col) {v : Nat → ℚ} {w h : Nat} (hw : 2 ≤ w) (hh : 2 ≤ h)
    (hf : ∀ r c, r < h → c < w → f r c = v (col r c)) {r c k : Nat} (hr : r < h) (hc : c < w) (hk : k < 3) : ppg f col w h r c k = v k := by
  have hG : ∀ y x, y < h → x < w → green f col w h y x = v 1 := by
    intro y x hy hx
    unfold green
    by_cases e : col y x = 1
    · rw [if_pos e, hf _ _ hy hx, e]
    · rw [if_neg e]
      by_cases hfr : OnFrame w h y x
      · rw [if_pos hfr]; exact localMean_flat hf (near_any B hw hh hy hx (by omega))
      · rw [if_neg hfr]
        obtain ⟨i1, i2, i3, i4⟩ := inner_iff.mpr hfr
        have N := nb B i1 i3
        have d1 := (B.right y x).mpr e
        have d2 := (B.down y x).mpr e
        unfold greenInside
        simp only []
        rw [hf (y - 1) x (by omega) hx, hf (y + 1) x (by omega) hx, hf y (x - 1) hy (by omega), hf y (x + 1) hy (by omega), hf y x hy hx,
          hf (y - 2) x (by omega) hx, hf (y + 2) x (by omega) hx, hf y (x - 2) hy (by omega), hf y (x + 2) hy (by omega),
          N.n1, N.w1, d1, d2, N.n2, N.s2, N.w2, N.e2]
        split_ifs <;> ring
  unfold ppg
  simp only []
  by_cases e : col r c = k
  · rw [if_pos e, hf _ _ hr hc, e]
  · rw [if_neg e]
    by_cases e1 : k = 1
    · rw [if_pos e1, hG _ _ hr hc, e1]
    · rw [if_neg e1]
      by_cases hfr : OnFrame w h r c
      · rw [if_pos hfr]; exact localMean_flat hf (near_any B hw hh hr hc hk)
      · rw [if_neg hfr]
        obtain ⟨i1, i2, i3, i4⟩ := inner_iff.mpr hfr
        have N := nb B i1 i3
        by_cases eg : col r c = 1
        · rw [if_pos eg]
          have d1 := B.right r c
          have d3 := B.cross r c eg
          have l := B.lt r (c + 1)
          by_cases ek : col r (c + 1) = k
          · rw [if_pos ek, hG _ _ hr (by omega), hG _ _ hr hc, hG _ _ hr (by omega), hf r (c - 1) hr (by omega), hf r (c + 1) hr (by omega), N.w1, ek]
            exact hue_flat _ _
          · have ev : col (r + 1) c = k := by
              have : col r (c + 1) ≠ 1 := fun h => d1.mp h eg
              omega
            rw [if_neg ek, hG _ _ (by omega) hc, hG _ _ hr hc, hG _ _ (by omega) hc, hf (r - 1) c (by omega) hc, hf (r + 1) c (by omega) hc, N.n1, ev]
            exact hue_flat _ _
        · have l := B.lt r c
          have ed : col (r + 1) (c + 1) = k := by
            rw [B.diag r c eg]
            omega
          rw [if_neg eg, across]
          rw [hG (r - 1) (c + 1) (by omega) (by omega), hG (r + 1) (c - 1) (by omega) (by omega), hG (r - 1) (c - 1) (by omega) (by omega),
            hG (r + 1) (c + 1) (by omega) (by omega), hG r c hr hc, hf (r - 1) (c + 1) (by omega) (by omega), hf (r + 1) (c - 1) (by omega) (by omega),
            hf (r - 1) (c - 1) (by omega) (by omega), hf (r + 1) (c + 1) (by omega) (by omega), N.ne, N.sw, N.nw, ed]
          split_ifs <;> exact hue_flat _ _

/-! ## Grey ramps -/

theorem window_mid {n i : Nat} (h1 : 1 ≤ i) (h2 : i + 1 < n) : window n i = [i - 1, i, i + 1] := by
  have : i + 2 - (i - 1) = 3 := by omega
  rw [window, this, List.filter_eq_self.mpr]
  · have e : i - 1 + 1 = i := by omega
    have e' : i - 1 + 1 + 1 = i + 1 := by omega
    simp [List.range', e]
  · intro a ha
    rw [List.mem_range'] at ha
    obtain ⟨k, hk, rfl⟩ := ha
    simp; omega

theorem localMean_around (f : Nat → Nat → ℚ) (col : Nat → Nat → Nat) (w h r c k : Nat) :
    localMean f col w h 1 r c k = mean (((around w h r c).filter fun p => decide (col p.1 p.2 = k)).map fun p => f p.1 p.2) := by
  rw [localMean, around_eq, List.filter_filter]
  congr 2
  apply List.filter_congr
  intro d _
  rw [← Bool.decide_and]
  exact decide_eq_decide.mpr (by tauto)

theorem localMean_ramp {f : Nat → Nat → ℚ} {col : Nat → Nat → Nat} (B : BayerCol col) {α β γ : ℚ} {w h : Nat}
    (hf : ∀ r c, r < h → c < w → f r c = α * r + β * c + γ) {r c k : Nat} (hr : 1 ≤ r) (hr' : r + 1 < h) (hc : 1 ≤ c) (hc' : c + 1 < w) (hk : k < 3)
    (hne : col r c ≠ k) : localMean f col w h 1 r c k = f r c := by
  rw [localMean_around, around, window_mid hr hr', window_mid hc hc']
  obtain ⟨r, rfl⟩ : ∃ r', r = r' + 1 := ⟨r - 1, by omega⟩
  obtain ⟨c, rfl⟩ : ∃ c', c = c' + 1 := ⟨c - 1, by omega⟩
  have lt := B.lt (r + 1) (c + 1)
  have l0 := B.lt r c
  have l1 := B.lt (r + 1) c
  have l2 := B.lt r (c + 1)
  have a1 : col (r + 1) (c + 2) = col (r + 1) c := B.col2 ..
  have a2 : col (r + 2) (c + 1) = col r (c + 1) := B.row2 ..
  have a3 : col r (c + 2) = col r c := B.col2 ..
  have a4 : col (r + 2) c = col r c := B.row2 ..
  have a5 : col (r + 2) (c + 2) = col r c := (B.row2 ..).trans (B.col2 ..)
  have b1 := B.right (r + 1) c
  have b2 := B.down r (c + 1)
  have b3 := B.right r c
  have b4 := B.diag r c
  have b5 := B.cross (r + 1) (c + 1)
  rw [show r + 1 + 1 = r + 2 from rfl, show c + 1 + 1 = c + 2 from rfl, a1, a2] at b5
  have b6 := B.down r c
  have f00 := hf r c (by omega) (by omega)
  have f01 := hf r (c + 1) (by omega) (by omega)
  have f02 := hf r (c + 2) (by omega) (by omega)
  have f10 := hf (r + 1) c (by omega) (by omega)
  have f11 := hf (r + 1) (c + 1) (by omega) (by omega)
  have f12 := hf (r + 1) (c + 2) (by omega) (by omega)
  have f20 := hf (r + 2) c (by omega) (by omega)
  have f21 := hf (r + 2) (c + 1) (by omega) (by omega)
  have f22 := hf (r + 2) (c + 2) (by omega) (by omega)
  simp only [Nat.add_sub_cancel, List.flatMap_cons, List.flatMap_nil, List.map_cons, List.map_nil, List.append_nil, List.cons_append, List.nil_append,
    List.filter_cons, List.filter_nil, a1, a2, a3, a4, a5, hne, decide_false, Bool.false_eq_true, if_false, decide_eq_true_eq]
  rw [show r + 1 + 1 = r + 2 from rfl, show c + 1 + 1 = c + 2 from rfl]
  by_cases hg : col (r + 1) (c + 1) = 1
  · by_cases e1 : col (r + 1) c = k
    · have e2 : ¬ col r (c + 1) = k := by omega
      have e3 : ¬ col r c = k := by omega
      simp only [e1, e2, e3, if_true, if_false, List.map_cons, List.map_nil, mean, List.sum_cons, List.sum_nil, List.length_cons, List.length_nil,
        f10, f11, f12]
      push_cast
      ring
    · have e2 : col r (c + 1) = k := by omega
      have e3 : ¬ col r c = k := by omega
      simp only [e1, e2, e3, if_true, if_false, List.map_cons, List.map_nil, mean, List.sum_cons, List.sum_nil, List.length_cons, List.length_nil,
        f01, f11, f21]
      push_cast
      ring
  · by_cases e1 : k = 1
    · have e2 : col r (c + 1) = k := by omega
      have e3 : ¬ col r c = k := by omega
      have e4 : col (r + 1) c = k := by omega
      simp only [e2, e3, e4, if_true, if_false, List.map_cons, List.map_nil, mean, List.sum_cons, List.sum_nil, List.length_cons, List.length_nil,
        f01, f11, f21, f10, f12]
      push_cast
      ring
    · have e2 : ¬ col r (c + 1) = k := by omega
      have e3 : col r c = k := by omega
      have e4 : ¬ col (r + 1) c = k := by omega
      simp only [e2, e3, e4, if_true, if_false, List.map_cons, List.map_nil, mean, List.sum_cons, List.sum_nil, List.length_cons, List.length_nil,
        f00, f11, f02, f20, f22]
      push_cast
      ring

theorem hue_line (v d : ℚ) : hue (v - d) v (v + d) (v - d) (v + d) = v := by
  unfold hue
  split_ifs with h
  · have hd : d ≠ 0 := by
      rintro rfl
      simp at h
    have : v + d - (v - d) = 2 * d := by ring
    rw [this]
    field_simp
    ring
  · ring

/-- Grey that rises or falls evenly comes back exactly, away from the outermost pixels. -/
theorem ppg_ramp {f : Nat → Nat → ℚ} {col : Nat → Nat → Nat} (B : BayerCol col) {α β γ : ℚ} {w h : Nat}
    (hf : ∀ r c, r < h → c < w → f r c = α * r + β * c + γ) {r c k : Nat} (hr : 1 ≤ r) (hr' : r + 1 < h) (hc : 1 ≤ c) (hc' : c + 1 < w) (hk : k < 3) :
    ppg f col w h r c k = f r c := by
  have hG : ∀ y x, 1 ≤ y → y + 1 < h → 1 ≤ x → x + 1 < w → green f col w h y x = f y x := by
    intro y x y1 y2 x1 x2
    unfold green
    by_cases e : col y x = 1
    · rw [if_pos e]
    · rw [if_neg e]
      by_cases hfr : OnFrame w h y x
      · rw [if_pos hfr]; exact localMean_ramp B hf y1 y2 x1 x2 (by omega) e
      · rw [if_neg hfr]
        obtain ⟨i1, i2, i3, i4⟩ := inner_iff.mpr hfr
        obtain ⟨y, rfl⟩ : ∃ y', y = y' + 2 := ⟨y - 2, by omega⟩
        obtain ⟨x, rfl⟩ : ∃ x', x = x' + 2 := ⟨x - 2, by omega⟩
        unfold greenInside
        simp only [Nat.add_sub_cancel, show y + 2 - 1 = y + 1 by omega, show x + 2 - 1 = x + 1 by omega]
        rw [hf (y + 1) (x + 2) (by omega) (by omega), hf (y + 2 + 1) (x + 2) (by omega) (by omega), hf (y + 2) (x + 1) (by omega) (by omega),
          hf (y + 2) (x + 2 + 1) (by omega) (by omega), hf (y + 2) (x + 2) (by omega) (by omega),
          hf y (x + 2) (by omega) (by omega), hf (y + 2 + 2) (x + 2) (by omega) (by omega), hf (y + 2) x (by omega) (by omega),
          hf (y + 2) (x + 2 + 2) (by omega) (by omega)]
        push_cast
        split_ifs <;> ring
  unfold ppg
  simp only []
  by_cases e : col r c = k
  · rw [if_pos e]
  · rw [if_neg e]
    by_cases e1 : k = 1
    · rw [if_pos e1, hG _ _ hr hr' hc hc']
    · rw [if_neg e1]
      by_cases hfr : OnFrame w h r c
      · rw [if_pos hfr]; exact localMean_ramp B hf hr hr' hc hc' hk e
      · rw [if_neg hfr]
        obtain ⟨i1, i2, i3, i4⟩ := inner_iff.mpr hfr
        have line : ∀ (a b : Nat × Nat) (d : ℚ), f a.1 a.2 = f r c - d → f b.1 b.2 = f r c + d →
            hue (f a.1 a.2) (f r c) (f b.1 b.2) (f a.1 a.2) (f b.1 b.2) = f r c := by
          intro a b d h1 h2
          rw [h1, h2]; exact hue_line _ _
        have cr : ((r - 1 : Nat) : ℚ) = r - 1 := by rw [Nat.cast_sub (by omega)]; simp
        have cc : ((c - 1 : Nat) : ℚ) = c - 1 := by rw [Nat.cast_sub (by omega)]; simp
        have hrc := hf r c (by omega) (by omega)
        by_cases eg : col r c = 1
        · rw [if_pos eg, hG r c hr hr' hc hc', hG r (c - 1) hr hr' (by omega) (by omega), hG r (c + 1) hr hr' (by omega) (by omega),
            hG (r - 1) c (by omega) (by omega) hc hc', hG (r + 1) c (by omega) (by omega) hc hc']
          split_ifs
          · refine line (r, c - 1) (r, c + 1) β ?_ ?_
            · rw [hf _ _ (by simp; omega) (by simp; omega), hrc]; simp only [cc]; ring
            · rw [hf _ _ (by simp; omega) (by simp; omega), hrc]; push_cast; ring
          · refine line (r - 1, c) (r + 1, c) α ?_ ?_
            · rw [hf _ _ (by simp; omega) (by simp; omega), hrc]; simp only [cr]; ring
            · rw [hf _ _ (by simp; omega) (by simp; omega), hrc]; push_cast; ring
        · rw [if_neg eg, across]
          rw [hG r c hr hr' hc hc', hG (r - 1) (c + 1) (by omega) (by omega) (by omega) (by omega), hG (r + 1) (c - 1) (by omega) (by omega) (by omega) (by omega),
            hG (r - 1) (c - 1) (by omega) (by omega) (by omega) (by omega), hG (r + 1) (c + 1) (by omega) (by omega) (by omega) (by omega)]
          split_ifs
          · refine line (r - 1, c + 1) (r + 1, c - 1) (α - β) ?_ ?_
            · rw [hf _ _ (by simp; omega) (by simp; omega), hrc]; push_cast; simp only [cr]; ring
            · rw [hf _ _ (by simp; omega) (by simp; omega), hrc]; push_cast; simp only [cc]; ring
          · refine line (r - 1, c - 1) (r + 1, c + 1) (α + β) ?_ ?_
            · rw [hf _ _ (by simp; omega) (by simp; omega), hrc]; simp only [cr, cc]; ring
            · rw [hf _ _ (by simp; omega) (by simp; omega), hrc]; push_cast; ring

end Verif.Demosaic
