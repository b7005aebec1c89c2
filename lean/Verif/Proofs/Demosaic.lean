import Verif.Proofs.DemosaicPar
import Verif.Spec.Demosaic
import Mathlib.Tactic.Ring
import Mathlib.Data.List.Sort
import Mathlib.Tactic.IntervalCases
/-! # PPG computes what it is meant to -/

namespace Verif.Demosaic
open Verif.Spec.Demosaic

/-! ## Colours around a place -/

/-- A Bayer pattern, as the passes use it -/
structure BayerCol (col : Nat → Nat → Nat) : Prop where
  lt : ∀ r c, col r c < 3
  right : ∀ r c, col r (c + 1) = 1 ↔ col r c ≠ 1
  down : ∀ r c, col (r + 1) c = 1 ↔ col r c ≠ 1
  row2 : ∀ r c, col (r + 2) c = col r c
  col2 : ∀ r c, col r (c + 2) = col r c
  diag : ∀ r c, col r c ≠ 1 → col (r + 1) (c + 1) = 2 - col r c
  cross : ∀ r c, col r c = 1 → col (r + 1) c = 2 - col r (c + 1)

theorem colour_parity (name : List Char) (r c : Nat) : colour name 2 r c = colour name 2 (r % 2) (c % 2) := by
  simp only [colour, Nat.mod_mod]

theorem bayer_colour {name : List Char} (hn : IsBayer name) (x y : Nat) : BayerCol fun r c => colour name 2 (r + y) (c + x) := by
  have key : ∀ (P : (Nat → Nat → Nat) → Prop),
      (∀ i < 2, ∀ j < 2, P fun dr dc => colour name 2 ((i + dr) % 2) ((j + dc) % 2)) →
      ∀ r c, P fun dr dc => colour name 2 (r + dr + y) (c + dc + x) := by
    intro P h r c
    have e : (fun dr dc => colour name 2 (r + dr + y) (c + dc + x)) = fun dr dc => colour name 2 (((r + y) % 2 + dr) % 2) (((c + x) % 2 + dc) % 2) := by
      funext dr dc
      rw [colour_parity, Nat.mod_add_mod, Nat.mod_add_mod]
      congr 1
      · congr 1; omega
      · congr 1; omega
    rw [e]
    exact h _ (Nat.mod_lt _ (by omega)) _ (Nat.mod_lt _ (by omega))
  refine ⟨fun r c => ?_, fun r c => ?_, fun r c => ?_, fun r c => ?_, fun r c => ?_, fun r c => ?_, fun r c => ?_⟩
  · refine key (fun g => g 0 0 < 3) ?_ r c
    rcases hn with rfl | rfl | rfl | rfl <;> decide
  · refine key (fun g => g 0 1 = 1 ↔ g 0 0 ≠ 1) ?_ r c
    rcases hn with rfl | rfl | rfl | rfl <;> decide
  · refine key (fun g => g 1 0 = 1 ↔ g 0 0 ≠ 1) ?_ r c
    rcases hn with rfl | rfl | rfl | rfl <;> decide
  · refine key (fun g => g 2 0 = g 0 0) ?_ r c
    rcases hn with rfl | rfl | rfl | rfl <;> decide
  · refine key (fun g => g 0 2 = g 0 0) ?_ r c
    rcases hn with rfl | rfl | rfl | rfl <;> decide
  · refine key (fun g => g 0 0 ≠ 1 → g 1 1 = 2 - g 0 0) ?_ r c
    rcases hn with rfl | rfl | rfl | rfl <;> decide
  · refine key (fun g => g 0 0 = 1 → g 1 0 = 2 - g 0 1) ?_ r c
    rcases hn with rfl | rfl | rfl | rfl <;> decide

namespace BayerCol
variable {col : Nat → Nat → Nat} (B : BayerCol col)
include B

theorem left' {r c : Nat} (h : 1 ≤ c) : col r (c - 1) = col r (c + 1) := by
  have := B.col2 r (c - 1); rw [show c - 1 + 2 = c + 1 by omega] at this; exact this.symm
theorem up {r c : Nat} (h : 1 ≤ r) : col (r - 1) c = col (r + 1) c := by
  have := B.row2 (r - 1) c; rw [show r - 1 + 2 = r + 1 by omega] at this; exact this.symm
theorem left2 {r c : Nat} (h : 2 ≤ c) : col r (c - 2) = col r c := by
  have := B.col2 r (c - 2); rw [show c - 2 + 2 = c by omega] at this; exact this.symm
theorem up2 {r c : Nat} (h : 2 ≤ r) : col (r - 2) c = col r c := by
  have := B.row2 (r - 2) c; rw [show r - 2 + 2 = r by omega] at this; exact this.symm

end BayerCol

/-! ## The frame -/

/-- `m'` is `m` with the cells of `D` set to `val`. -/
def Upd (m m' : Mem) (D : Cell → Prop) (val : Cell → ℚ) : Prop := ∀ d, (D d → m' d = val d) ∧ (¬ D d → m' d = m d)

theorem Upd.trans {m m' m'' : Mem} {D D' E : Cell → Prop} {val : Cell → ℚ} (h : Upd m m' D val) (h' : Upd m' m'' D' val)
    (hE : ∀ d, E d ↔ D d ∨ D' d) : Upd m m'' E val := by
  intro d
  constructor
  · intro hd
    by_cases h2 : D' d
    · exact (h' d).1 h2
    · rw [(h' d).2 h2]
      exact (h d).1 (((hE d).1 hd).resolve_right h2)
  · intro hd
    rw [hE] at hd
    rw [(h' d).2 fun h2 => hd (.inr h2), (h d).2 fun h2 => hd (.inl h2)]

theorem window_eq (n i : Nat) : window n i = (List.range n).filter fun y => decide (y ≤ i + 1 ∧ i ≤ y + 1) := by
  unfold window
  apply List.Perm.eq_of_pairwise (le := (· < ·))
  · intro a b _ _ h1 h2; omega
  · exact (List.pairwise_lt_range' ..).filter _
  · exact List.pairwise_lt_range.filter _
  · rw [List.perm_ext_iff_of_nodup ((List.nodup_range' ..).filter _) (List.nodup_range.filter _)]
    intro a
    simp only [List.mem_filter, List.mem_range', List.mem_range, decide_eq_true_eq, Nat.one_mul]
    constructor
    · rintro ⟨⟨k, hk, rfl⟩, ha⟩
      exact ⟨ha, by omega, by omega⟩
    · rintro ⟨ha, h1, h2⟩
      exact ⟨⟨a - (i - 1), by omega, by omega⟩, ha⟩

theorem filter_grid (p : Nat → Bool) (q : Nat → Bool) (l1 l2 : List Nat) :
    ((l1.filter p).flatMap fun y => (l2.filter q).map fun x => (y, x)) =
      (l1.flatMap fun y => l2.map fun x => (y, x)).filter fun d => p d.1 && q d.2 := by
  induction l1 with
  | nil => rfl
  | cons a t ih =>
    rw [List.flatMap_cons, List.filter_append, ← ih, List.filter_cons, List.filter_map]
    by_cases h : p a = true
    · rw [if_pos h, List.flatMap_cons]
      congr 2
      apply List.filter_congr
      intro b _
      simp [h]
    · rw [if_neg h]
      have : l2.filter ((fun d : Nat × Nat => p d.1 && q d.2) ∘ fun x => (a, x)) = [] := by
        rw [List.filter_eq_nil_iff]
        intro b _
        simp [h]
      rw [this]; rfl

theorem around_eq (w h r c : Nat) :
    around w h r c = (places w h).filter fun d => decide (d.1 ≤ r + 1 ∧ r ≤ d.1 + 1 ∧ d.2 ≤ c + 1 ∧ c ≤ d.2 + 1) := by
  rw [around, places, window_eq, window_eq, filter_grid]
  apply List.filter_congr
  intro d _
  simp only [Bool.decide_and, Bool.and_assoc]

theorem sums_eq (m : Mem) (col : Nat → Nat → Nat) (k : Nat) (l : List (Nat × Nat)) (a : ℚ) (n : Nat) :
    l.foldl (fun s p => if col p.1 p.2 = k then (s.1 + m (p.1, p.2, k), s.2 + 1) else s) (a, n) =
      (a + ((l.filter fun p => decide (col p.1 p.2 = k)).map fun p => m (p.1, p.2, col p.1 p.2)).sum,
        n + (l.filter fun p => decide (col p.1 p.2 = k)).length) := by
  induction l generalizing a n with
  | nil => simp
  | cons p t ih =>
    rw [List.foldl_cons]
    by_cases h : col p.1 p.2 = k
    · rw [if_pos h, ih, List.filter_cons_of_pos (by simpa using h)]
      simp only [List.map_cons, List.sum_cons, List.length_cons, h]
      rw [add_assoc, Nat.add_right_comm, Nat.add_assoc]
    · rw [if_neg h, ih, List.filter_cons_of_neg (by simpa using h)]

/-- The measured samples are in place. -/
def Meas (f : Nat → Nat → ℚ) (col : Nat → Nat → Nat) (w h : Nat) (m : Mem) : Prop := ∀ r c, r < h → c < w → m (r, c, col r c) = f r c

theorem mem_places {w h : Nat} {d : Nat × Nat} : d ∈ places w h ↔ d.1 < h ∧ d.2 < w := by
  simp only [places, List.mem_flatMap, List.mem_range, List.mem_map]
  constructor
  · rintro ⟨y, hy, x, hx, rfl⟩; exact ⟨hy, hx⟩
  · rintro ⟨h1, h2⟩; exact ⟨d.1, h1, d.2, h2, rfl⟩

theorem sums_meas {f : Nat → Nat → ℚ} {col : Nat → Nat → Nat} {w h : Nat} {m : Mem} (hm : Meas f col w h m) (r c k : Nat) :
    (sums m col (around w h r c) k).1 / (sums m col (around w h r c) k).2 = localMean f col w h 1 r c k := by
  rw [sums, sums_eq, localMean, mean, around_eq, List.filter_filter]
  have e : ((places w h).filter fun a => decide (col a.1 a.2 = k) && decide (a.1 ≤ r + 1 ∧ r ≤ a.1 + 1 ∧ a.2 ≤ c + 1 ∧ c ≤ a.2 + 1)) =
      (places w h).filter fun p => decide (p.1 ≤ r + 1 ∧ r ≤ p.1 + 1 ∧ p.2 ≤ c + 1 ∧ c ≤ p.2 + 1 ∧ col p.1 p.2 = k) := by
    apply List.filter_congr
    intro d _
    rw [← Bool.decide_and]
    exact decide_eq_decide.mpr (by tauto)
  rw [e]
  simp only [zero_add, List.length_map]
  congr 2
  apply List.map_congr_left
  intro d hd
  have := mem_places.mp (List.mem_of_mem_filter hd)
  exact hm d.1 d.2 this.1 this.2

/-- every colour occurs near every place -/
theorem sums_pos {col : Nat → Nat → Nat} (B : BayerCol col) {w h : Nat} (hw : 2 ≤ w) (hh : 2 ≤ h) (m : Mem) {r c k : Nat} (hr : r < h) (hc : c < w)
    (hk : k < 3) : 0 < (sums m col (around w h r c) k).2 := by
  rw [sums, sums_eq]
  simp only [Nat.zero_add]
  rw [List.length_pos_iff_exists_mem]
  -- a neighbour in each direction
  obtain ⟨r', hr', hr1, er⟩ : ∃ r', r' < h ∧ (r' ≤ r + 1 ∧ r ≤ r' + 1) ∧ ∀ x, col r' x = col (r + 1) x := by
    by_cases e : r + 1 < h
    · exact ⟨r + 1, e, by omega, fun _ => rfl⟩
    · exact ⟨r - 1, by omega, by omega, fun x => B.up (by omega)⟩
  obtain ⟨c', hc', hc1, ec⟩ : ∃ c', c' < w ∧ (c' ≤ c + 1 ∧ c ≤ c' + 1) ∧ ∀ y, col y c' = col y (c + 1) := by
    by_cases e : c + 1 < w
    · exact ⟨c + 1, e, by omega, fun _ => rfl⟩
    · exact ⟨c - 1, by omega, by omega, fun x => B.left' (by omega)⟩
  have mk : ∀ y x, y < h → x < w → (y ≤ r + 1 ∧ r ≤ y + 1) → (x ≤ c + 1 ∧ c ≤ x + 1) → col y x = k →
      ∃ d, d ∈ (around w h r c).filter fun p => decide (col p.1 p.2 = k) := by
    intro y x h1 h2 h3 h4 h5
    refine ⟨(y, x), ?_⟩
    rw [around_eq, List.mem_filter, List.mem_filter, mem_places]
    simp only [decide_eq_true_eq]
    exact ⟨⟨⟨h1, h2⟩, h3.1, h3.2, h4.1, h4.2⟩, h5⟩
  by_cases h0 : col r c = k
  · exact mk r c hr hc (by omega) (by omega) h0
  · by_cases h1 : col r c' = k
    · exact mk r c' hr hc' (by omega) hc1 h1
    · by_cases h2 : col r' c = k
      · exact mk r' c hr' hc hr1 (by omega) h2
      · apply mk r' c' hr' hc' hr1 hc1
        rw [ec] at h1 ⊢
        rw [er] at h2 ⊢
        have l1 := B.lt r c; have l2 := B.lt r (c + 1); have l3 := B.lt (r + 1) c
        have d1 := B.diag r c; have d2 := B.right r c; have d3 := B.down r c; have d4 := B.cross r c
        omega

theorem borderPixel_upd {f : Nat → Nat → ℚ} {col : Nat → Nat → Nat} (B : BayerCol col) {w h : Nat} (hw : 2 ≤ w) (hh : 2 ≤ h) {m : Mem}
    (hm : Meas f col w h m) {r c : Nat} (hr : r < h) (hc : c < w) :
    Upd m (borderPixel w h col r c m) (fun d => d.1 = r ∧ d.2.1 = c ∧ d.2.2 < 3 ∧ d.2.2 ≠ col d.1 d.2.1)
      (fun d => localMean f col w h 1 d.1 d.2.1 d.2.2) := by
  have e : ∀ k < 3, (k ≠ col r c ∧ 0 < (sums m col (around w h r c) k).2) ↔ k ≠ col r c :=
    fun k hk => ⟨fun h => h.1, fun h => ⟨h, sums_pos B hw hh m hr hc hk⟩⟩
  have hb : borderPixel w h col r c m = fun d => if d.1 = r ∧ d.2.1 = c ∧ d.2.2 < 3 ∧ d.2.2 ≠ col r c then localMean f col w h 1 r c d.2.2 else m d := by
    have r3 : List.range 3 = [0, 1, 2] := rfl
    rw [borderPixel, r3]
    simp only [List.foldl_cons, List.foldl_nil, e 0 (by omega), e 1 (by omega), e 2 (by omega), sums_meas hm]
    funext d
    obtain ⟨a, b, k⟩ := d
    have l := B.lt r c
    clear e
    have hm' := sums_meas hm
    generalize col r c = q at l
    by_cases hab : a = r ∧ b = c
    · obtain ⟨rfl, rfl⟩ := hab
      by_cases hk : k < 3
      · interval_cases k <;> interval_cases q <;> simp [Mem.set]
      · have k0 : k ≠ 0 := by omega
        have k1 : k ≠ 1 := by omega
        have k2 : k ≠ 2 := by omega
        interval_cases q <;> simp [Mem.set, hk, k0, k1, k2]
    · have hn : ∀ i, ¬ ((a, b, k) : Cell) = (r, c, i) := fun i h => hab ⟨(Prod.mk.inj h).1, (Prod.mk.inj (Prod.mk.inj h).2).1⟩
      have hn' : ¬ (a = r ∧ b = c ∧ k < 3 ∧ k ≠ q) := fun h => hab ⟨h.1, h.2.1⟩
      rw [if_neg hn']
      interval_cases q <;> simp [Mem.set, hn]
  rw [hb]
  intro d
  dsimp only
  constructor
  · rintro ⟨h1, h2, h3, h4⟩
    rw [h1, h2] at h4 ⊢
    rw [if_pos ⟨rfl, rfl, h3, h4⟩]
  · intro hd
    rw [if_neg]
    rintro ⟨h1, h2, h3, h4⟩
    exact hd ⟨h1, h2, h3, by rw [h1, h2]; exact h4⟩

theorem Upd.meas {f : Nat → Nat → ℚ} {col : Nat → Nat → Nat} {w h : Nat} {m m' : Mem} {D : Cell → Prop} {val : Cell → ℚ} (hu : Upd m m' D val)
    (hm : Meas f col w h m) (hD : ∀ d, D d → d.2.2 ≠ col d.1 d.2.1) : Meas f col w h m' := by
  intro r c hr hc
  rw [(hu (r, c, col r c)).2 fun hd => hD _ hd rfl]
  exact hm r c hr hc

/-- What the `while` loop does to a row when it starts at column `c` -/
theorem borderRow_upd {f : Nat → Nat → ℚ} {col : Nat → Nat → Nat} (B : BayerCol col) {w h : Nat} (hw : 6 ≤ w) (hh : 6 ≤ h) {r : Nat} (hr : r < h) :
    ∀ (fuel c : Nat) (m m' : Mem), Meas f col w h m → (c ≤ 3 ∨ w - 3 < c ∨ ¬ (3 ≤ r ∧ r < h - 3)) → borderRow w h col r fuel c m = some m' →
      Upd m m' (fun d => d.1 = r ∧ c ≤ d.2.1 ∧ d.2.1 < w ∧ OnFrame w h d.1 d.2.1 ∧ d.2.2 < 3 ∧ d.2.2 ≠ col d.1 d.2.1)
        (fun d => localMean f col w h 1 d.1 d.2.1 d.2.2) := by
  intro fuel
  induction fuel with
  | zero => intro c m m' _ _ h'; cases h'
  | succ fuel ih =>
    intro c m m' hm hcs h'
    rw [borderRow] at h'
    by_cases hc : c < w
    · rw [if_pos hc] at h'
      simp only [] at h'
      generalize hcc : (if c = 3 ∧ 3 ≤ r ∧ r < h - 3 then w - 3 else c) = c' at h'
      have hc' : c' < w ∧ c ≤ c' ∧ (c' ≠ c → c = 3 ∧ 3 ≤ r ∧ r < h - 3 ∧ c' = w - 3) ∧ (c = 3 ∧ 3 ≤ r ∧ r < h - 3 → c' = w - 3) := by
        rw [← hcc]; split <;> omega
      have hu := borderPixel_upd B (by omega) (by omega) hm hr hc'.1
      have := ih (c' + 1) _ m' (hu.meas hm fun d hd => hd.2.2.2) (by omega) h'
      refine hu.trans this fun d => ?_
      constructor
      · rintro ⟨h1, h2, h3, h4, h5, h6⟩
        by_cases e : d.2.1 = c'
        · exact .inl ⟨h1, e, h5, h6⟩
        · refine .inr ⟨h1, ?_, h3, h4, h5, h6⟩
          unfold OnFrame at h4
          omega
      · rintro (⟨h1, h2, h3, h4⟩ | ⟨h1, h2, h3, h4, h5, h6⟩)
        · refine ⟨h1, by omega, by omega, ?_, h3, h4⟩
          unfold OnFrame
          omega
        · exact ⟨h1, by omega, h3, h4, h5, h6⟩
    · rw [if_neg hc] at h'
      cases h'
      refine fun d => ⟨fun hd => ?_, fun _ => rfl⟩
      omega

theorem borderRow_some {col : Nat → Nat → Nat} {w h r : Nat} (hw : 6 ≤ w) :
    ∀ (fuel c : Nat) (m : Mem), w + 1 ≤ fuel + c → 0 < fuel → ∃ m', borderRow w h col r fuel c m = some m' := by
  intro fuel
  induction fuel with
  | zero => intro c m _ h; omega
  | succ fuel ih =>
    intro c m hf _
    rw [borderRow]
    by_cases hc : c < w
    · rw [if_pos hc]
      simp only []
      apply ih
      · split <;> omega
      · omega
    · rw [if_neg hc]; exact ⟨m, rfl⟩

theorem bordersFold_upd {f : Nat → Nat → ℚ} {col : Nat → Nat → Nat} (B : BayerCol col) {w h : Nat} (hw : 6 ≤ w) (hh : 6 ≤ h) (fuel : Nat)
    (l : List Nat) : ∀ (m m' : Mem), (∀ r ∈ l, r < h) → Meas f col w h m → l.foldlM (fun m r => borderRow w h col r fuel 0 m) m = some m' →
      Upd m m' (fun d => d.1 ∈ l ∧ d.2.1 < w ∧ OnFrame w h d.1 d.2.1 ∧ d.2.2 < 3 ∧ d.2.2 ≠ col d.1 d.2.1)
        (fun d => localMean f col w h 1 d.1 d.2.1 d.2.2) := by
  induction l with
  | nil =>
    intro m m' _ _ h'
    cases h'
    exact fun d => ⟨fun hd => absurd hd.1 (by simp), fun _ => rfl⟩
  | cons r t ih =>
    intro m m' hl hm h'
    rw [List.foldlM_cons] at h'
    cases hb : borderRow w h col r fuel 0 m with
    | none => rw [hb] at h'; cases h'
    | some m1 =>
      rw [hb] at h'
      have hu := borderRow_upd B hw hh (hl r (by simp)) fuel 0 m m1 hm (.inl (by omega)) hb
      have := ih m1 m' (fun r hr => hl r (by simp [hr])) (hu.meas hm fun d hd => hd.2.2.2.2.2) h'
      refine hu.trans this fun d => ?_
      rw [List.mem_cons]
      constructor
      · rintro ⟨h1 | h1, h2⟩
        · exact .inl ⟨h1, Nat.zero_le _, h2⟩
        · exact .inr ⟨h1, h2⟩
      · rintro (⟨h1, _, h2⟩ | ⟨h1, h2⟩)
        · exact ⟨.inl h1, h2⟩
        · exact ⟨.inr h1, h2⟩

theorem borders_upd {f : Nat → Nat → ℚ} {col : Nat → Nat → Nat} (B : BayerCol col) {w h : Nat} (hw : 6 ≤ w) (hh : 6 ≤ h) {fuel : Nat} {m m' : Mem}
    (hm : Meas f col w h m) (h' : borders fuel w h col m = some m') :
    Upd m m' (fun d => d.1 < h ∧ d.2.1 < w ∧ OnFrame w h d.1 d.2.1 ∧ d.2.2 < 3 ∧ d.2.2 ≠ col d.1 d.2.1)
      (fun d => localMean f col w h 1 d.1 d.2.1 d.2.2) := by
  have := bordersFold_upd B hw hh fuel (List.range h) m m' (fun r hr => List.mem_range.mp hr) hm h'
  simpa only [List.mem_range] using this

theorem borders_some {col : Nat → Nat → Nat} {w h : Nat} (hw : 6 ≤ w) (m : Mem) : ∃ m', borders (w + 1) w h col m = some m' := by
  unfold borders
  generalize List.range h = l
  induction l generalizing m with
  | nil => exact ⟨m, rfl⟩
  | cons r t ih =>
    obtain ⟨m1, e⟩ := borderRow_some (col := col) (h := h) (r := r) hw (w + 1) 0 m (by omega) (by omega)
    rw [List.foldlM_cons, e]
    exact ih m1

/-- The loop goes on for ever in pictures 4 or 5 pixels wide. -/
theorem borderRow_hang {col : Nat → Nat → Nat} {w h r : Nat} (hw : w = 4 ∨ w = 5) (hr : 3 ≤ r ∧ r < h - 3) :
    ∀ (fuel c : Nat) (m : Mem), c ≤ 3 → borderRow w h col r fuel c m = none := by
  intro fuel
  induction fuel with
  | zero => exact fun _ _ _ => rfl
  | succ fuel ih =>
    intro c m hc
    rw [borderRow, if_pos (by omega)]
    simp only []
    apply ih
    split <;> omega

theorem foldlM_none {α β : Type} (g : β → α → Option β) (l : List α) (a : α) (ha : a ∈ l) (h : ∀ b, g b a = none) : ∀ b, l.foldlM g b = none := by
  induction l with
  | nil => cases ha
  | cons x t ih =>
    intro b
    rw [List.foldlM_cons]
    rcases List.mem_cons.mp ha with rfl | ha'
    · rw [h b]; rfl
    · cases g b x with
      | none => rfl
      | some b' => exact ih ha' b'

/-! ## The passes -/

variable {col : Nat → Nat → Nat}

def inImg (w h : Nat) (d : Cell) : Prop := d.1 < h ∧ d.2.1 < w ∧ d.2.2 < 3

def S2 (col : Nat → Nat → Nat) (w h : Nat) (d : Cell) : Prop := Inner w h d.1 d.2.1 ∧ col d.1 d.2.1 ≠ 1 ∧ d.2.2 = 1
def S3 (col : Nat → Nat → Nat) (w h : Nat) (d : Cell) : Prop := Inner w h d.1 d.2.1 ∧ col d.1 d.2.1 = 1 ∧ (d.2.2 = 0 ∨ d.2.2 = 2)
def S4 (col : Nat → Nat → Nat) (w h : Nat) (d : Cell) : Prop := Inner w h d.1 d.2.1 ∧ col d.1 d.2.1 ≠ 1 ∧ d.2.2 = 2 - col d.1 d.2.1

def fin2 (col : Nat → Nat → Nat) (m : Mem) (d : Cell) : ℚ :=
  let r := d.1; let c := d.2.1; let ch := col r c
  greenValue (m (r, c, ch)) (m (r - 1, c, 1)) (m (r - 2, c, ch)) (m (r, c + 1, 1)) (m (r, c + 2, ch)) (m (r + 1, c, 1)) (m (r + 2, c, ch))
    (m (r, c - 1, 1)) (m (r, c - 2, ch))

def fin3 (col : Nat → Nat → Nat) (m : Mem) (d : Cell) : ℚ :=
  let r := d.1; let c := d.2.1; let k := d.2.2
  if col r (c + 1) = k then hueTransit (m (r, c - 1, 1)) (m (r, c, 1)) (m (r, c + 1, 1)) (m (r, c - 1, k)) (m (r, c + 1, k))
  else hueTransit (m (r - 1, c, 1)) (m (r, c, 1)) (m (r + 1, c, 1)) (m (r - 1, c, k)) (m (r + 1, c, k))

def fin4 (col : Nat → Nat → Nat) (m : Mem) (d : Cell) : ℚ :=
  let r := d.1; let c := d.2.1; let k := d.2.2; let x := col r c
  if |m (r - 1, c + 1, k) - m (r + 1, c - 1, k)| + |m (r - 2, c + 2, x) - m (r, c, x)| + |m (r, c, x) - m (r + 2, c - 2, x)|
      + |m (r - 1, c + 1, 1) - m (r, c, 1)| + |m (r, c, 1) - m (r + 1, c - 1, 1)| <
     |m (r - 1, c - 1, k) - m (r + 1, c + 1, k)| + |m (r - 2, c - 2, x) - m (r, c, x)| + |m (r, c, x) - m (r + 2, c + 2, x)|
      + |m (r - 1, c - 1, 1) - m (r, c, 1)| + |m (r, c, 1) - m (r + 1, c + 1, 1)|
  then hueTransit (m (r - 1, c + 1, 1)) (m (r, c, 1)) (m (r + 1, c - 1, 1)) (m (r - 1, c + 1, k)) (m (r + 1, c - 1, k))
  else hueTransit (m (r - 1, c - 1, 1)) (m (r, c, 1)) (m (r + 1, c + 1, 1)) (m (r - 1, c - 1, k)) (m (r + 1, c + 1, k))

/-- colours around an inner place -/
structure Nb (col : Nat → Nat → Nat) (r c : Nat) : Prop where
  n1 : col (r - 1) c = col (r + 1) c
  w1 : col r (c - 1) = col r (c + 1)
  ne : col (r - 1) (c + 1) = col (r + 1) (c + 1)
  sw : col (r + 1) (c - 1) = col (r + 1) (c + 1)
  nw : col (r - 1) (c - 1) = col (r + 1) (c + 1)
  n2 : col (r - 2) c = col r c
  w2 : col r (c - 2) = col r c
  s2 : col (r + 2) c = col r c
  e2 : col r (c + 2) = col r c
  ne2 : col (r - 2) (c + 2) = col r c
  sw2 : col (r + 2) (c - 2) = col r c
  nw2 : col (r - 2) (c - 2) = col r c
  se2 : col (r + 2) (c + 2) = col r c

theorem nb (B : BayerCol col) {r c : Nat} (hr : 3 ≤ r) (hc : 3 ≤ c) : Nb col r c := by
  have h1 : 1 ≤ r := by omega
  have h2 : 2 ≤ r := by omega
  have h3 : 1 ≤ c := by omega
  have h4 : 2 ≤ c := by omega
  exact ⟨B.up h1, B.left' h3, B.up h1, B.left' h3, (B.up h1).trans (B.left' h3), B.up2 h2, B.left2 h4, B.row2 .., B.col2 ..,
    (B.up2 h2).trans (B.col2 ..), (B.row2 ..).trans (B.left2 h4), (B.up2 h2).trans (B.left2 h4), (B.row2 ..).trans (B.col2 ..)⟩

theorem inv2 (B : BayerCol col) (w h : Nat) (m : Mem) :
    PInv m (S2 col w h) (fin2 col m) (inImg w h) (fun i d => d.1 = i + 3) (rowTasks w h (greenPixel col), m) := by
  refine inv_tasks (cells := fun r c => if col r c ≠ 1 then [(r, c, 1)] else []) ?_ ?_ ?_
  · rintro r c ⟨h1, h2, h3, h4⟩ p hp
    have N := nb B h1 h3
    have l := B.lt r c
    have d1 := B.right r c
    have d2 := B.down r c
    unfold greenPixel
    by_cases hg : col r c = 1
    · simpa [hg] using hp
    · have d1' := d1.mpr hg
      have d2' := d2.mpr hg
      simp only [ne_eq, hg, not_false_eq_true, if_true, Good, S2, inImg, N.n1, N.w1, N.n2, N.w2, N.s2, N.e2, d1', d2']
      refine ⟨?_, ?_, ?_, ?_, ?_, ?_, ?_, ?_, ?_, ?_, ?_, ?_, ?_, ?_, ?_, ?_, ?_, ?_, ?_⟩
      all_goals first
        | (rintro ⟨-, -, h⟩; exact h)
        | (rintro ⟨-, h, -⟩; exact h trivial)
        | exact ⟨by omega, by omega, by omega⟩
        | exact ⟨⟨⟨h1, h2, h3, h4⟩, trivial, trivial⟩, trivial, ⟨by omega, by omega, by omega⟩, rfl, hp⟩
  · intro r c p
    unfold greenPixel
    by_cases hg : col r c = 1 <;> simp [hg, pend]
  · rintro ⟨r, c, k⟩ ⟨h1, h2, h3⟩
    simp only at h1 h2 h3
    subst h3
    exact ⟨h1, by simp [h2]⟩

theorem inv3 (B : BayerCol col) (w h : Nat) (m : Mem) :
    PInv m (S3 col w h) (fin3 col m) (inImg w h) (fun i d => d.1 = i + 3) (rowTasks w h (rbAtGreenPixel col), m) := by
  refine inv_tasks (cells := fun r c => if col r c = 1 then [(r, c, col r (c + 1)), (r, c, col (r + 1) c)] else []) ?_ ?_ ?_
  · rintro r c ⟨h1, h2, h3, h4⟩ p hp
    have N := nb B h1 h3
    have l := B.lt r (c + 1)
    have l' := B.lt (r + 1) c
    have d1 := B.right r c
    have d2 := B.down r c
    have d3 := B.cross r c
    unfold rbAtGreenPixel
    by_cases hg : col r c = 1
    · have d1' : ¬ col r (c + 1) = 1 := fun h => d1.mp h hg
      have d2' : ¬ col (r + 1) c = 1 := fun h => d2.mp h hg
      have d3' := d3 hg
      simp only [hg, if_true, Good, S3, inImg, N.n1, N.w1, d1', d2']
      have hne : ¬ col r (c + 1) = col (r + 1) c := by omega
      refine ⟨?_, ?_, ?_, ?_, ?_, ?_, ?_, ?_, ?_, ?_, ?_, ?_, ?_, ?_, ?_, ?_, ?_, ?_, ?_⟩
      all_goals first
        | (rintro ⟨-, h, -⟩; exact absurd h d1')
        | (rintro ⟨-, h, -⟩; exact absurd h d2')
        | (rintro ⟨-, -, h⟩; omega)
        | (rintro ⟨-, h, -⟩; exact h)
        | exact ⟨by omega, by omega, by omega⟩
        | (refine ⟨⟨⟨h1, h2, h3, h4⟩, trivial, by omega⟩, trivial, ⟨by omega, by omega, by omega⟩, ?_, ⟨⟨h1, h2, h3, h4⟩, trivial, by omega⟩, trivial,
            ⟨by omega, by omega, by omega⟩, ?_, hp⟩ <;> simp [fin3, hne])
    · simpa [hg] using hp
  · intro r c p
    unfold rbAtGreenPixel
    by_cases hg : col r c = 1 <;> simp [hg, pend]
  · rintro ⟨r, c, k⟩ ⟨h1, h2, h3⟩
    simp only at h1 h2 h3
    refine ⟨h1, ?_⟩
    have l := B.lt r (c + 1)
    have d1 := B.right r c
    have d3 := B.cross r c h2
    have : k = col r (c + 1) ∨ k = col (r + 1) c := by omega
    simp [h2, this]

theorem inv4 (B : BayerCol col) (w h : Nat) (m : Mem) :
    PInv m (S4 col w h) (fin4 col m) (inImg w h) (fun i d => d.1 = i + 3) (rowTasks w h (rbAtNonGreenPixel col), m) := by
  refine inv_tasks (cells := fun r c => if col r c ≠ 1 then [(r, c, 2 - col r c)] else []) ?_ ?_ ?_
  · rintro r c ⟨h1, h2, h3, h4⟩ p hp
    have N := nb B h1 h3
    have l := B.lt r c
    have d1 := B.diag r c
    unfold rbAtNonGreenPixel
    by_cases hg : col r c = 1
    · simpa [hg] using hp
    · have d1' := d1 hg
      have hy : (if col r c = 0 then 2 else 0) = 2 - col r c := by split <;> omega
      simp only [ne_eq, hg, not_false_eq_true, if_true, hy, Good, S4, inImg, N.ne, N.sw, N.nw, N.ne2, N.sw2, N.nw2, N.se2, d1']
      refine ⟨?_, ?_, ?_, ?_, ?_, ?_, ?_, ?_, ?_, ?_, ?_, ?_, ?_, ?_, ?_, ?_, ?_, ?_, ?_, ?_, ?_, ?_, ?_, ?_, ?_, ?_, ?_, ?_, ?_⟩
      all_goals first
        | (rintro ⟨-, -, h⟩; omega)
        | exact ⟨by omega, by omega, by omega⟩
        | exact ⟨⟨⟨h1, h2, h3, h4⟩, trivial, trivial⟩, trivial, ⟨by omega, by omega, by omega⟩, rfl, hp⟩
  · intro r c p
    unfold rbAtNonGreenPixel
    by_cases hg : col r c = 1
    · simp [hg]
    · have l := B.lt r c
      have hy : (if col r c = 0 then 2 else 0) = 2 - col r c := by split <;> omega
      simp [hg, pend, hy]
  · rintro ⟨r, c, k⟩ ⟨h1, h2, h3⟩
    simp only at h1 h2 h3
    subst h3
    exact ⟨h1, by simp [h2]⟩

end Verif.Demosaic
