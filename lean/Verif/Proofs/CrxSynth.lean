import Verif.Proofs.CrxTile

/-! Every set of bands is the transform of an image. -/

namespace Verif.Crx

open Verif.Wav

/-- Even samples from the coefficients -/
def evn (w : Nat) (lo hi : Nat → Int) (n : Nat) : Int := lo n - (hi (min (n - 1) (w / 2 - 1)) + hi (min n (w / 2 - 1)) + 2) / 4

/-- A line from its coefficients -/
def synth (w : Nat) (lo hi : Nat → Int) (i : Nat) : Int :=
  if w ≤ 1 then lo 0
  else if i % 2 = 0 then evn w lo hi (i / 2)
  else hi (i / 2) + (evn w lo hi (i / 2) + evn w lo hi (min (i / 2 + 1) ((w + 1) / 2 - 1))) / 2

/-- Its symmetric extension -/
def sx (w : Nat) (lo hi : Nat → Int) (i : Int) : Int := synth w lo hi (reflect w i)

section
variable {w : Nat} {lo hi : Nat → Int}

theorem sx_sig : Sig false false w (sx w lo hi) := by
  refine ⟨fun _ k => ?_, fun _ k => ?_, fun h1 k => ?_⟩
  · simp only [sx, reflect_neg]
  · simp only [sx, reflect_right]
  · subst h1; simp [sx, reflect]

theorem sx_in {i : Nat} (h : i < w) : sx w lo hi (i : Nat) = synth w lo hi i := by
  unfold sx; rw [reflect_id (by omega) (by omega)]; rfl

theorem sx_even (hw : 2 ≤ w) {n : Nat} (h : 2 * n < w) : sx w lo hi (2 * (n : Int)) = evn w lo hi n := by
  have := sx_in (lo := lo) (hi := hi) h
  rw [show ((2 * n : Nat) : Int) = 2 * (n : Int) by omega] at this
  rw [this, synth, if_neg (by omega), if_pos (by omega), show 2 * n / 2 = n by omega]

theorem sx_odd (hw : 2 ≤ w) {n : Nat} (h : 2 * n + 1 < w) :
    sx w lo hi (2 * (n : Int) + 1) = hi n + (evn w lo hi n + evn w lo hi (min (n + 1) ((w + 1) / 2 - 1))) / 2 := by
  have := sx_in (lo := lo) (hi := hi) h
  rw [show ((2 * n + 1 : Nat) : Int) = 2 * (n : Int) + 1 by omega] at this
  rw [this, synth, if_neg (by omega), if_neg (by omega), show (2 * n + 1) / 2 = n by omega]

theorem sx_high {n : Nat} (h : n < w / 2) : high (sx w lo hi) n = hi n := by
  have h2 : sx w lo hi (2 * (n : Int) + 2) = evn w lo hi (min (n + 1) ((w + 1) / 2 - 1)) := by
    by_cases e : 2 * n + 2 < w
    · rw [show 2 * (n : Int) + 2 = 2 * ((n + 1 : Nat) : Int) by omega, sx_even (by omega) (by omega), Nat.min_eq_left (by omega)]
    · rw [sx_sig.even_right rfl n (by omega), sx_even (by omega) (by omega), show min (n + 1) ((w + 1) / 2 - 1) = n by omega]
  unfold high
  rw [h2, sx_odd (by omega) (by omega), sx_even (by omega) (by omega)]
  omega

theorem sx_low {n : Nat} (hw : 0 < w) (h : n < (w + 1) / 2) : low (sx w lo hi) n = lo n := by
  by_cases h1 : w = 1
  · have hn : n = 0 := by omega
    subst hn
    have := low_const (x := sx w lo hi) (sx_sig.one h1)
    rw [show ((0 : Nat) : Int) = 0 from rfl, this]
    have := sx_in (lo := lo) (hi := hi) (i := 0) (w := w) (by omega)
    rw [show ((0 : Nat) : Int) = 0 from rfl] at this
    rw [this, synth, if_pos (by omega)]
  · have a : high (sx w lo hi) ((n : Int) - 1) = hi (min (n - 1) (w / 2 - 1)) := by
      by_cases e : n = 0
      · subst e
        have := (sx_sig (w := w) (lo := lo) (hi := hi)).high_left rfl
        rw [show ((0 : Nat) : Int) - 1 = -1 from rfl, this, show (0 : Int) = ((0 : Nat) : Int) from rfl, sx_high (by omega)]
        congr 1 <;> omega
      · rw [show (n : Int) - 1 = ((n - 1 : Nat) : Int) by omega, sx_high (by omega)]
        congr 1; omega
    have b : high (sx w lo hi) (n : Int) = hi (min n (w / 2 - 1)) := by
      by_cases e : n < w / 2
      · rw [sx_high e]; congr 1; omega
      · rw [← (sx_sig (w := w) (lo := lo) (hi := hi)).high_right rfl n (by omega), a]
        congr 1; omega
    unfold low
    rw [a, b, sx_even (by omega) (by omega), evn]
    omega

theorem synth_bd {M : Int} (h0 : ∀ n, -M ≤ lo n ∧ lo n ≤ M) (h1 : ∀ n, -M ≤ hi n ∧ hi n ≤ M) (i : Nat) :
    -(3 * M + 3) ≤ synth w lo hi i ∧ synth w lo hi i ≤ 3 * M + 3 := by
  have e : ∀ n, -(2 * M + 2) ≤ evn w lo hi n ∧ evn w lo hi n ≤ 2 * M + 2 := by
    intro n
    have := h0 n; have := h1 (min (n - 1) (w / 2 - 1)); have := h1 (min n (w / 2 - 1))
    unfold evn; omega
  unfold synth
  split
  · have := h0 0; omega
  · split
    · have := e (i / 2); have := h0 0; omega
    · have := e (i / 2); have := e (min (i / 2 + 1) ((w + 1) / 2 - 1)); have := h1 (i / 2)
      omega

end

/-- Value of a list of rows -/
def at2 (l : List (List Int)) (r c : Nat) : Int := (l.getD r []).getD c 0

theorem at2_bd {M : Int} (hM : 0 ≤ M) {l} (h : RowsBd M l) (r c : Nat) : -M ≤ at2 l r c ∧ at2 l r c ≤ M := by
  unfold at2
  rw [List.getD_eq_getElem?_getD, List.getD_eq_getElem?_getD]
  cases ha : l[r]? with
  | none => simp; omega
  | some row =>
    simp only [Option.getD_some]
    cases hb : row[c]? with
    | none => simp; omega
    | some v =>
      simp only [Option.getD_some]
      exact h row (List.mem_of_getElem? ha) v (List.mem_of_getElem? hb)

theorem window_eq {n m : Nat} {l : List (List Int)} {Y : Img} (hr : Rect n m l) (h : ∀ r c : Nat, r < n → c < m → Y r c = at2 l r c) :
    window n m 0 Y = l := by
  apply List.ext_getElem (by simp [window, hr.1])
  intro r h1 h2
  have hrow := hr.2 l[r] (List.getElem_mem _)
  have hrn : r < n := by rw [← hr.1]; exact h2
  apply List.ext_getElem (by simp [window, hrow])
  intro c h3 h4
  have hcm : c < m := by omega
  have := h r c hrn hcm
  simp only [window, List.getElem_map, List.getElem_range, Int.zero_add, this]
  unfold at2
  rw [List.getD_eq_getElem?_getD, List.getD_eq_getElem?_getD, List.getElem?_eq_getElem h2]
  simp only [Option.getD_some]
  rw [List.getElem?_eq_getElem h4]
  rfl

/-- The image of one level from its bands -/
def synth2 (h w : Nat) (ll hl lh hh : List (List Int)) (r c : Nat) : Int :=
  synth h (fun n => synth w (at2 ll n) (at2 hl n) c) (fun n => synth w (at2 lh n) (at2 hh n) c) r

theorem synth2_ok (h w : Nat) (hh0 : 0 < h) (hw0 : 0 < w) (ll : List (List Int)) (b : Bands3) (h0 : Rect ((h + 1) / 2) ((w + 1) / 2) ll)
    (h1 : Rect ((h + 1) / 2) (w / 2) b.1) (h2 : Rect (h / 2) ((w + 1) / 2) b.2.1) (h3 : Rect (h / 2) (w / 2) b.2.2) (M : Int) (hM : 0 ≤ M)
    (m0 : RowsBd M ll) (m1 : RowsBd M b.1) (m2 : RowsBd M b.2.1) (m3 : RowsBd M b.2.2) :
    ∃ rows, Rect h w rows ∧ RowsBd (9 * M + 12) rows ∧ window ((h + 1) / 2) ((w + 1) / 2) 0 (LL (ext h w rows)) = ll ∧
      window ((h + 1) / 2) (w / 2) 0 (HL (ext h w rows)) = b.1 ∧ window (h / 2) ((w + 1) / 2) 0 (LH (ext h w rows)) = b.2.1 ∧
      window (h / 2) (w / 2) 0 (HH (ext h w rows)) = b.2.2 := by
  obtain ⟨hl, lh, hh⟩ := b
  simp only at *
  obtain ⟨Y, eY⟩ : ∃ Y : Nat → Nat → Int, Y = synth2 h w ll hl lh hh := ⟨_, rfl⟩
  refine ⟨(List.range h).map fun r => (List.range w).map fun c => Y r c, ?_, ?_, ?_⟩
  · refine ⟨by simp, ?_⟩
    intro row hrow
    simp only [List.mem_map, List.mem_range] at hrow
    obtain ⟨r, _, e⟩ := hrow
    subst e; simp
  · intro row hrow v hv
    simp only [List.mem_map, List.mem_range] at hrow
    obtain ⟨r, _, e⟩ := hrow
    subst e
    simp only [List.mem_map, List.mem_range] at hv
    obtain ⟨c, _, e⟩ := hv
    subst e
    rw [eY]
    have := synth_bd (w := h) (M := 3 * M + 3) (lo := fun n => synth w (at2 ll n) (at2 hl n) c) (hi := fun n => synth w (at2 lh n) (at2 hh n) c)
      (fun n => synth_bd (fun j => at2_bd hM m0 n j) (fun j => at2_bd hM m1 n j) c)
      (fun n => synth_bd (fun j => at2_bd hM m2 n j) (fun j => at2_bd hM m3 n j) c) r
    unfold synth2; omega
  · have he : ext h w ((List.range h).map fun r => (List.range w).map fun c => Y r c) = fun r c => Y (reflect h r) (reflect w c) := by
      funext r c
      have a := reflect_lt (i := r) hh0
      have b := reflect_lt (i := c) hw0
      simp only [ext, List.getD_eq_getElem?_getD]
      simp [a, b]
    rw [he, eY]
    have vl : ∀ n : Nat, n < (h + 1) / 2 → vert low (fun r c => synth2 h w ll hl lh hh (reflect h r) (reflect w c)) n = sx w (at2 ll n) (at2 hl n) := by
      intro n hn
      funext c
      exact sx_low (w := h) (lo := fun n => synth w (at2 ll n) (at2 hl n) (reflect w c)) (hi := fun n => synth w (at2 lh n) (at2 hh n) (reflect w c)) hh0 hn
    have vh : ∀ n : Nat, n < h / 2 → vert high (fun r c => synth2 h w ll hl lh hh (reflect h r) (reflect w c)) n = sx w (at2 lh n) (at2 hh n) := by
      intro n hn
      funext c
      exact sx_high (w := h) (lo := fun n => synth w (at2 ll n) (at2 hl n) (reflect w c)) (hi := fun n => synth w (at2 lh n) (at2 hh n) (reflect w c)) hn
    refine ⟨window_eq h0 ?_, window_eq h1 ?_, window_eq h2 ?_, window_eq h3 ?_⟩
    · intro r c hr hc; simp only [LL]; rw [vl r hr]; exact sx_low hw0 hc
    · intro r c hr hc; simp only [HL]; rw [vl r hr]; exact sx_high hc
    · intro r c hr hc; simp only [LH]; rw [vh r hr]; exact sx_low hw0 hc
    · intro r c hr hc; simp only [HH]; rw [vh r hr]; exact sx_high hc

/-- Every set of bands is the transform of an image, all of whose levels are within the bound. -/
theorem forward_surj : ∀ (bs : List Bands3) (ll : List (List Int)) (h w : Nat) (M : Int), 0 < h → 0 < w → Shape bs ll h w → 0 ≤ M → RowsBd M ll →
    (∀ b ∈ bs, RowsBd M b.1 ∧ RowsBd M b.2.1 ∧ RowsBd M b.2.2) → 9 ^ bs.length * (2 * M + 3) ≤ 380000003 →
    ∃ rows B, Rect h w rows ∧ RowsBd B rows ∧ M ≤ B ∧ 2 * B + 3 = 9 ^ bs.length * (2 * M + 3) ∧ LevelsBd bs.length h w rows ∧
      forward bs.length h w rows = (bs, ll) := by
  intro bs
  induction bs with
  | nil =>
    intro ll h w M _ _ hs hM hl _ _
    exact ⟨ll, M, hs, hl, by omega, by simp, trivial, rfl⟩
  | cons b bs ih =>
    intro ll h w M hh hw hs hM hl hb hbd
    obtain ⟨s1, s2, s3, hs⟩ := hs
    obtain ⟨m1, m2, m3⟩ := hb b (by simp)
    rw [List.length_cons, Int.pow_succ'] at hbd
    have hp : (0 : Int) < 9 ^ bs.length := Int.pow_pos (by omega)
    have hpos : 0 ≤ 9 ^ bs.length * (2 * M + 3) := Int.mul_nonneg (by omega) (by omega)
    obtain ⟨rows1, B1, r1, bd1, le1, e1, lv1, f1⟩ := ih ll ((h + 1) / 2) ((w + 1) / 2) M (by omega) (by omega) hs hM hl
      (fun b' hb' => hb b' (by simp [hb'])) (by
        rw [Int.mul_assoc] at hbd; omega)
    obtain ⟨rows, r2, bd2, w0, w1, w2, w3⟩ := synth2_ok h w hh hw rows1 b r1 s1 s2 s3 B1 (by omega) bd1
      (rowsBd_mono le1 m1) (rowsBd_mono le1 m2) (rowsBd_mono le1 m3)
    rw [Int.mul_assoc] at hbd
    refine ⟨rows, 9 * B1 + 12, r2, bd2, by omega, ?_, ⟨rowsBd_mono (by omega) bd2, ?_⟩, ?_⟩
    · rw [List.length_cons, Int.pow_succ', Int.mul_assoc, ← e1]; omega
    · rw [w0]; exact lv1
    · simp only [List.length_cons, forward, w0, w1, w2, w3, f1]

end Verif.Crx
