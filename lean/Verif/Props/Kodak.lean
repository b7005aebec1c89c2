import Verif.Proofs.Kodak
import Verif.Props.Linearize
/-! # C74: Kodak 65000 decompression gives back the samples, through the curve -/

namespace Verif.Props
open Verif Verif.Spec Verif.Spec.Kodak
open Verif.Orf (ok_bind)
open Verif.Kodak (St pixel segment decodeSegment decode65000 decodeSegment_ok addClamp)

/-- What a pixel is predicted from. -/
def kprev (px : Nat → Nat) (i : Nat) : Int := (if i < 2 then 0 else px (i - 2) : Nat)

theorem kclamp (px : Nat → Nat) (i : Nat) : addClamp (kprev px i) (diff px i) = px i := by
  rw [addClamp, kprev, diff]
  rw [if_neg (by omega)]
  omega

/-- The first `n` samples of the image are near the curve. -/
def KDone (points : List Nat) (px : Nat → Nat → Nat) (w h n : Nat) (out : List Nat) : Prop :=
  out.length = w * h ∧ ∀ p, p < n → ∃ q, out[p]? = some q ∧ Near points (px (p / w) (p % w)) q

theorem KDone.step {points : List Nat} {px : Nat → Nat → Nat} {w h n : Nat} {out : List Nat} (hd : KDone points px w h n out) {q : Nat}
    (hn : n < w * h) (hq : Near points (px (n / w) (n % w)) q) : KDone points px w h (n + 1) (out.set n q) := by
  refine ⟨by rw [List.length_set]; exact hd.1, fun p hp => ?_⟩
  by_cases e : p = n
  · subst e
    exact ⟨q, List.getElem?_set_self (by rw [hd.1]; exact hn), hq⟩
  · rw [List.getElem?_set_ne (by omega)]
    exact hd.2 p (by omega)

theorem kpixel_ok (points : List Nat) (hg : Gentle points) (hl : points.length ≤ 65536) (px : Nat → Nat) (base i : Nat) (hp : px i < points.length)
    (st : St) (hb : base + i < st.out.length) (hr : st.random < 2 ^ 32)
    (h0 : i % 2 = 0 → st.pred0 = kprev px i ∧ st.pred1 = kprev px (i + 1)) (h1 : i % 2 = 1 → st.pred1 = kprev px i ∧ st.pred0 = kprev px (i + 1)) :
    ∃ q st', pixel ((List.range points.length).map (entryAt points)) base i (diff px i) st = .ok st' ∧ st'.out = st.out.set (base + i) q ∧
      Near points (px i) q ∧ st'.random < 2 ^ 32 ∧
      ((i + 1) % 2 = 0 → st'.pred0 = kprev px (i + 1) ∧ st'.pred1 = kprev px (i + 1 + 1)) ∧
      ((i + 1) % 2 = 1 → st'.pred1 = kprev px (i + 1) ∧ st'.pred0 = kprev px (i + 1 + 1)) := by
  obtain ⟨q, rand', e, hq, hr'⟩ := dither_ok points hg points.length (px i) st.random hp hr
  have hk : kprev px (i + 1 + 1) = px i := by rw [kprev, if_neg (by omega)]; rfl
  have hmod : (((px i : Nat) : Int) % 65536).toNat = px i := by omega
  rw [pixel, Kodak.and1]
  by_cases hi : i % 2 = 0
  · obtain ⟨e0, e1⟩ := h0 hi
    rw [if_pos hi, e0, kclamp]
    simp only []
    rw [hmod, e, ok_bind]
    refine ⟨q, ⟨px i, st.pred1, rand', st.out.set (base + i) q⟩, ?_, rfl, hq, hr', fun h => by omega, fun _ => ⟨e1, hk.symm⟩⟩
    simp only []
    rw [upd_lt _ _ _ hb, ok_bind]
  · obtain ⟨e0, e1⟩ := h1 (by omega)
    rw [if_neg hi, e0, kclamp]
    simp only []
    rw [hmod, e, ok_bind]
    refine ⟨q, ⟨st.pred0, px i, rand', st.out.set (base + i) q⟩, ?_, rfl, hq, hr', fun _ => ⟨e1, hk.symm⟩, fun h => by omega⟩
    simp only []
    rw [upd_lt _ _ _ hb, ok_bind]

theorem ksegment_ok (points : List Nat) (hg : Gentle points) (hl : points.length ≤ 65536) (px : Nat → Nat → Nat) (w h r k : Nat)
    (hr : r < h) (hk : k < (w + 255) / 256) (hp : ∀ c, c < w → px r c < points.length) (hf : Fits (part px r k) (size w k))
    (bytes tail : List Nat) (hs : Segment bytes (part px r k) (size w k)) (random : Nat) (out : List Nat) (hrand : random < 2 ^ 32)
    (hd : KDone points px w h (r * w + 256 * k) out) :
    ∃ random' out', segment ((List.range points.length).map (entryAt points)) w r k (bytes ++ tail, random, out) = .ok (tail, random', out') ∧
      random' < 2 ^ 32 ∧ KDone points px w h (r * w + min w (256 * (k + 1))) out' := by
  obtain ⟨buf, e1, hb, hbuf⟩ := decodeSegment_ok (part px r k) (size w k) (by unfold size; omega) hf bytes tail hs
  have hrw : r * w + w ≤ w * h := by
    rw [← Nat.succ_mul, Nat.mul_comm w h]; exact Nat.mul_le_mul_right _ hr
  obtain ⟨s, e2, i1, i2, _⟩ := forN_inv (size w k) (fun i s => do
    let val ← idx buf i
    pixel ((List.range points.length).map (entryAt points)) (r * w + 256 * k) i val s)
    (fun i s => s.random < 2 ^ 32 ∧ KDone points px w h (r * w + 256 * k + i) s.out ∧
      (i % 2 = 0 → s.pred0 = kprev (part px r k) i ∧ s.pred1 = kprev (part px r k) (i + 1)) ∧
      (i % 2 = 1 → s.pred1 = kprev (part px r k) i ∧ s.pred0 = kprev (part px r k) (i + 1)))
    ⟨0, 0, random, out⟩ ⟨hrand, hd, fun _ => ⟨rfl, rfl⟩, fun h => by simp at h⟩
    (by
      rintro i s hi ⟨h1, h2, h3, h4⟩
      have hiw : 256 * k + i < w := by unfold size at hi; omega
      obtain ⟨q, s', e, f1, f2, f3, f4, f5⟩ := kpixel_ok points hg hl (part px r k) (r * w + 256 * k) i (hp _ hiw) s
        (by rw [h2.1]; omega) h1 h3 h4
      refine ⟨s', ?_, f3, ?_, f4, f5⟩
      · have : idx buf i = .ok (diff (part px r k) i) := by rw [idx, hbuf i hi]
        simp only [this, ok_bind, e]
      · rw [f1]
        refine h2.step (by omega) ?_
        rw [Nat.add_assoc, Nat.mul_comm r w, Nat.mul_add_div (by omega), Nat.div_eq_of_lt hiw, Nat.mul_add_mod, Nat.mod_eq_of_lt hiw]
        exact f2)
  refine ⟨s.random, s.out, ?_, i1, ?_⟩
  · rw [segment]
    simp only []
    rw [show min 256 (w - 256 * k) = size w k from rfl, e1, ok_bind]
    simp only []
    rw [e2, ok_bind]
  · rwa [show r * w + min w (256 * (k + 1)) = r * w + 256 * k + size w k by unfold size; omega]

/-- **C74.** If the bytes code a picture, whose samples all have a place on a gentle curve and whose differences have no more than 15 digits, then
reading them gives an image of that size, each sample of which is the curve at the coded sample, up to the dithering of C16. What comes after does
not matter. -/
theorem C74_kodak65000 (points : List Nat) (hg : Gentle points) (hl : points.length ≤ 65536) (curve : List (Nat × Nat × Nat))
    (hc : Linearize.new points = .ok curve) (px : Nat → Nat → Nat) (w h : Nat) (hp : ∀ r, r < h → ∀ c, c < w → px r c < points.length)
    (hf : ∀ r, r < h → ∀ k, Fits (part px r k) (size w k)) (bytes tail : List Nat) (hs : File bytes px w h) :
    ∃ img, decode65000 (bytes ++ tail) curve w h = .ok img ∧ img.length = w * h ∧
      ∀ r, r < h → ∀ c, c < w → ∃ q, img[r * w + c]? = some q ∧ Near points (px r c) q := by
  obtain ⟨last, hlast⟩ : ∃ last, points.getLast? = some last := by
    cases h : points.getLast? with
    | none => exact absurd (List.getLast?_eq_none_iff.mp h) hg.1
    | some x => exact ⟨x, rfl⟩
  have hnew := new_ok points hg 0 last hlast
  rw [List.replicate_zero, List.append_nil, Nat.add_zero, hc] at hnew
  obtain rfl := Except.ok.inj hnew
  clear hnew
  obtain ⟨seg, hseg, rfl⟩ := hs
  generalize hK : (w + 255) / 256 = K at *
  obtain ⟨s, e, i1, i2, i3⟩ := forN_inv h (fun row st => forN K (segment ((List.range points.length).map (entryAt points)) w row) st)
    (fun r st => st.1 = (((List.range h).drop r).flatMap fun r => (List.range K).flatMap fun k => seg r k) ++ tail ∧ st.2.1 < 2 ^ 32 ∧
      KDone points px w h (r * w) st.2.2)
    (((List.range h).flatMap fun r => (List.range K).flatMap fun k => seg r k) ++ tail, 0, List.replicate (w * h) 0)
    ⟨rfl, (by decide : 0 < 2 ^ 32), List.length_replicate, fun p hp => absurd hp (by omega)⟩
    (by
      rintro r ⟨input, rand, out⟩ hr ⟨h1, h2, h3⟩
      simp only at h1 h2 h3
      rw [List.drop_eq_getElem_cons (by simpa using hr), List.flatMap_cons, List.getElem_range, List.append_assoc] at h1
      generalize hT : (((List.range h).drop (r + 1)).flatMap fun r => (List.range K).flatMap fun k => seg r k) ++ tail = T at h1
      obtain ⟨s, e, j1, j2, j3⟩ := forN_inv K (segment ((List.range points.length).map (entryAt points)) w r)
        (fun k st => st.1 = (((List.range K).drop k).flatMap fun k => seg r k) ++ T ∧ st.2.1 < 2 ^ 32 ∧
          KDone points px w h (r * w + min w (256 * k)) st.2.2)
        (input, rand, out) ⟨h1, h2, by rw [Nat.mul_zero, Nat.min_zero, Nat.add_zero]; exact h3⟩
        (by
          rintro k ⟨input, rand, out⟩ hk ⟨h1, h2, h3⟩
          simp only at h1 h2 h3
          rw [List.drop_eq_getElem_cons (by simpa using hk), List.flatMap_cons, List.getElem_range, List.append_assoc] at h1
          rw [Nat.min_eq_right (by omega)] at h3
          obtain ⟨rand', out', e, g1, g2⟩ := ksegment_ok points hg hl px w h r k hr (by omega) (hp r hr) (hf r hr k) (seg r k) _ (hseg r hr k hk)
            rand out h2 h3
          rw [← h1] at e
          exact ⟨_, e, rfl, g1, g2⟩)
      refine ⟨s, e, ?_, j2, ?_⟩
      · rw [j1, List.drop_of_length_le (by simp)]; rfl
      · rw [Nat.succ_mul]
        rwa [Nat.min_eq_left (by omega)] at j3)
  refine ⟨s.2.2, ?_, i3.1, fun r hr c hc => ?_⟩
  · rw [decode65000, hK, e]; rfl
  · have hlt : r * w + c < h * w := by
      have := Nat.mul_le_mul_right w (show r + 1 ≤ h from hr)
      rw [Nat.succ_mul] at this
      omega
    obtain ⟨q, e, hq⟩ := i3.2 (r * w + c) hlt
    refine ⟨q, e, ?_⟩
    rwa [Nat.mul_comm r w, Nat.mul_add_div (by omega), Nat.div_eq_of_lt hc, Nat.mul_add_mod, Nat.mod_eq_of_lt hc] at hq

/-! ## Every such picture has a file -/

theorem bitsLSB_natLSB (l : List Bool) : bitsLSB l.length (natLSB l) = l := by
  induction l with
  | nil => rfl
  | cons b l ih =>
    rw [natLSB, List.length_cons, Nat.add_comm l.length 1, show b.toNat + 2 * natLSB l = natLSB l * 2 ^ 1 + b.toNat by omega,
      Pumps.bitsLSB_append 1 _ _ _ (by cases b <;> decide), ih]
    cases b <;> rfl

theorem pack_words (n : Nat) : ∀ l : List Bool, l.length = 16 * n → ∃ ws : List Nat, ws.length = n ∧ (∀ w ∈ ws, w < 65536) ∧ ws.flatMap (bitsLSB 16) = l := by
  induction n with
  | zero => intro l hl; exact ⟨[], rfl, by simp, by rw [List.length_eq_zero_iff.mp (by omega : l.length = 0)]; rfl⟩
  | succ n ih =>
    intro l hl
    obtain ⟨ws, h1, h2, h3⟩ := ih (l.drop 16) (by rw [List.length_drop]; omega)
    have ht : (l.take 16).length = 16 := by rw [List.length_take]; omega
    refine ⟨natLSB (l.take 16) % 65536 :: ws, by rw [List.length_cons, h1], ?_, ?_⟩
    · intro w hw
      rcases List.mem_cons.mp hw with rfl | hw
      · omega
      · exact h2 w hw
    · have h := bitsLSB_natLSB (l.take 16)
      rw [ht] at h
      rw [List.flatMap_cons, h3, show (65536 : Nat) = 2 ^ 16 from rfl, Pumps.bitsLSB_mod, h, List.take_append_drop]

theorem segment_exists (px : Nat → Nat) (n : Nat) : ∃ bytes, Segment bytes px n := by
  obtain ⟨ws, h1, h2, h3⟩ := pack_words (single n + 2 * (((digits px n).length - 16 * single n + 31) / 32))
    (digits px n ++ List.replicate (16 * (single n + 2 * (((digits px n).length - 16 * single n + 31) / 32)) - (digits px n).length) false)
    (by rw [List.length_append, List.length_replicate]; unfold single; split <;> omega)
  exact ⟨_, 0, ws, by decide, ⟨h2, h1, _, h3⟩, rfl⟩

/-- **C74.** Every picture has such a file, which is read back. -/
theorem C74_every (points : List Nat) (hg : Gentle points) (hl : points.length ≤ 65536) (curve : List (Nat × Nat × Nat))
    (hc : Linearize.new points = .ok curve) (px : Nat → Nat → Nat) (w h : Nat) (hp : ∀ r, r < h → ∀ c, c < w → px r c < points.length)
    (hf : ∀ r, r < h → ∀ k, Fits (part px r k) (size w k)) :
    ∃ bytes, File bytes px w h ∧ ∀ tail, ∃ img, decode65000 (bytes ++ tail) curve w h = .ok img ∧ img.length = w * h ∧
      ∀ r, r < h → ∀ c, c < w → ∃ q, img[r * w + c]? = some q ∧ Near points (px r c) q := by
  have hs : File ((List.range h).flatMap fun r => (List.range ((w + 255) / 256)).flatMap fun k =>
      Classical.choose (segment_exists (part px r k) (size w k))) px w h :=
    ⟨_, fun r _ k _ => Classical.choose_spec (segment_exists (part px r k) (size w k)), rfl⟩
  exact ⟨_, hs, fun tail => C74_kodak65000 points hg hl curve hc px w h hp hf _ tail hs⟩

/-- A picture of two rows: 4, 5, 1, 2, 3 and 0, 0, 0, 0, 0. -/
def kpic (r c : Nat) : Nat := if r = 0 then [4, 5, 1, 2, 3].getD c 0 else 0

example : Segment [0x33, 0x22, 0x02, 0x08, 0x2c, 0x00, 0x00] (part kpic 0 0) (size 5 0) :=
  ⟨0, [0x082c, 0], by decide, ⟨by decide, by decide, List.replicate 20 false, by decide⟩, by decide⟩

example : File ([0x33, 0x22, 0x02, 0x08, 0x2c, 0x00, 0x00] ++ [0, 0, 0]) kpic 5 2 :=
  ⟨fun r _ => if r = 0 then [0x33, 0x22, 0x02, 0x08, 0x2c, 0x00, 0x00] else [0, 0, 0],
    fun r hr k hk => by
      obtain rfl : k = 0 := by omega
      rcases (by omega : r = 0 ∨ r = 1) with rfl | rfl
      · exact ⟨0, [0x082c, 0], by decide, ⟨by decide, by decide, List.replicate 20 false, by decide⟩, by decide⟩
      · exact ⟨0, [], by decide, ⟨by decide, by decide, [], by decide⟩, by decide⟩, by decide⟩

example : ∀ r, r < 2 → ∀ c, c < 5 → kpic r c < [0, 4, 8, 12, 40, 60].length := by decide

example : ∀ r, r < 2 → Fits (part kpic r 0) (size 5 0) := by unfold Fits; decide

example : Gentle [0, 4, 8, 12, 40, 60] := gentle_of_check _ (by decide) (by decide) (by decide +kernel)

/-- A sample beyond the end of the curve aborts: here the curve has two points, and the only sample is 2. -/
theorem C74_beyond_curve_panics :
    ∃ curve, Linearize.new [0, 4] = .ok curve ∧ File [0x02, 0, 2, 0, 0] (fun _ _ => 2) 1 1 ∧
      decode65000 [0x02, 0, 2, 0, 0] curve 1 1 = panic' := by
  refine ⟨_, rfl, ⟨fun _ _ => [0x02, 0, 2, 0, 0], fun r hr k hk => ?_, by decide⟩, by decide +kernel⟩
  obtain rfl : k = 0 := by omega
  obtain rfl : r = 0 := by omega
  exact ⟨0, [2, 0], by decide, ⟨by decide, by decide, List.replicate 30 false, by decide⟩, by decide⟩

end Verif.Props
