import Verif.Proofs.ArwCurve
import Verif.Props.CrxRange
/-! # C56: Sony ARW1 and ARW2 data decode to the pixels the camera stored -/

namespace Verif.Props
open Verif Verif.Spec Verif.Spec.Arw Verif.Arw Verif.Pumps Verif.Linearize

/-! ## ARW1 -/

/-- For every image of even height (any width, any 16 bit pixels) and every file that holds its code followed by at least 12
more bits, the decoder returns the image. -/
theorem C56_arw1_partial (buf : List Nat) (hb : IsBytes buf) (w h : Nat) (he : h % 2 = 0) (h0 : 0 < h) (px : Nat → Nat → Nat)
    (hpx : ∀ r c, r < h → c < w → px r c < 65536) (pad : List Bool) (hp : 12 ≤ pad.length)
    (hcode : bytesMSB buf = encodeArw1 w h px ++ pad) :
    ∃ img, decodeArw1 buf w h = .ok img ∧ Holds img w h px :=
  arw1_ok buf hb w h he h0 px hpx pad hp hcode

/-- A 2 x 4 image with large jumps, equal neighbours and all code lengths between. -/
example : IsBytes [0, 3, 255, 254, 192, 0, 128, 0, 112, 31, 152, 8, 44, 7, 238, 2, 9, 0, 0] ∧
    bytesMSB [0, 3, 255, 254, 192, 0, 128, 0, 112, 31, 152, 8, 44, 7, 238, 2, 9, 0, 0] =
      encodeArw1 2 4 (fun r c => ([[500, 65535], [503, 0], [0, 65535], [1, 1]].getD r []).getD c 0) ++ List.replicate 16 false ∧
    decodeArw1 [0, 3, 255, 254, 192, 0, 128, 0, 112, 31, 152, 8, 44, 7, 238, 2, 9, 0, 0] 2 4 = .ok [500, 65535, 503, 0, 0, 65535, 1, 1] := by
  refine ⟨by decide, by decide +kernel, by decide +kernel⟩

/-- In images of odd height every second row stays black, whatever the file holds. -/
theorem C56_arw1_odd_height (buf : List Nat) (w h : Nat) (ho : h % 2 = 1) (img : List Nat) (e : decodeArw1 buf w h = .ok img) :
    ∀ r c, r < h → c < w → r % 2 = 1 → img[r * w + c]? = some 0 :=
  odd_height buf w h ho img e

/-- Such a file: its code for three rows decodes without an error, and the middle row is lost. -/
theorem C56_arw1_odd_height_wrong :
    ∃ buf px pad, IsBytes buf ∧ 12 ≤ pad.length ∧ bytesMSB buf = encodeArw1 1 3 px ++ pad ∧ px 1 0 ≠ 0 ∧
      decodeArw1 buf 1 3 = .ok [px 0 0, 0, px 2 0] :=
  ⟨[0xee, 0x80, 0x00, 0x00], fun r _ => if r = 1 then 3 else 1, List.replicate 22 false, by decide, by decide, by decide +kernel, by decide,
    by decide +kernel⟩

/-- Without the 12 bits after the code the reader runs off the end of the file. -/
theorem C56_arw1_no_padding :
    ∃ buf px pad, IsBytes buf ∧ bytesMSB buf = encodeArw1 1 2 px ++ pad ∧ pad.length = 6 ∧ decodeArw1 buf 1 2 = panic' :=
  ⟨[0x66, 0x00], fun r _ => if r = 1 then 8 else 0, List.replicate 6 false, by decide, by decide +kernel, by decide, by decide +kernel⟩

/-! ## ARW2 -/

/-- The camera's tone curve as a table. -/
def cameraCurve (k1 k2 k3 k4 : Nat) : List Nat := (List.range 4096).map (curveAt k1 k2 k3 k4)

/-- The decoder builds the camera's curve from the four knots in the file (in units of a quarter), with room for dithering, for
all knots in order from 8 on. -/
theorem C56_curve_partial (t1 t2 t3 t4 : Nat) (h8 : 8 ≤ (t1 / 4) % 4096) (h12 : (t1 / 4) % 4096 ≤ (t2 / 4) % 4096)
    (h23 : (t2 / 4) % 4096 ≤ (t3 / 4) % 4096) (h34 : (t3 / 4) % 4096 ≤ (t4 / 4) % 4096) :
    ∃ curve, getCurve [t1, t2, t3, t4] = .ok curve ∧
      curve = (List.range 4096).map (entryAt (cameraCurve ((t1 / 4) % 4096) ((t2 / 4) % 4096) ((t3 / 4) % 4096) ((t4 / 4) % 4096))) ∧
      Gentle (cameraCurve ((t1 / 4) % 4096) ((t2 / 4) % 4096) ((t3 / 4) % 4096) ((t4 / 4) % 4096)) := by
  have hk : ∀ t : Nat, (t >>> 2) &&& 0xfff = (t / 4) % 4096 := by
    intro t
    rw [Nat.shiftRight_eq_div_pow, show (0xfff : Nat) = 2 ^ 12 - 1 from rfl, Nat.and_two_pow_sub_one_eq_mod]
  have hlt : ∀ t : Nat, (t / 4) % 4096 ≤ 4095 := by intro t; omega
  obtain ⟨table, e, hg, hl, hv⟩ := calculateCurve_ok ((t1 / 4) % 4096) ((t2 / 4) % 4096) ((t3 / 4) % 4096) ((t4 / 4) % 4096)
    ⟨h8, hlt _⟩ ⟨by omega, hlt _⟩ ⟨by omega, hlt _⟩ ⟨by omega, hlt _⟩
  have ht : table = cameraCurve ((t1 / 4) % 4096) ((t2 / 4) % 4096) ((t3 / 4) % 4096) ((t4 / 4) % 4096) := by
    apply List.ext_getElem
    · rw [hl, cameraCurve, List.length_map, List.length_range]
    · intro i h1 h2
      have := hv h12 h23 h34 i (by omega)
      rw [at'_eq hl, Nat.min_eq_left (by omega), getD_lt' _ _ h1] at this
      rw [this]
      simp only [cameraCurve, List.getElem_map, List.getElem_range]
  refine ⟨_, ?_, rfl, by rw [← ht]; exact hg⟩
  rw [← ht, ← e, getCurve]
  simp only [List.map_cons, List.map_nil, hk]
  rfl

/-- The knots of a real camera. -/
example : 8 ≤ (8000 / 4) % 4096 ∧ (8000 / 4) % 4096 ≤ (10400 / 4) % 4096 ∧ (10400 / 4) % 4096 ≤ (12900 / 4) % 4096 ∧
    (12900 / 4) % 4096 ≤ (14100 / 4) % 4096 := by decide

/-- Knots in disorder are accepted as well; the curve still rises by 1 to 16 at every step. -/
theorem C56_curve_any_order (k1 k2 k3 k4 : Nat) (h1 : 8 ≤ k1 ∧ k1 ≤ 4095) (h2 : 8 ≤ k2 ∧ k2 ≤ 4095) (h3 : 8 ≤ k3 ∧ k3 ≤ 4095)
    (h4 : 8 ≤ k4 ∧ k4 ≤ 4095) :
    ∃ table, curveTable [0, k1, k2, k3, k4, 4095] = .ok table ∧ table.length = 4096 ∧ table.getD 0 0 = 0 ∧
      ∀ x, x < 4095 → table.getD x 0 + 1 ≤ table.getD (x + 1) 0 ∧ table.getD (x + 1) 0 ≤ table.getD x 0 + 16 := by
  obtain ⟨out, e, r, _⟩ := table_ok k1 k2 k3 k4 h1 h2 h3 h4
  exact ⟨out, e, r.1, r.2.1 0 (by omega), r.2.2⟩

/-- Steep curves that begin with a small value are refused by an arithmetic overflow. -/
theorem C56_curve_steep_start : new [0, 1, 17, 33] = panic' := by decide +kernel

/-- ARW2: an image whose width is a multiple of 32, each row in its own `w` bytes. Every decoded pixel is a dithered curve value
of a stored value `s`, which is at most the camera's value and less than `2^shift` below it; it is the camera's value
where the group's range is below 128, and for the extremes. -/
theorem C56_arw2_partial (buf : List Nat) (hb : IsBytes buf) (t1 t2 t3 t4 : Nat) (h8 : 8 ≤ (t1 / 4) % 4096)
    (h12 : (t1 / 4) % 4096 ≤ (t2 / 4) % 4096) (h23 : (t2 / 4) % 4096 ≤ (t3 / 4) % 4096) (h34 : (t3 / 4) % 4096 ≤ (t4 / 4) % 4096)
    (w h : Nat) (hw : 0 < w) (h32 : w % 32 = 0) (g : Nat → Nat → Group) (hg : ∀ r k, r < h → k < w / 16 → (g r k).OK)
    (hc : ∀ r, r < h → bytesLSB ((buf.drop (r * w)).take w) = rowCode (w / 16) (g r)) :
    ∃ curve img, getCurve [t1, t2, t3, t4] = .ok curve ∧ decodeArw2 buf curve w h = .ok img ∧ img.length = h * w ∧
      ∀ r c, r < h → c < w → ∃ q s, img[r * w + c]? = some q ∧
        Near (cameraCurve ((t1 / 4) % 4096) ((t2 / 4) % 4096) ((t3 / 4) % 4096) ((t4 / 4) % 4096)) (2 * s) q ∧
        s ≤ (g r (groupOf c)).v (placeOf c) ∧ (g r (groupOf c)).v (placeOf c) < s + 2 ^ (g r (groupOf c)).shift ∧
        ((g r (groupOf c)).v (g r (groupOf c)).hi - (g r (groupOf c)).v (g r (groupOf c)).lo < 128 → s = (g r (groupOf c)).v (placeOf c)) ∧
        (placeOf c = (g r (groupOf c)).hi ∨ placeOf c = (g r (groupOf c)).lo → s = (g r (groupOf c)).v (placeOf c)) := by
  obtain ⟨curve, e, hcv, hgen⟩ := C56_curve_partial t1 t2 t3 t4 h8 h12 h23 h34
  generalize cameraCurve ((t1 / 4) % 4096) ((t2 / 4) % 4096) ((t3 / 4) % 4096) ((t4 / 4) % 4096) = table at *
  obtain ⟨m, rfl⟩ : ∃ m, w = 32 * m := ⟨w / 32, by omega⟩
  have hdiv : 32 * m / 16 = 2 * m := by omega
  rw [hdiv] at hg hc
  have hrows : ∀ r, r < h → ∃ o, arw2Row buf curve (32 * m) (List.replicate (32 * m) 0) r = .ok o ∧ o.length = 32 * m ∧
      ∀ c, c < 32 * m → ∃ q, o[c]? = some q ∧ Near table (2 * (g r (groupOf c)).stored (placeOf c)) q := by
    intro r hr
    have := row_ok table hgen 4096 (Nat.le_refl _) buf hb m (by omega) r (g r) (fun k hk => hg r k hr hk) (hc r hr)
    rw [← hcv] at this
    exact this
  let row : Nat → List Nat := fun r => if hr : r < h then (hrows r hr).choose else []
  have hrow : ∀ r, r < h → arw2Row buf curve (32 * m) (List.replicate (32 * m) 0) r = .ok (row r) ∧ (row r).length = 32 * m ∧
      ∀ c, c < 32 * m → ∃ q, (row r)[c]? = some q ∧ Near table (2 * (g r (groupOf c)).stored (placeOf c)) q := by
    intro r hr
    have := (hrows r hr).choose_spec
    simp only [row, dif_pos hr]
    exact this
  obtain ⟨img, e2, hl, hv⟩ := Packed.linesFn_ok (32 * m) h hw (arw2Row buf curve (32 * m)) (fun r c => (row r).getD c 0) (by
    intro r hr
    obtain ⟨h1, h2, _⟩ := hrow r hr
    rw [h1]
    congr 1
    apply List.ext_getElem
    · simp [h2]
    · intro i i1 i2
      simp only [List.getElem_map, List.getElem_range]
      rw [getD_lt' _ _ i1])
  refine ⟨curve, img, e, e2, hl, ?_⟩
  intro r c hr hcw
  obtain ⟨_, h2, h3⟩ := hrow r hr
  obtain ⟨q, q1, q2⟩ := h3 c hcw
  have hk : groupOf c < 2 * m := by unfold groupOf; omega
  have hpl : placeOf c < 16 := by unfold placeOf; omega
  have hok := hg r (groupOf c) hr hk
  have hst := stored_le _ hok (placeOf c) hpl
  refine ⟨q, (g r (groupOf c)).stored (placeOf c), ?_, q2, hst.1, hst.2, ?_, ?_⟩
  · rw [hv r c hr hcw]
    show some ((row r).getD c 0) = some q
    rw [List.getD_eq_getElem?_getD, q1]; rfl
  · intro hrange
    have hs : (g r (groupOf c)).shift = 0 := by
      have := digits_le (k := 7) hrange
      unfold Group.shift shiftFor; omega
    rw [hs] at hst
    omega
  · intro hx
    rw [Group.stored, if_pos hx]

/-- Two groups, one with a range that needs a shift, in 32 bytes. -/
example : IsBytes [187, 35, 195, 195, 193, 81, 225, 140, 84, 177, 28, 240, 232, 172, 114, 199, 255, 151, 62, 188, 234, 68, 10, 121, 54, 152, 138, 228, 193, 72, 24, 6] ∧
    (Group.OK ⟨fun i => 100 + 57 * i, 15, 0⟩) ∧ (Group.OK ⟨fun i => 2047 - 3 * i, 0, 15⟩) ∧
    (Group.shift ⟨fun i => 100 + 57 * i, 15, 0⟩) = 3 ∧
    bytesLSB [187, 35, 195, 195, 193, 81, 225, 140, 84, 177, 28, 240, 232, 172, 114, 199, 255, 151, 62, 188, 234, 68, 10, 121, 54, 152, 138, 228, 193, 72, 24, 6] =
      rowCode 2 (fun k => if k = 0 then ⟨fun i => 100 + 57 * i, 15, 0⟩ else ⟨fun i => 2047 - 3 * i, 0, 15⟩) := by
  refine ⟨by decide, by unfold Group.OK; decide, by unfold Group.OK; decide, by decide, by decide +kernel⟩

/-- A group whose first value (the greatest) is below its second (the smallest) overflows. -/
theorem C56_arw2_extremes_swapped (rand : Nat) (out : List Nat) (curve : List (Nat × Nat × Nat)) :
    arw2Group curve 0 (PumpLSB.new [0, 8, 0, 0], rand, out) = panic' := by
  unfold arw2Group
  have h1 : getBits (PumpLSB.new [0, 8, 0, 0]) 11 = .ok (0, ⟨[], 1, 21⟩) := by decide +kernel
  have h2 : getBits (⟨[], 1, 21⟩ : PumpLSB) 11 = .ok (1, ⟨[], 0, 10⟩) := by decide +kernel
  rw [h1]
  simp only [bind, Except.bind]
  rw [h2]
  rfl

theorem pixel2_length (curve : List (Nat × Nat × Nat)) (j a b s x y : Nat) (i : Nat) (st st' : PumpLSB × Nat × List Nat)
    (e : arw2Pixel curve j a b s x y i st = .ok st') : st'.2.2.length = st.2.2.length := by
  unfold arw2Pixel at e
  simp only [bind, Except.bind] at e
  repeat (split at e; · cases e)
  rename_i hu
  cases e
  rw [upd] at hu
  split at hu
  · cases hu; simp
  · cases hu

theorem chunk_length (curve : List (Nat × Nat × Nat)) (p : PumpLSB) (rand : Nat) (out : List Nat) (st' : PumpLSB × Nat × List Nat)
    (e : arw2Chunk curve p rand out = .ok st') : st'.2.2.length = out.length := by
  refine forN_post 2 _ (fun s : PumpLSB × Nat × List Nat => s.2.2.length = out.length) ?_ _ _ e rfl
  intro j s s' e h
  unfold arw2Group at e
  simp only [bind, Except.bind] at e
  repeat (split at e; · cases e)
  refine forN_post 16 _ (fun s : PumpLSB × Nat × List Nat => s.2.2.length = out.length) ?_ _ _ e h
  intro i s1 s2 e1 h1
  rw [pixel2_length _ _ _ _ _ _ _ _ _ _ e1, h1]

theorem chunks_tail (curve : List (Nat × Nat × Nat)) (n : Nat) (p : PumpLSB) (rand : Nat) (out o : List Nat) (hl : 32 * n ≤ out.length)
    (e : arw2Chunks curve n p rand out = .ok o) : o.length = out.length ∧ o.drop (32 * n) = out.drop (32 * n) := by
  induction n generalizing p rand out o with
  | zero => cases e; exact ⟨rfl, rfl⟩
  | succ n ih =>
    rw [arw2Chunks] at e
    obtain ⟨⟨p1, r1, a⟩, e1, e⟩ := bind_inv _ _ _ e
    obtain ⟨b, e2, e⟩ := bind_inv _ _ _ e
    cases e
    have ha := chunk_length _ _ _ _ _ e1
    simp only [List.length_take] at ha
    obtain ⟨h1, h2⟩ := ih _ _ _ _ (by rw [List.length_drop]; omega) e2
    rw [List.length_drop] at h1
    refine ⟨by rw [List.length_append]; omega, ?_⟩
    rw [List.drop_append, List.drop_of_length_le (by omega), List.nil_append, show 32 * (n + 1) - a.length = 32 * n by omega, h2,
      List.drop_drop]
    congr 1; omega

/-- The columns after the last full 32 stay black, whatever the file holds. -/
theorem C56_arw2_width (buf : List Nat) (curve : List (Nat × Nat × Nat)) (w h : Nat) (img : List Nat)
    (e : decodeArw2 buf curve w h = .ok img) : ∀ r c, r < h → c < w → 32 * (w / 32) ≤ c → img[r * w + c]? = some 0 := by
  rcases Nat.eq_zero_or_pos w with rfl | hw
  · intro r c _ hc; omega
  · unfold decodeArw2 Packed.linesFn at e
    rw [if_neg (by omega)] at e
    obtain ⟨rows, e1, e2⟩ := bind_inv _ _ _ e
    cases e2
    have hlen : ∀ o ∈ rows, o.length = w ∧ o.drop (32 * (w / 32)) = (List.replicate w 0).drop (32 * (w / 32)) := by
      refine mapM_post _ _ ?_ _ _ e1
      intro r o e
      unfold arw2Row at e
      obtain ⟨src, _, e⟩ := bind_inv _ _ _ e
      obtain ⟨⟨rand, p⟩, _, e⟩ := bind_inv _ _ _ e
      simp only [List.length_replicate] at e
      obtain ⟨h1, h2⟩ := chunks_tail _ _ _ _ _ _ (by rw [List.length_replicate]; omega) e
      exact ⟨by simpa using h1, h2⟩
    have hn : ∀ (l : List Nat) (out : List (List Nat)), l.mapM (fun row => arw2Row buf curve w (List.replicate w 0) row) = .ok out →
        out.length = l.length := by
      intro l
      induction l with
      | nil => intro out h; rw [List.mapM_nil] at h; cases h; rfl
      | cons a l ih =>
        intro out h
        rw [List.mapM_cons] at h
        obtain ⟨x, _, h⟩ := bind_inv _ _ _ h
        obtain ⟨xs, h2, h⟩ := bind_inv _ _ _ h
        cases h
        simp [ih _ h2]
    have hn := hn _ _ e1
    rw [List.length_range] at hn
    intro r c hr hc hge
    have hfl : ∀ (rows : List (List Nat)) (r : Nat), (∀ o ∈ rows, o.length = w ∧ o.drop (32 * (w / 32)) = (List.replicate w 0).drop (32 * (w / 32))) →
        r < rows.length → rows.flatten[r * w + c]? = some 0 := by
      intro rows
      induction rows with
      | nil => intro r _ h; simp at h
      | cons a l ih =>
        intro r hall hr
        obtain ⟨ha, hz⟩ := hall a List.mem_cons_self
        rw [List.flatten_cons]
        cases r with
        | zero =>
          rw [List.getElem?_append_left (by omega), Nat.zero_mul, Nat.zero_add]
          have : a[c]? = (a.drop (32 * (w / 32)))[c - 32 * (w / 32)]? := by rw [List.getElem?_drop]; congr 1; omega
          rw [this, hz, List.getElem?_drop, List.getElem?_replicate, if_pos (by omega)]
        | succ r =>
          rw [List.getElem?_append_right (by rw [Nat.add_mul]; omega), ha,
            show (r + 1) * w + c - w = r * w + c by rw [Nat.add_mul, Nat.one_mul]; omega]
          exact ih r (fun o ho => hall o (List.mem_cons_of_mem _ ho)) (by simpa using hr)
    exact hfl rows r hlen (by omega)

end Verif.Props
