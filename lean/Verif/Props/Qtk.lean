import Verif.Proofs.Qtk
import Verif.Props.Linearize
import Verif.Props.Crw
import Mathlib.Tactic.IntervalCases
/-! # C89: QuickTake 100 pictures are decoded as coded -/

namespace Verif.Props
open Verif Verif.Spec Verif.Pumps Verif.Qtk

theorem qtk_curve_gentle : Gentle curve := by
  have hlen : curve.length = 256 := by decide +kernel
  have hm : ∀ i < 256, at' curve i ≤ at' curve (i + 1) := by decide +kernel
  refine ⟨fun h => by rw [h] at hlen; simp at hlen, by decide +kernel, ?_, ?_⟩
  · intro i
    by_cases h : i < 256
    · exact hm i h
    · rw [at', at', hlen, Nat.min_eq_right (by omega), Nat.min_eq_right (by omega)]
  · rw [hlen]; decide +kernel

theorem qtk_pixel_range (n : Nat) (q : Nat → Nat → Nat) (x : Nat → Nat → Int) (r c : Nat) :
    0 ≤ Spec.Qtk.pixel n (Spec.Qtk.green n q) x r c ∧ Spec.Qtk.pixel n (Spec.Qtk.green n q) x r c ≤ 255 := by
  rw [Spec.Qtk.pixel]
  split
  · exact green_range _ _ _ _
  · exact byte_range _

/-- A picture of even width up to 640, with at most 480 rows and more columns than rows, is read from every file with at least three bits per sample: each
sample is the curve at the value that the codes describe, up to the dithering of C16, and this value is a byte.

Partial: larger pictures and those that are not wider than high aren't decoded (`C89_large_aborts`, `C89_not_wider_aborts`), nor files that are too short
(`C89_short_aborts`). Odd widths are not covered. -/
theorem C89_picture_partial (src : List Nat) (hb : IsBytes src) (w h : Nat) (heven : w % 2 = 0) (hw : w ≤ 640) (hh : h ≤ 480) (hwh : h < w)
    (hl : 3 * (h * w) ≤ 8 * src.length) :
    ∃ out, decompress100 src w h = .ok out ∧ out.length = h * w ∧ ∀ r c, r < h → c < w →
      0 ≤ Spec.Qtk.picture (bytesMSB src) w h r c ∧ Spec.Qtk.picture (bytesMSB src) w h r c ≤ 255 ∧
      ∃ q, out[r * w + c]? = some q ∧ Near curve (Spec.Qtk.picture (bytesMSB src) w h r c).toNat q := by
  obtain ⟨n, rfl⟩ : ∃ n, w = 2 * n := ⟨w / 2, by omega⟩
  have hn : 0 < n := by omega
  have hbl : (bytesMSB src).length = 8 * src.length := length_bytesMSB src
  have hrange := fun r c => qtk_pixel_range n (Spec.Qtk.greenCode (bytesMSB src) n) (Spec.Qtk.other (Spec.Qtk.otherCode (bytesMSB src) n h)) r c
  have hpic : ∀ r c, Spec.Qtk.picture (bytesMSB src) (2 * n) h r c =
      Spec.Qtk.pixel n (Spec.Qtk.green n (Spec.Qtk.greenCode (bytesMSB src) n)) (Spec.Qtk.other (Spec.Qtk.otherCode (bytesMSB src) n h)) r c := by
    intro r c; rw [Spec.Qtk.picture, show 2 * n / 2 = n by omega]
  simp only [hpic]
  have hp0 : (PumpMSB.new src).Rep (bytesMSB src) := PumpMSB.rep_new src hb
  generalize bytesMSB src = bits at *
  have hA : h * n = (h + 1) / 2 * n + h / 2 * n := by rw [← Nat.add_mul]; congr 1; omega
  have hB : (h - 1 + 1) / 2 = h / 2 := by omega
  have hhn : h * (2 * n) = 2 * (h * n) := by rw [Nat.mul_left_comm]
  obtain ⟨p1, pix1, e1, r1, g1, o1⟩ := greens_ok n h hn (by omega) hh bits (by omega) _ hp0
  obtain ⟨p2, pix2, e2, r2, x2, s2⟩ := others_ok n h 0 hn (by omega) hh (by omega) bits (4 * (h * n))
    (fun i j _ _ => by
      rw [Spec.Qtk.otherCode, if_pos (by omega), show (0 + 2 * i) / 2 = i by omega]
      congr 1; omega)
    (by rw [Nat.sub_zero]; omega) p1 r1 pix1 (fun a b h _ => o1 a b h)
  rw [Nat.sub_zero] at r2
  obtain ⟨p3, pix3, e3, _, x3, s3⟩ := others_ok n h 1 hn (by omega) hh (by omega) bits (4 * (h * n) + 2 * ((h + 1) / 2 * n))
    (fun i j _ _ => by
      rw [Spec.Qtk.otherCode, if_neg (by omega), show (1 + 2 * i) / 2 = i by omega, Nat.add_mul]
      congr 1; omega)
    (by rw [hB]; omega) p2 r2 pix2 (fun a b h h2 => by rw [s2 a b (by omega)]; exact o1 a b h)
  obtain ⟨pix4, e4, f4⟩ := mix_ok n h (by omega) hh (Spec.Qtk.green n (Spec.Qtk.greenCode bits n)) (Spec.Qtk.other (Spec.Qtk.otherCode bits n h)) pix3
    (fun r hr c h1 h2 => by rw [s3 _ _ (by omega), s2 _ _ (by omega)]; exact g1 r hr c h1 h2)
    (fun r hr j hj => by
      by_cases hp : r % 2 = 1
      · exact x3 r hr hp j hj
      · rw [s3 _ _ (by omega)]
        exact x2 r hr (by omega) j hj)
  generalize Spec.Qtk.pixel n (Spec.Qtk.green n (Spec.Qtk.greenCode bits n)) (Spec.Qtk.other (Spec.Qtk.otherCode bits n h)) = px at *
  have hrow : ∀ r, r < h → ∃ l, outRow ((List.range (max curve.length (2 ^ 10))).map (entryAt curve)) pix4 (2 * n) r = .ok l ∧ l.length = 2 * n ∧
      ∀ c, c < 2 * n → Near curve (px r c).toNat (l.getD c 0) := by
    intro r hr
    have hv : ∀ c, c < 2 * n → pix4 (r + 2) (c + 2) = px r c := fun c hc => f4 r c hr hc
    have h2 : 0 ≤ pix4 (r + 2) 2 ∧ pix4 (r + 2) 2 ≤ 255 := by rw [hv 0 (by omega)]; exact hrange r 0
    have h3 : 0 ≤ pix4 (r + 2) 3 ∧ pix4 (r + 2) 3 ≤ 255 := by rw [hv 1 (by omega)]; exact hrange r 1
    have hlist : ((List.range (2 * n)).map fun c => (pix4 (r + 2) (c + 2)).toNat) = (List.range (2 * n)).map fun c => (px r c).toNat :=
      List.map_congr_left fun c hc => by rw [hv c (List.mem_range.1 hc)]
    obtain ⟨l, d1, d2, d3⟩ := ditherRow_ok curve qtk_curve_gentle (max curve.length (2 ^ 10)) ((List.range (2 * n)).map fun c => (px r c).toNat) (by
      intro x hx
      obtain ⟨c, _, rfl⟩ := List.mem_map.1 hx
      have := hrange r c
      exact Nat.lt_of_lt_of_le (show (px r c).toNat < 2 ^ 10 by omega) (Nat.le_max_right _ _)) ((pix4 (r + 2) 2).toNat * 2 ^ 16 + (pix4 (r + 2) 3).toNat) (by omega)
    rw [List.length_map, List.length_range] at d2 d3
    refine ⟨l, ?_, d2, ?_⟩
    · rw [outRow, get_ok _ _ _ (by omega) (by omega), get_ok _ _ _ (by omega) (by omega), hlist]
      simp only [bind, Except.bind, assert', if_pos (show decide (2 * n + 2 ≤ 644) = true by simpa using by omega), d1]
    · intro c hc
      have := d3 c hc
      rwa [List.getD_eq_getElem?_getD, List.getElem?_map, List.getElem?_range hc] at this
  obtain ⟨rows, m1, m2, m3⟩ := Verif.Ljpeg.mapM_exists _ _ (List.range h) fun r hr => hrow r (List.mem_range.1 hr)
  rw [List.length_range] at m2
  have hget : ∀ r (hr : r < rows.length), rows[r].length = 2 * n ∧ ∀ c, c < 2 * n → Near curve (px r c).toNat (rows[r].getD c 0) := fun r hr =>
    m3 r r rows[r] (List.getElem?_range (by omega)) (List.getElem?_eq_getElem hr)
  have hall : ∀ l ∈ rows, l.length = 2 * n := by
    intro l hl
    obtain ⟨i, hi, rfl⟩ := List.getElem_of_mem hl
    exact (hget i hi).1
  refine ⟨rows.flatten, ?_, by rw [flatten_length _ _ hall, m2], ?_⟩
  · rw [decompress100, assert', if_pos (by simpa using hwh), newWithBits_ok curve qtk_curve_gentle 10]
    simp only [bind, Except.bind, e1, e2, e3, e4]
    rw [m1]
  · intro r c hr hc
    refine ⟨(hrange r c).1, (hrange r c).2, rows[r].getD c 0, ?_, (hget r (by omega)).2 c hc⟩
    have hch := flatten_chunk (2 * n) rows hall r (by omega)
    have hl2 := (hget r (by omega)).1
    have h1 : rows[r][c]? = some (rows[r].getD c 0) := by
      rw [List.getD_eq_getElem?_getD, List.getElem?_eq_getElem (by omega), Option.getD_some]
    rw [← h1, ← hch, List.getElem?_take, if_pos hc, List.getElem?_drop]

theorem qtk_subview (file : List Nat) (o l : Nat) (h : o + l ≤ file.length) : subview file o l = .ok ((file.drop o).take l) := by rw [subview, if_pos h]

theorem qtk_be16 (file : List Nat) (o l i : Nat) (h : o + l ≤ file.length) (hi : i + 1 < l) : be16 ((file.drop o).take l) i = .ok (Spec.Qtk.number file (o + i)) := by
  have hx : ∀ i, i < l → idx ((file.drop o).take l) i = .ok (file.getD (o + i) 0) := by
    intro i hi
    rw [idx, List.getElem?_take, if_pos hi, List.getElem?_drop, List.getD_eq_getElem?_getD, List.getElem?_eq_getElem (by omega)]
    rfl
  rw [be16, hx i (by omega), hx (i + 1) hi]
  rfl

/-- The whole file: the header gives the height at byte 544 and the width at byte 546, and a picture higher than wide is stored lying on its side. The
coded picture is followed by 16 zero bytes.

Partial as `C89_picture_partial`. -/
theorem C89_file_partial (file : List Nat) (hb : IsBytes file) (w h : Nat) (hw : w = max (Spec.Qtk.number file 544) (Spec.Qtk.number file 546))
    (hh : h = min (Spec.Qtk.number file 544) (Spec.Qtk.number file 546)) (heven : w % 2 = 0) (hw2 : w ≤ 640) (hh2 : h ≤ 480) (hwh : h < w)
    (hlen : Spec.Qtk.dataStart file < file.length) (hl : 3 * (h * w) ≤ 8 * (file.length - Spec.Qtk.dataStart file + 16)) :
    ∃ turn out, decode100 file = .ok (w, h, turn, out) ∧ out.length = h * w ∧
      (Spec.Qtk.number file 544 < Spec.Qtk.number file 546 → turn = .normal) ∧
      (Spec.Qtk.number file 546 < Spec.Qtk.number file 544 →
        turn = if Spec.Qtk.number file (Spec.Qtk.dataStart file - 6) % 4 = 3 then .rotate270 else .rotate90) ∧
      ∀ r c, r < h → c < w → ∃ q, out[r * w + c]? = some q ∧
        Near curve (Spec.Qtk.picture (bytesMSB (file.drop (Spec.Qtk.dataStart file) ++ List.replicate 16 0)) w h r c).toNat q := by
  have hds : Spec.Qtk.dataStart file = 736 ∨ Spec.Qtk.dataStart file = 738 := by unfold Spec.Qtk.dataStart; split <;> simp
  obtain ⟨out, d1, d2, d3⟩ := C89_picture_partial (file.drop (Spec.Qtk.dataStart file) ++ List.replicate 16 0) (by
    intro x hx
    rcases List.mem_append.1 hx with hx | hx
    · exact hb x (List.mem_of_mem_drop hx)
    · rw [List.eq_of_mem_replicate hx]; decide) w h heven hw2 hh2 hwh (by
      rw [List.length_append, List.length_drop, List.length_replicate]; exact hl)
  have hnum : ∀ i, Spec.Qtk.number file i ≤ 65535 := by
    intro i
    have hg : ∀ i, file.getD i 0 < 256 := by
      intro i
      by_cases h : i < file.length
      · rw [List.getD_eq_getElem?_getD, List.getElem?_eq_getElem h]; exact hb _ (List.getElem_mem h)
      · rw [List.getD_eq_getElem?_getD, List.getElem?_eq_none (by omega)]; decide
    have h1 := hg i
    have h2 := hg (i + 1)
    unfold Spec.Qtk.number
    omega
  obtain ⟨turn, g1, g2, g3⟩ : ∃ turn, geometry file (Spec.Qtk.number file 546) (Spec.Qtk.number file 544) (Spec.Qtk.dataStart file) = .ok (w, h, turn) ∧
      (Spec.Qtk.number file 544 < Spec.Qtk.number file 546 → turn = .normal) ∧
      (Spec.Qtk.number file 546 < Spec.Qtk.number file 544 →
        turn = if Spec.Qtk.number file (Spec.Qtk.dataStart file - 6) % 4 = 3 then .rotate270 else .rotate90) := by
    rw [geometry]
    split
    · next hgt =>
      rw [qtk_subview _ _ _ (by omega)]
      simp only [bind, Except.bind]
      rw [qtk_be16 _ _ _ _ (by omega) (by omega), Nat.add_zero]
      simp only []
      have hx := hnum (Spec.Qtk.dataStart file - 6)
      refine ⟨_, by rw [hw, hh, Nat.max_eq_left (by omega), Nat.min_eq_right (by omega)], fun h => absurd h (by omega), fun _ => ?_⟩
      split <;> split <;> first | rfl | (exfalso; omega)
    · next hgt =>
      exact ⟨_, by rw [hw, hh, Nat.max_eq_right (by omega), Nat.min_eq_left (by omega)], fun _ => rfl, fun h => absurd h (by omega)⟩
  refine ⟨turn, out, ?_, d2, g2, g3, fun r c hr hc => (d3 r c hr hc).2.2⟩
  rw [decode100, qtk_subview _ _ _ (by omega)]
  simp only [bind, Except.bind]
  rw [qtk_be16 _ _ _ _ (by omega) (by omega), qtk_be16 _ _ _ _ (by omega) (by omega), qtk_be16 _ _ _ _ (by omega) (by omega)]
  simp only []
  rw [show (if Spec.Qtk.number file (544 + 8) = 30 then 738 else 736) = Spec.Qtk.dataStart file from rfl, g1]
  simp only []
  rw [if_pos hlen]
  simp only [d1]

/-! ## What is not decoded -/

/-- A picture that is not wider than high aborts. -/
theorem C89_not_wider_aborts (src : List Nat) (w h : Nat) (hwh : w ≤ h) : decompress100 src w h = .error .panic := by
  rw [decompress100, show decide (w > h) = false by simpa using hwh]
  rfl

theorem forN_visits {σ : Type} (n : Nat) (f : Nat → σ → R σ) (s s' : σ) (h : forN n f s = .ok s') : ∀ i, i < n → ∃ a b, f i a = .ok b := by
  induction n generalizing s' with
  | zero => intro i hi; omega
  | succ n ih =>
    rw [forN_succ] at h
    cases e : forN n f s with
    | error x => rw [e] at h; simp [Except.bind] at h
    | ok s1 =>
      rw [e] at h
      intro i hi
      rcases Nat.lt_succ_iff_lt_or_eq.1 hi with h1 | rfl
      · exact ih s1 e i h1
      · exact ⟨s1, s', h⟩

theorem qtk_set_some {pix p : Pix} {r c : Nat} {v : Int} (h : Verif.Qtk.set pix r c v = .ok p) : r < 484 ∧ c < 644 := by
  rw [Verif.Qtk.set] at h
  split at h
  · assumption
  · cases h

/-- There is no picture with more than 480 rows, or with 642 columns or more. -/
theorem C89_large_aborts (src : List Nat) (w h : Nat) (hbig : 481 ≤ h ∨ (642 ≤ w ∧ 0 < h)) (out : List Nat) : decompress100 src w h ≠ .ok out := by
  intro hok
  unfold decompress100 at hok
  obtain ⟨_, ha, hok⟩ := bind_ok hok
  have hwh : h < w := by
    rw [assert'] at ha
    split at ha
    · next h => simpa using h
    · cases ha
  obtain ⟨⟨p1, pix1⟩, e1, hok⟩ := bind_ok hok
  obtain ⟨⟨p2, pix2⟩, e2, hok⟩ := bind_ok hok
  rcases hbig with hbig | ⟨hbig, h0⟩
  · obtain ⟨a, b, e⟩ := forN_visits _ _ _ _ e2 240 (by omega)
    obtain ⟨⟨p, pix⟩, ⟨p', pix'⟩, e⟩ := forN_visits _ _ _ _ e 0 (by omega)
    dsimp only [otherStep] at e
    obtain ⟨_, _, e⟩ := bind_ok e
    obtain ⟨_, _, e⟩ := bind_ok e
    obtain ⟨_, _, e⟩ := bind_ok e
    obtain ⟨_, _, e⟩ := bind_ok e
    obtain ⟨_, _, e⟩ := bind_ok e
    obtain ⟨_, _, e⟩ := bind_ok e
    obtain ⟨_, _, e⟩ := bind_ok e
    obtain ⟨_, _, e⟩ := bind_ok e
    obtain ⟨_, e', _⟩ := bind_ok e
    rw [if_pos (by omega)] at e'
    have := (qtk_set_some e').1
    omega
  · obtain ⟨a, b, e⟩ := forN_visits _ _ _ _ e1 0 h0
    unfold greenRow at e
    obtain ⟨_, _, e⟩ := bind_ok e
    obtain ⟨_, e', _⟩ := bind_ok e
    have := (qtk_set_some e').2
    omega

/-- The bits left -/
def bitsLeft (p : PumpMSB) : Nat := p.nbits + 8 * p.rest.length

theorem forN_spends {σ : Type} (n : Nat) (f : Nat → σ → R σ) (μ : σ → Nat) (k : Nat) (hf : ∀ i s s', f i s = .ok s' → μ s' + k = μ s) (s s' : σ)
    (h : forN n f s = .ok s') : μ s' + n * k = μ s := by
  induction n generalizing s' with
  | zero => cases h; omega
  | succ n ih =>
    rw [forN_succ] at h
    cases e : forN n f s with
    | error x => rw [e] at h; simp [Except.bind] at h
    | ok s1 =>
      rw [e] at h
      have h1 := ih s1 e
      have h2 := hf n s1 s' h
      rw [Nat.succ_mul]; omega

theorem msb_spends (p p' : PumpMSB) (n v : Nat) (hn : 0 < n) (h : getBits p n = .ok (v, p')) : bitsLeft p' + n = bitsLeft p := by
  rw [getBits, if_neg (by omega)] at h
  obtain ⟨⟨a, q⟩, e1, h⟩ := bind_ok h
  obtain ⟨q', e2, h⟩ := bind_ok h
  cases h
  have e1 : p.peek n = .ok (v, q) := e1
  have e2 : q.consume n = .ok p' := e2
  unfold PumpMSB.peek at e1
  obtain ⟨q1, f1, e1⟩ := bind_ok e1
  obtain ⟨_, _, e1⟩ := bind_ok e1
  cases e1
  have hfill : bitsLeft q = bitsLeft p := by
    unfold PumpMSB.fill at f1
    split at f1
    · obtain ⟨⟨a, cnt, rest⟩, g1, f1⟩ := bind_ok f1
      cases f1
      unfold refillBE at g1
      split at g1
      · cases g1
      · cases g1; simp [bitsLeft, foldBytes, *]
      · cases g1; simp [bitsLeft, foldBytes, *]
      · cases g1; simp [bitsLeft, foldBytes, *]
      · cases g1; simp [bitsLeft, *]; omega
    · cases f1; rfl
  unfold PumpMSB.consume at e2
  obtain ⟨⟨a, m⟩, g1, e2⟩ := bind_ok e2
  cases e2
  unfold consumeMSB at g1
  split at g1
  · split at g1
    · cases g1
      unfold bitsLeft at *
      dsimp only
      omega
    · cases g1
  · cases g1

/-- There is no picture of even width in a file with less than three bits per sample. -/
theorem C89_short_aborts (src : List Nat) (w h : Nat) (heven : w % 2 = 0) (hl : 8 * src.length < 3 * (h * w)) (out : List Nat) :
    decompress100 src w h ≠ .ok out := by
  intro hok
  unfold decompress100 at hok
  obtain ⟨_, _, hok⟩ := bind_ok hok
  obtain ⟨⟨p1, pix1⟩, e1, hok⟩ := bind_ok hok
  obtain ⟨⟨p2, pix2⟩, e2, hok⟩ := bind_ok hok
  obtain ⟨⟨p3, pix3⟩, e3, hok⟩ := bind_ok hok
  obtain ⟨n, rfl⟩ : ∃ n, w = 2 * n := ⟨w / 2, by omega⟩
  have hgreen : ∀ r s s', greenRow (2 * n) r s = .ok s' → bitsLeft s'.1 + 4 * n = bitsLeft s.1 := by
    intro r s s' e
    unfold greenRow at e
    obtain ⟨⟨p, pix, v⟩, e', e⟩ := bind_ok e
    obtain ⟨_, _, e⟩ := bind_ok e
    cases e
    have := forN_spends _ _ (fun st : PumpMSB × Pix × Int => bitsLeft st.1) 4 (by
      rintro j ⟨p, pix, v⟩ ⟨p', pix', v'⟩ e
      dsimp only [greenStep] at e
      obtain ⟨_, _, e⟩ := bind_ok e
      obtain ⟨_, _, e⟩ := bind_ok e
      obtain ⟨_, _, e⟩ := bind_ok e
      obtain ⟨⟨_, _⟩, eb, e⟩ := bind_ok e
      obtain ⟨_, _, e⟩ := bind_ok e
      obtain ⟨_, _, e⟩ := bind_ok e
      obtain ⟨_, _, e⟩ := bind_ok e
      obtain ⟨_, _, e⟩ := bind_ok e
      cases e
      exact msb_spends _ _ _ _ (by omega) eb) _ _ e'
    dsimp only at this ⊢
    rw [show (2 * n + 2 - (2 + (r + 2) % 2) + 1) / 2 = n by omega] at this
    omega
  have hother : ∀ row s s', otherRow (2 * n) row s = .ok s' → bitsLeft s'.1 + 2 * n = bitsLeft s.1 := by
    intro row s s' e
    have := forN_spends _ _ (fun st : PumpMSB × Pix => bitsLeft st.1) 2 (by
      rintro j ⟨p, pix⟩ ⟨p', pix'⟩ e
      dsimp only [otherStep] at e
      obtain ⟨_, _, e⟩ := bind_ok e
      obtain ⟨_, _, e⟩ := bind_ok e
      obtain ⟨_, _, e⟩ := bind_ok e
      obtain ⟨⟨_, _⟩, eb, e⟩ := bind_ok e
      obtain ⟨_, _, e⟩ := bind_ok e
      obtain ⟨_, _, e⟩ := bind_ok e
      obtain ⟨_, _, e⟩ := bind_ok e
      obtain ⟨_, _, e⟩ := bind_ok e
      obtain ⟨_, _, e⟩ := bind_ok e
      cases e
      exact msb_spends _ _ _ _ (by omega) eb) _ _ e
    rw [show (2 * n + 2 - (3 - row % 2) + 1) / 2 = n by omega] at this
    omega
  have a1 := forN_spends _ _ (fun st : PumpMSB × Pix => bitsLeft st.1) (4 * n) (fun i s s' e => hgreen i s s' e) _ _ e1
  have a2 := forN_spends _ _ (fun st : PumpMSB × Pix => bitsLeft st.1) (2 * n) (fun i s s' e => hother _ s s' e) _ _ e2
  have a3 := forN_spends _ _ (fun st : PumpMSB × Pix => bitsLeft st.1) (2 * n) (fun i s s' e => hother _ s s' e) _ _ e3
  dsimp only at a1 a2 a3
  have h0 : bitsLeft (PumpMSB.new src) = 8 * src.length := by simp [bitsLeft, PumpMSB.new]
  have hA : h * (2 * n) = (h - 0 + 1) / 2 * (2 * n) + (h - 1 + 1) / 2 * (2 * n) := by rw [← Nat.add_mul]; congr 1; omega
  have hB : h * (4 * n) = 2 * (h * (2 * n)) := by rw [show 4 * n = 2 * (2 * n) by omega, Nat.mul_left_comm]
  omega

/-! ## The hypotheses are met -/

example : IsBytes [0x88, 0x88, 0x01] ∧ 3 * (2 * 4) ≤ 8 * [0x88, 0x88, 0x01].length := by decide

/-- Four columns and two rows: the greens go up by 2 each, the last of the other samples goes down by 2. -/
example : (List.range 2).map (fun r => (List.range 4).map (Spec.Qtk.picture (bytesMSB [0x88, 0x88, 0x01]) 4 2 r)) =
    [[130, 115, 132, 100], [117, 133, 113, 134]] := by decide +kernel

/-- A file of a picture of two columns and four rows, lying on its side -/
def qtkSample : List Nat := List.replicate 544 0 ++ [0, 4, 0, 2] ++ List.replicate 300 0

example : IsBytes qtkSample ∧ 4 = max (Spec.Qtk.number qtkSample 544) (Spec.Qtk.number qtkSample 546) ∧
    2 = min (Spec.Qtk.number qtkSample 544) (Spec.Qtk.number qtkSample 546) ∧ Spec.Qtk.dataStart qtkSample < qtkSample.length ∧
    3 * (2 * 4) ≤ 8 * (qtkSample.length - Spec.Qtk.dataStart qtkSample + 16) := by decide +kernel

end Verif.Props
