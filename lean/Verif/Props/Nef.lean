import Verif.Proofs.Nef
import Verif.Props.Pef
/-! # C58: Nikon NEF data decode to the stored pixels -/

namespace Verif.Props
open Verif Verif.Spec Verif.Spec.TwoRow Verif.Spec.Nef Verif.Nef Verif.Pumps Verif.Ljpeg

/-- The code of a file, from its version and number of bits. -/
def nefCode (v0 bps : Nat) : Nat := (if v0 = 70 then 2 else 0) + (if bps = 14 then 3 else 0)

theorem nefCode_lt (v0 bps : Nat) : nefCode v0 bps < 6 := by
  unfold nefCode; split <;> split <;> omega

/-- All pixels of the picture are related to the stored values. -/
def Pixels (img : List Nat) (w h : Nat) (P : Nat → Nat → Nat → Prop) : Prop :=
  img.length = h * w ∧ ∀ r c, r < h → c < w → ∃ q, img[r * w + c]? = some q ∧ P r c q

/-- Lossless files (version 70): for every file that holds the code of differences that add up to `px`, each pixel is the value
of `px` limited to the number of bits if that is black or white; other values are made smaller by 1 for three quarters of the
random numbers, which start from the first 24 bits of the file. -/
theorem C58_lossless_exact (le : Bool) (bps v1 : Nat) (hbps : bps ≤ 16) (skip : List Nat) (hs : skip.length = skipped 70 v1)
    (start : Nat → Nat → Nat) (csize : Nat) (tail src : List Nat) (hb : IsBytes src) (w h : Nat) (hw : w % 2 = 0) (h0 : 0 < w)
    (px : Nat → Nat → Int) (sym : Nat → Nat → Nat × Nat) (hsum : Sums (nefCode 70 bps) 0 w h (fun r c => (start r c : Int)) px sym)
    (hpx : ∀ r c, r < h → c < w → -2 ^ 31 ≤ px r c ∧ px r c < 2 ^ 31) (pad : List Bool) (hp : 32 ≤ pad.length)
    (hcode : bytesMSB src = encodeNef (nefCode 70 bps) 0 w h sym ++ pad) :
    ∃ img, doDecode src (preamble le 70 v1 skip start csize ++ tail) le w h bps = .ok img ∧
      Pixels img w h fun r c q =>
        let v := limit bps (px r c)
        q = if v = 0 ∨ v + 1 = 2 ^ bps ∨ 1536 ≤ noise (natMSB ((bytesMSB src).take 24)) (r * w + c) % 2048 then v else v - 1 := by
  have hpow : 2 ^ bps ≤ 2 ^ 16 := Nat.pow_le_pow_right (by omega) hbps
  have h1 : 1 ≤ 2 ^ bps := Nat.one_le_two_pow
  have hh := header_ok le bps 70 v1 skip hs start csize tail bps (by rw [realBps, if_neg (by omega)]) _ _ _
    (curve_none v1 le _ (2 ^ bps) csize tail) (by rw [range16]; omega)
  rw [List.take_range, Nat.min_eq_left (by omega)] at hh
  have hn := new_points _ (gentle_range (2 ^ bps) (by omega) (by omega))
  rw [List.length_range] at hn
  obtain ⟨img, e, hl, hi⟩ := decode_of_header src _ hb le w h bps _ _ hh hn hw h0 (nefCode_lt 70 bps) (by simp) hbps start rfl rfl px sym hsum hpx
    (fun v rand q => q = if v = 0 ∨ v + 1 = 2 ^ bps ∨ 1536 ≤ rand % 2048 then v else v - 1)
    (fun r c hr hc rand hrand => dithers_range (2 ^ bps) (by omega) _ rand (limit_lt (px r c) bps) hrand) pad hp hcode
  exact ⟨img, e, hl, hi⟩

/-- So each pixel is the stored value or less by 1; black and white are exact. -/
theorem C58_lossless_partial (le : Bool) (bps v1 : Nat) (hbps : bps ≤ 16) (skip : List Nat) (hs : skip.length = skipped 70 v1)
    (start : Nat → Nat → Nat) (csize : Nat) (tail src : List Nat) (hb : IsBytes src) (w h : Nat) (hw : w % 2 = 0) (h0 : 0 < w)
    (px : Nat → Nat → Int) (sym : Nat → Nat → Nat × Nat) (hsum : Sums (nefCode 70 bps) 0 w h (fun r c => (start r c : Int)) px sym)
    (hpx : ∀ r c, r < h → c < w → -2 ^ 31 ≤ px r c ∧ px r c < 2 ^ 31) (pad : List Bool) (hp : 32 ≤ pad.length)
    (hcode : bytesMSB src = encodeNef (nefCode 70 bps) 0 w h sym ++ pad) :
    ∃ img, doDecode src (preamble le 70 v1 skip start csize ++ tail) le w h bps = .ok img ∧
      Pixels img w h fun r c q =>
        let v := limit bps (px r c)
        (q = v ∨ q + 1 = v) ∧ (v = 0 ∨ v + 1 = 2 ^ bps → q = v) := by
  obtain ⟨img, e, hl, hi⟩ := C58_lossless_exact le bps v1 hbps skip hs start csize tail src hb w h hw h0 px sym hsum hpx pad hp hcode
  refine ⟨img, e, hl, fun r c hr hc => ?_⟩
  obtain ⟨q, hq, hq'⟩ := hi r c hr hc
  refine ⟨q, hq, ?_⟩
  simp only at hq' ⊢
  split at hq' <;> omega

/-- What the codes without left out digits can express. -/
theorem plain_codes : ∀ p ∈ [(2, 12), (5, 14), (0, 12), (3, 14)], ∀ k ≤ p.2,
    (trees.getD p.1 ([], [])).2.idxOf k < words p.1 ∧ digits p.1 ((trees.getD p.1 ([], [])).2.idxOf k) = k ∧
      dropped p.1 ((trees.getD p.1 ([], [])).2.idxOf k) = 0 := by decide +kernel

theorem sums_of_picture (n bits : Nat) (hn : (n, bits) ∈ [(2, 12), (5, 14), (0, 12), (3, 14)]) (w h : Nat) (start px : Nat → Nat → Nat)
    (hst : ∀ r c, start r c < 2 ^ bits) (hpx : ∀ r c, r < h → c < w → px r c < 2 ^ bits) :
    Sums n 0 w h (fun r c => (start r c : Int)) (fun r c => (px r c : Int)) fun r c =>
      symOf n ((px r c : Int) - before (fun r c => (start r c : Int)) (fun r c => (px r c : Int)) r c) := by
  intro r c hr hc
  have h1 := hpx r c hr hc
  have h2 : 0 ≤ before (fun r c => (start r c : Int)) (fun r c => (px r c : Int)) r c ∧
      before (fun r c => (start r c : Int)) (fun r c => (px r c : Int)) r c < (2 ^ bits : Nat) := by
    unfold before
    split
    · have := hpx r (c - 2) hr (by omega); simp only; exact ⟨by omega, by omega⟩
    · split
      · have := hpx (r - 2) c (by omega) hc; simp only; exact ⟨by omega, by omega⟩
      · have := hst r c; simp only; exact ⟨by omega, by omega⟩
  generalize hB : before (fun r c => (start r c : Int)) (fun r c => (px r c : Int)) r c = b at *
  simp only [hB]
  generalize hd : (px r c : Int) - b = d
  have hcat : catOf d ≤ bits := by
    have : d.natAbs < 2 ^ bits := by omega
    unfold catOf
    split
    · omega
    · rename_i hne
      have := (Nat.log2_lt (by omega)).2 this
      omega
  obtain ⟨k1, k2, k3⟩ := plain_codes _ hn _ hcat
  simp only at k1 k2 k3
  have ht : treeAt n 0 r = n := by rw [treeAt, if_neg (by omega)]
  rw [ht]
  refine ⟨⟨k1, ?_⟩, ?_⟩
  · rw [symOf]; simp only; rw [k2]; exact extraOf_lt d
  · rw [value, symOf]
    simp only
    rw [k2, k3]
    by_cases h0 : d = 0
    · rw [if_pos (by rw [h0]; rfl)]; omega
    · rw [if_neg (by unfold catOf; rw [if_neg h0]; omega), diffOf_extra d h0]; omega

/-- Lossless files, from the picture: every 12 or 14 bit picture comes back with an error of at most 1. -/
theorem C58_lossless_picture_partial (le : Bool) (bps v1 : Nat) (hbps : bps = 12 ∨ bps = 14) (skip : List Nat) (hs : skip.length = skipped 70 v1)
    (start : Nat → Nat → Nat) (hst : ∀ r c, start r c < 2 ^ bps) (csize : Nat) (tail src : List Nat) (hb : IsBytes src) (w h : Nat)
    (hw : w % 2 = 0) (h0 : 0 < w) (px : Nat → Nat → Nat) (hpx : ∀ r c, r < h → c < w → px r c < 2 ^ bps)
    (pad : List Bool) (hp : 32 ≤ pad.length) (hcode : bytesMSB src = encodePicture (if bps = 12 then 2 else 5) w h start px ++ pad) :
    ∃ img, doDecode src (preamble le 70 v1 skip start csize ++ tail) le w h bps = .ok img ∧
      Pixels img w h fun r c q => (q = px r c ∨ q + 1 = px r c) ∧ (px r c = 0 ∨ px r c + 1 = 2 ^ bps → q = px r c) := by
  have hcd : (if bps = 12 then 2 else 5) = nefCode 70 bps := by rcases hbps with rfl | rfl <;> rfl
  have h16 : 2 ^ bps ≤ 2 ^ 16 := Nat.pow_le_pow_right (by omega) (by omega)
  rw [hcd, encodePicture] at hcode
  obtain ⟨img, e, hl, hi⟩ := C58_lossless_partial le bps v1 (by omega) skip hs start csize tail src hb w h hw h0 (fun r c => (px r c : Int)) _
    (sums_of_picture (nefCode 70 bps) bps (by rcases hbps with rfl | rfl <;> decide) w h start px hst hpx)
    (fun r c hr hc => by have := hpx r c hr hc; exact ⟨by omega, by omega⟩) pad hp hcode
  refine ⟨img, e, hl, fun r c hr hc => ?_⟩
  obtain ⟨q, hq, hq'⟩ := hi r c hr hc
  refine ⟨q, hq, ?_⟩
  have hlim : limit bps (px r c : Int) = px r c := by
    have := hpx r c hr hc
    rw [limit, if_neg (by omega)]; omega
  simp only at hq'
  rw [hlim] at hq'
  exact hq'

/-- A 2 x 3 picture of 12 bits. -/
example : bytesMSB [151, 255, 255, 251, 255, 255, 231, 252, 0, 0, 0, 0, 0, 0] =
    encodePicture 2 2 3 (fun _ _ => 0) (fun r c => ([[5, 4095], [0, 4095], [8, 0]].getD r []).getD c 0) ++ List.replicate 38 false := by
  decide +kernel

/-- Lossless files are not decoded without loss: here two pixels of value 5 become 4. -/
theorem C58_lossless_not_exact :
    ∃ src, IsBytes src ∧ bytesMSB src = encodePicture 2 2 1 (fun _ _ => 0) (fun _ _ => 5) ++ List.replicate 36 false ∧
      ∃ img, doDecode src (preamble true 70 48 [] (fun _ _ => 0) 0) true 2 1 12 = .ok img ∧ img[0]? = some 4 := by
  refine ⟨[0x96, 0x50, 0, 0, 0, 0], by decide, by decide +kernel, ?_⟩
  obtain ⟨img, e, hl, hi⟩ := C58_lossless_exact true 12 48 (by decide) [] (by decide) (fun _ _ => 0) 0 [] [0x96, 0x50, 0, 0, 0, 0]
    (by decide) 2 1 (by decide) (by decide) (fun _ _ => 5) _
    (sums_of_picture 2 12 (by decide) 2 1 (fun _ _ => 0) (fun _ _ => 5) (by intros; decide) (by intros; decide))
    (by intros; decide) (List.replicate 36 false) (by decide) (by decide +kernel)
  rw [List.append_nil] at e
  refine ⟨img, e, ?_⟩
  obtain ⟨q, hq, hq'⟩ := hi 0 0 (by omega) (by omega)
  have h4 : (if limit 12 (5 : Int) = 0 ∨ limit 12 (5 : Int) + 1 = 2 ^ 12 ∨
      1536 ≤ noise (natMSB ((bytesMSB [0x96, 0x50, 0, 0, 0, 0]).take 24)) (0 * 2 + 0) % 2048 then limit 12 (5 : Int) else limit 12 (5 : Int) - 1) = 4 := by
    decide +kernel
  have : q = 4 := by rw [← h4]; exact hq'
  rw [this] at hq
  exact hq

/-- Lossy files of version 68.32 and 68.64: the curve is given by points at equal distances, and another code is used from a row on
that is stored at byte 562. Version 68.64 has two bits less than it claims. Each pixel is near the curve at the stored value. -/
theorem C58_points_partial (le : Bool) (bps v1 : Nat) (hv : v1 = 32 ∨ v1 = 64) (h2 : 2 ≤ bps) (bits : Nat)
    (hbits : bits = if v1 = 64 then bps - 2 else bps) (h15 : bits ≤ 15) (start : Nat → Nat → Nat) (knots : List Nat)
    (hk : ∀ v ∈ knots, v < 2 ^ 16) (step : Nat) (hs : 1 ≤ step) (hmax : 2 ^ bits = step * (knots.length - 1)) (mt more more' : List Nat) (split : Nat)
    (hmt : mt = preamble le 68 v1 [] start knots.length ++ (knots.flatMap (Spec.Pef.word16 le) ++ more))
    (hsp : mt.drop 562 = Spec.Pef.word16 le split ++ more') (hg : Gentle ((List.range (2 ^ bits)).map (lerp knots step)))
    (src : List Nat) (hb : IsBytes src) (w h : Nat) (hw : w % 2 = 0) (h0 : 0 < w)
    (px : Nat → Nat → Int) (sym : Nat → Nat → Nat × Nat) (hsum : Sums (nefCode 68 bps) split w h (fun r c => (start r c : Int)) px sym)
    (hpx : ∀ r c, r < h → c < w → -2 ^ 31 ≤ px r c ∧ px r c < 2 ^ 31) (pad : List Bool) (hp : 32 ≤ pad.length)
    (hcode : bytesMSB src = encodeNef (nefCode 68 bps) split w h sym ++ pad) :
    ∃ img, doDecode src mt le w h bps = .ok img ∧
      Pixels img w h fun r c q => Near ((List.range (2 ^ bits)).map (lerp knots step)) (limit bits (px r c)) q := by
  obtain ⟨pts, ec, hl, ht⟩ := curve_points v1 hv le mt bits h15 knots hk step hs hmax split more more' hsp
  have hr : realBps 68 v1 bps = .ok bits := by
    rw [realBps, hbits]
    by_cases h : v1 = 64
    · rw [if_pos ⟨rfl, h⟩, if_pos h, usub, if_pos (by omega)]
    · rw [if_neg (fun h' => h h'.2), if_neg h]
  rw [hmt] at ec
  have hh := header_ok le bps 68 v1 [] (by rw [skipped, if_neg (by omega)]; rfl) start knots.length _ bits hr _ _ _ ec hl
  rw [ht, ← hmt] at hh
  have hn := new_points _ hg
  rw [List.length_map, List.length_range] at hn
  have hsel : nefCode 68 bps < 5 := by unfold nefCode; rw [if_neg (by omega)]; split <;> omega
  obtain ⟨img, e, hl, hi⟩ := decode_of_header src mt hb le w h bps _ _ hh hn hw h0 (nefCode_lt 68 bps)
    (fun _ => Nat.succ_lt_succ hsel)
    (Nat.le_trans h15 (by omega)) start rfl rfl px sym hsum hpx
    (fun v _ q => Near ((List.range (2 ^ bits)).map (lerp knots step)) v q)
    (fun r c hr hc rand hrand => dithers_near _ hg _ _ rand (limit_lt (px r c) bits) hrand) pad hp hcode
  exact ⟨img, e, hl, hi⟩

/-- Four bits, five points, two rows with different codes, the second with left out digits. -/
example :
    let knots := [0, 5, 13, 30, 60]
    let start : Nat → Nat → Nat := fun r c => ([[130, 9], [850, 70]].getD r []).getD c 0
    let px : Nat → Nat → Int := fun r c => ([[6, 9], [2, 7]].getD r []).getD c 0
    let sym : Nat → Nat → Nat × Nat := fun r c => ([[(5, 3), (7, 0)], [(1, 5), (4, 0)]].getD r []).getD c (0, 0)
    let mt := preamble true 68 32 [] start 5 ++ (knots.flatMap (Spec.Pef.word16 true) ++ (List.replicate 540 0 ++ [1, 0]))
    mt.drop 562 = Spec.Pef.word16 true 1 ++ [] ∧ Gentle ((List.range (2 ^ 4)).map (lerp knots 4)) ∧
    (∀ r < 2, ∀ c < 2, (sym r c).1 < words (treeAt 0 1 r) ∧ (sym r c).2 < 2 ^ digits (treeAt 0 1 r) (sym r c).1 ∧
      px r c = before (fun r c => (start r c : Int)) px r c + value (treeAt 0 1 r) (sym r c)) ∧
    bytesMSB [192, 252, 139, 64, 0, 0, 0, 0] = encodeNef (nefCode 68 4) 1 2 2 sym ++ List.replicate 33 false := by
  refine ⟨by decide +kernel, gentle_of_check _ (by decide +kernel) (by decide +kernel) (by decide +kernel), by decide +kernel, by decide +kernel⟩

/-- Other lossy files: the curve is given value by value. -/
theorem C58_table_partial (le : Bool) (bps v0 v1 : Nat) (h70 : v0 ≠ 70) (hnot : ¬ (v0 = 68 ∧ (v1 = 32 ∨ v1 = 64))) (hbps : bps ≤ 16)
    (skip : List Nat) (hs : skip.length = skipped v0 v1) (start : Nat → Nat → Nat) (table : List Nat) (hl : table.length ≤ 0x4001)
    (hg : Gentle table) (more src : List Nat) (hb : IsBytes src) (w h : Nat) (hw : w % 2 = 0) (h0 : 0 < w)
    (px : Nat → Nat → Int) (sym : Nat → Nat → Nat × Nat) (hsum : Sums (nefCode v0 bps) 0 w h (fun r c => (start r c : Int)) px sym)
    (hpx : ∀ r c, r < h → c < w → -2 ^ 31 ≤ px r c ∧ px r c < table.length) (pad : List Bool) (hp : 32 ≤ pad.length)
    (hcode : bytesMSB src = encodeNef (nefCode v0 bps) 0 w h sym ++ pad) :
    ∃ img, doDecode src (preamble le v0 v1 skip start table.length ++ (table.flatMap (Spec.Pef.word16 le) ++ more)) le w h bps = .ok img ∧
      Pixels img w h fun r c q => Near table (limit bps (px r c)) q := by
  have hne : 0 < table.length := List.length_pos_iff.mpr hg.1
  obtain ⟨pts, ec, hl', ht⟩ := curve_table v0 v1 h70 hnot le (preamble le v0 v1 skip start table.length ++
    (table.flatMap (Spec.Pef.word16 le) ++ more)) (2 ^ bps) table hl more
  have hr : realBps v0 v1 bps = .ok bps := by
    rw [realBps, if_neg (fun h => hnot ⟨h.1, Or.inr h.2⟩)]
  have hh := header_ok le bps v0 v1 skip hs start table.length _ bps hr _ _ _ ec hl'
  rw [ht] at hh
  have hn := new_points _ hg
  obtain ⟨img, e, hl, hi⟩ := decode_of_header src _ hb le w h bps _ _ hh hn hw h0 (nefCode_lt v0 bps) (by simp)
    hbps start rfl rfl px sym hsum (fun r c hr hc => ⟨(hpx r c hr hc).1, by have := (hpx r c hr hc).2; omega⟩)
    (fun v _ q => Near table v q)
    (fun r c hr hc rand hrand => dithers_near _ hg _ _ rand (by
      have := (hpx r c hr hc).2
      show limit bps (px r c) < _
      rw [limit]; split <;> omega) hrand) pad hp hcode
  exact ⟨img, e, hl, hi⟩

/-- A table of four values and two pixels, 3 and 0. -/
example :
    let sym : Nat → Nat → Nat × Nat := fun _ c => if c = 0 then (4, 3) else (7, 0)
    let px : Nat → Nat → Int := fun _ c => if c = 0 then 3 else 0
    Gentle [0, 3, 7, 12] ∧ (∀ c < 2, (sym 0 c).1 < words 0 ∧ (sym 0 c).2 < 2 ^ digits 0 (sym 0 c).1 ∧
      px 0 c = before (fun _ _ => 0) px 0 c + value 0 (sym 0 c)) ∧
    bytesMSB [0xbf, 0x80, 0, 0, 0, 0] = encodeNef (nefCode 68 12) 0 2 1 sym ++ List.replicate 38 false :=
  ⟨gentle_of_check _ (by decide) (by decide) (by decide), by decide +kernel, by decide +kernel⟩

/-! ## What fails -/

theorem nefPair_len (t : HuffTable) (tbl : List (Nat × Nat × Nat)) (bits w r k : Nat) (s s' : PumpMSB × Nat × Int × Int × List Nat)
    (e : nefPair t tbl bits w r k s = .ok s') :
    s'.2.2.2.2.length = s.2.2.2.2.length ∧ r * w + 2 * k + 1 < s.2.2.2.2.length := by
  unfold nefPair at e
  obtain ⟨⟨l1, p1⟩, _, e⟩ := bind_inv _ _ _ e
  obtain ⟨⟨l2, p2⟩, _, e⟩ := bind_inv _ _ _ e
  obtain ⟨⟨q1, n1⟩, _, e⟩ := bind_inv _ _ _ e
  obtain ⟨o1, e1, e⟩ := bind_inv _ _ _ e
  obtain ⟨⟨q2, n2⟩, _, e⟩ := bind_inv _ _ _ e
  obtain ⟨o2, e2, e⟩ := bind_inv _ _ _ e
  cases e
  have h1 := upd_len _ _ _ _ e1
  have h2 := upd_len _ _ _ _ e2
  exact ⟨by simp only; omega, by omega⟩

theorem nefRow_len (hd : Header) (tbl : List (Nat × Nat × Nat)) (w r : Nat) (s s' : NSt) (e : nefRow hd tbl w r s = .ok s') :
    s'.out.length = s.out.length ∧ (w % 2 = 1 → r * w + w < s.out.length) := by
  unfold nefRow at e
  obtain ⟨t, _, e⟩ := bind_inv _ _ _ e
  obtain ⟨u1, _, e⟩ := bind_inv _ _ _ e
  obtain ⟨⟨l1, p1⟩, _, e⟩ := bind_inv _ _ _ e
  obtain ⟨u2, _, e⟩ := bind_inv _ _ _ e
  obtain ⟨⟨l2, p2⟩, _, e⟩ := bind_inv _ _ _ e
  obtain ⟨⟨p3, n3, x, y, o3⟩, e3, e⟩ := bind_inv _ _ _ e
  cases e
  have hstep : ∀ i a b, nefPair t tbl hd.bits w r i a = .ok b → a.2.2.2.2.length = s.out.length → b.2.2.2.2.length = s.out.length :=
    fun i a b hab hi => by rw [(nefPair_len _ _ _ _ _ _ _ _ hab).1]; exact hi
  refine ⟨forN_post _ _ _ hstep _ _ e3 rfl, ?_⟩
  intro ho
  obtain ⟨m, hm⟩ : ∃ m, (w + 1) / 2 = m + 1 := ⟨(w + 1) / 2 - 1, by omega⟩
  rw [hm, forN_succ] at e3
  obtain ⟨s1, e4, e5⟩ := bind_inv _ _ _ e3
  have h4 := forN_post _ _ _ hstep _ _ e4 rfl
  have h5 := (nefPair_len _ _ _ _ _ _ _ _ e5).2
  omega

/-- No picture of odd width is ever decoded, whatever the file holds. -/
theorem C58_odd_width (src mt : List Nat) (le : Bool) (w h bps : Nat) (hw : w % 2 = 1) (hh : 0 < h) (img : List Nat) :
    doDecode src mt le w h bps ≠ .ok img := by
  intro e
  unfold doDecode at e
  obtain ⟨hd, _, e⟩ := bind_inv _ _ _ e
  obtain ⟨t, _, e⟩ := bind_inv _ _ _ e
  obtain ⟨tbl, _, e⟩ := bind_inv _ _ _ e
  obtain ⟨⟨random, p⟩, _, e⟩ := bind_inv _ _ _ e
  obtain ⟨st, e1, _⟩ := bind_inv _ _ _ e
  obtain ⟨k, rfl⟩ : ∃ k, h = k + 1 := ⟨h - 1, by omega⟩
  rw [forN_succ] at e1
  obtain ⟨s1, e2, e3⟩ := bind_inv _ _ _ e1
  have h1 := forN_post _ _ (fun s : NSt => s.out.length = w * (k + 1))
    (fun i a b hab hi => by rw [(nefRow_len _ _ _ _ _ _ hab).1]; exact hi) _ _ e2 List.length_replicate
  have h2 := (nefRow_len _ _ _ _ _ _ e3).2 hw
  rw [h1, Nat.mul_add, Nat.mul_comm] at h2
  omega

/-- Values beyond the end of the curve in the file panic, although they are legal for the number of bits: any picture whose first
pixel is such a value. -/
theorem C58_beyond_curve (le : Bool) (bps v0 v1 : Nat) (h70 : v0 ≠ 70) (hnot : ¬ (v0 = 68 ∧ (v1 = 32 ∨ v1 = 64))) (hbps : bps ≤ 16)
    (skip : List Nat) (hs : skip.length = skipped v0 v1) (start : Nat → Nat → Nat) (table : List Nat) (hl : table.length ≤ 0x4001)
    (hg : Gentle table) (more src : List Nat) (hb : IsBytes src) (w h : Nat) (h0 : 2 ≤ w) (hh : 0 < h)
    (px : Nat → Nat → Int) (sym : Nat → Nat → Nat × Nat) (hsum : Sums (nefCode v0 bps) 0 w h (fun r c => (start r c : Int)) px sym)
    (hpx : ∀ r c, r < h → c < w → -2 ^ 31 ≤ px r c ∧ px r c < 2 ^ 31) (pad : List Bool) (hp : 32 ≤ pad.length)
    (hcode : bytesMSB src = encodeNef (nefCode v0 bps) 0 w h sym ++ pad)
    (hbig : table.length ≤ px 0 0) (hfit : px 0 0 < 2 ^ bps) :
    doDecode src (preamble le v0 v1 skip start table.length ++ (table.flatMap (Spec.Pef.word16 le) ++ more)) le w h bps = panic' := by
  obtain ⟨pts, ec, hl', ht⟩ := curve_table v0 v1 h70 hnot le (preamble le v0 v1 skip start table.length ++
    (table.flatMap (Spec.Pef.word16 le) ++ more)) (2 ^ bps) table hl more
  have hr : realBps v0 v1 bps = .ok bps := by
    rw [realBps, if_neg (fun h => hnot ⟨h.1, Or.inr h.2⟩)]
  have hh' := header_ok le bps v0 v1 skip hs start table.length _ bps hr _ _ _ ec hl'
  rw [ht] at hh'
  have hn := new_points _ hg
  obtain ⟨t, et, hrt⟩ := create_ok (nefCode v0 bps) (nefCode_lt v0 bps)
  have hrep : (PumpMSB.new src).Rep (encodeNef (nefCode v0 bps) 0 w h sym ++ pad) := by rw [← hcode]; exact PumpMSB.rep_new src hb
  obtain ⟨p, ep, rp, _⟩ := PumpMSB.peek_field _ _ 24 hrep (by omega) (by rw [List.length_append]; omega)
  obtain ⟨w', rfl⟩ : ∃ w', w = w' + 1 + 1 := ⟨w - 2, by omega⟩
  obtain ⟨h', rfl⟩ : ∃ h', h = h' + 1 := ⟨h - 1, by omega⟩
  have hsplit : ∃ l, encodeNef (nefCode v0 bps) 0 (w' + 1 + 1) (h' + 1) sym =
      word (nefCode v0 bps) (sym 0 0) ++ (word (nefCode v0 bps) (sym 0 1) ++ l) := by
    unfold encodeNef stored
    rw [List.range_succ_eq_map (n := h'), List.flatMap_cons, List.range_succ_eq_map (n := w' + 1), List.flatMap_cons,
      List.range_succ_eq_map (n := w'), List.map_cons, List.flatMap_cons, List.append_assoc, List.append_assoc]
    exact ⟨_, rfl⟩
  obtain ⟨l, hl2⟩ := hsplit
  rw [hl2, List.append_assoc, List.append_assoc] at rp
  have ht0 : treeAt (nefCode v0 bps) 0 0 = nefCode v0 bps := rfl
  obtain ⟨l1, s1⟩ := hsum 0 0 (by omega) (by omega)
  obtain ⟨l2, s2⟩ := hsum 0 1 (by omega) (by omega)
  rw [ht0] at l1 s1 l2 s2
  have hb0 : before (fun r c => (start r c : Int)) px 0 0 = (start 0 0 : Int) := rfl
  have hb1 : before (fun r c => (start r c : Int)) px 0 1 = (start 0 1 : Int) := rfl
  rw [hb0] at s1
  rw [hb1] at s2
  have d1 := hrt _ l1
  have d2 := hrt _ l2
  rw [show value (nefCode v0 bps) (sym 0 0) = px 0 0 - (start 0 0 : Int) by omega] at d1
  rw [show value (nefCode v0 bps) (sym 0 1) = px 0 1 - (start 0 1 : Int) by omega] at d2
  have x1 := hpx 0 0 (by omega) (by omega)
  have x2 := hpx 0 1 (by omega) (by omega)
  obtain ⟨p1, e1, r1⟩ := TwoRow.addDiff_ok d1 x1.1 x1.2 p _ rp (by simp only [List.length_append]; omega)
  obtain ⟨p2, e2, r2⟩ := TwoRow.addDiff_ok d2 x2.1 x2.2 p1 _ r1 (by simp only [List.length_append]; omega)
  have forN_first : ∀ {σ : Type} (n : Nat) (f : Nat → σ → R σ) (s : σ), f 0 s = panic' → forN (n + 1) f s = panic' := by
    intro σ n f s hf
    unfold forN
    rw [List.range_succ_eq_map, List.foldlM_cons, hf]
    rfl
  have hlim : limit bps (px 0 0) = (px 0 0).toNat := by
    have hc : ((2 : Int) ^ bps) = ((2 ^ bps : Nat) : Int) := by push_cast; rfl
    rw [limit, if_neg (by omega)]; omega
  have hd : ∀ rand, Linearize.dither ((List.range table.length).map (entryAt table)) (clampbits (px 0 0) bps) rand = panic' := by
    intro rand
    rw [clampbits_eq _ _ hbps, hlim, Linearize.dither, idx, List.getElem?_eq_none (by rw [List.length_map, List.length_range]; omega)]
    rfl
  unfold doDecode
  simp only [bind, Except.bind]
  rw [hh']; simp only
  rw [show (if v0 = 70 then 2 else 0) + (if bps = 14 then 3 else 0) = nefCode v0 bps from rfl, et]; simp only
  rw [hn]; simp only
  rw [ep]; simp only
  rw [forN_first]
  · unfold nefRow
    simp only [bind, Except.bind]
    rw [show rowTable _ 0 t = .ok t from rfl]
    simp only
    rw [show idx [(start 0 0 : Int), (start 1 0 : Int)] (0 % 2) = .ok (start 0 0 : Int) from rfl]
    simp only
    rw [e1]; simp only
    rw [show idx [(start 0 1 : Int), (start 1 1 : Int)] (0 % 2) = .ok (start 0 1 : Int) from rfl]
    simp only
    rw [e2]; simp only
    rw [show (w' + 1 + 1 + 1) / 2 = (w' + 1) / 2 + 1 by omega, forN_first]
    · unfold nefPair
      simp only [bind, Except.bind, nextDiff, Nat.mul_zero, gt_iff_lt, Nat.lt_irrefl, if_false]
      rw [hd]

/-- Such a picture: 3 with a table of three values. -/
example : Gentle [0, 3, 7] ∧ ((([0, 3, 7] : List Nat).length : Nat) : Int) ≤ 3 := ⟨gentle_of_check _ (by decide) (by decide) (by decide), by decide⟩

end Verif.Props
