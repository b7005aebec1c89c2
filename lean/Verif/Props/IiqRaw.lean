import Verif.Model.IiqRaw
import Verif.Props.IiqTab
import Verif.Props.IiqFlat
import Verif.Props.Iiq
import Verif.Props.Small
/-! # C95: pictures of Phase One files -/

namespace Verif.Props
open Verif Verif.Spec Verif.IiqTab Verif.IiqRaw Verif.IiqCorr
open Verif.Spec.Ciff (At le)
open Verif.Spec.IiqTab (u32 tables)
open Verif.Orf (ok_bind)

theorem need_ok {notes : Notes} {tag k v : Nat} (h : notes tag = some (k, .long v)) : need notes tag = .ok (k, v) := by rw [need, h]; rfl

theorem need_none {notes : Notes} {tag : Nat} (h : notes tag = none) : need notes tag = fail' := by rw [need, h]

theorem sub_ok (file : List Nat) (a n : Nat) (h : a + n ≤ file.length) : Small.subview file a n = .ok ((file.drop a).take n) := by
  rw [Small.subview, if_pos h]

/-- The notes that each picture needs: format, size, place of the data and of the white balance, all in the file -/
structure Header (file : List Nat) (notes : Notes) (fmt w h off size wb : Nat) : Prop where
  format : ∃ k, notes 0x10e = some (k, .long fmt)
  balance : ∃ k, notes 0x107 = some (k, .long wb)
  width : ∃ k, notes 0x108 = some (k, .long w)
  height : ∃ k, notes 0x109 = some (k, .long h)
  data : notes 0x10f = some (size, .long off)
  pos : 0 < w ∧ 0 < h
  inside : 8 + off + size ≤ file.length
  wbInside : 8 + wb + 12 ≤ file.length

theorem rawCore (env : Env) (file : List Nat) (notes : Notes) (fmt w h off size wb so sn : Nat) (H : Header file notes fmt w h off size wb)
    (hs : (fmt = 0 ∧ so = 0 ∧ sn = 0) ∨ (fmt ≠ 0 ∧ ∃ o, notes 0x21c = some (sn, .long o) ∧ so = o + 8)) (hso : so + sn ≤ file.length)
    (hfmt : fmt = 0 ∨ fmt = 3 ∨ fmt = 5 ∨ fmt = 6 ∨ fmt = 8) (img out : List Nat) (bl : Option (List Int × List Int)) (c : Calib)
    (hdec : decodeAs env fmt ((file.drop (8 + off)).take size) ((file.drop so).take sn) w h = .ok img) (hb : blacksOf file notes = .ok bl)
    (hc : readCalib env.f32 file notes = .ok c) (ho : correctRaw env notes (blackOf notes) bl c w h img = .ok out) :
    rawImage env file notes = .ok (w, h, out, [Spec.Small.num32 file (8 + wb), Spec.Small.num32 file (12 + wb), Spec.Small.num32 file (16 + wb)]) := by
  obtain ⟨⟨k1, e1⟩, ⟨k2, e2⟩, ⟨k3, e3⟩, ⟨k4, e4⟩, e5, hp, hi, hwi⟩ := H
  have ef : rawImage.assertFmt fmt = .ok () := by rw [rawImage.assertFmt, if_pos (by omega)]
  have es : (if fmt ≠ 0 then do
      let s ← need notes 0x21c
      .ok (s.2 + 8, s.1)
    else .ok (0, 0) : R (Nat × Nat)) = .ok (so, sn) := by
    rcases hs with ⟨a, b, c⟩ | ⟨a, o, b, c⟩
    · rw [if_neg (by omega), b, c]
    · rw [if_pos a, need_ok b, c]; rfl
  rw [rawImage, need_ok e1, need_ok e2, need_ok e3, need_ok e4, need_ok e5]
  show (rawImage.assertFmt fmt >>= _) = _
  rw [ef]
  show ((if fmt ≠ 0 then do
      let s ← need notes 0x21c
      .ok (s.2 + 8, s.1)
    else .ok (0, 0) : R (Nat × Nat)) >>= _) = _
  rw [es]
  show (if w = 0 ∨ h = 0 then fail' else _) = _
  rw [if_neg (by omega), Nat.add_comm off 8, sub_ok _ _ _ hi, sub_ok _ _ _ hso]
  show (decodeAs env fmt _ _ w h >>= _) = _
  rw [hdec]
  show (blacksOf file notes >>= _) = _
  rw [hb]
  show (readCalib env.f32 file notes >>= _) = _
  rw [hc]
  show (correctRaw env notes (blackOf notes) bl c w h img >>= _) = _
  rw [ho, Nat.add_comm wb 8, sub_ok _ _ _ hwi]
  show (Small.le32 ((file.drop (8 + wb)).take 12) 0 >>= _) = _
  rw [Small.le32_sub file (8 + wb) 12 0 hwi (by omega), Small.le32_sub file (8 + wb) 12 4 hwi (by omega), Small.le32_sub file (8 + wb) 12 8 hwi (by omega),
    show 8 + wb + 0 = 8 + wb by omega, show 8 + wb + 4 = 12 + wb by omega, show 8 + wb + 8 = 16 + wb by omega]
  rfl

/-- The calibration has no tables, and there are no black levels for rows or columns. -/
structure Plain (file : List Nat) (notes : Notes) : Prop where
  blacks : notes 0x223 = none ∨ notes 0x225 = none
  calib : ∃ k off, notes 0x110 = some (k, .long off) ∧ off + 12 ≤ file.length ∧ off + u32 file (off + 8) + 8 ≤ file.length ∧ tables file off = 0

theorem plain_ok (env : Env) (file : List Nat) (notes : Notes) (P : Plain file notes) (w h black : Nat) (img : List Nat) (f : Nat → Nat → Nat) (hi : Holds img w h f) :
    ∃ c out, blacksOf file notes = .ok none ∧ readCalib env.f32 file notes = .ok c ∧ correctRaw env notes black none c w h img = .ok out ∧
      Holds out w h (fun r c => IiqCorr.bound ((f r c : Int) - black)) := by
  obtain ⟨hb, k, off, e, h1, h2, h3⟩ := P
  obtain ⟨out, e1, hl, ho⟩ := C91_black_plain black img w h (splitOf notes)
  refine ⟨{}, out, ?_, ?_, ?_, ?_⟩
  · rw [blacksOf]
    rcases hb with hb | hb
    · rw [hb]
    · rw [hb]
      cases notes 0x223 <;> rfl
  · rw [readCalib, e]
    simp only [num]
    rw [read32_ok _ _ (by omega)]
    simp only [bind, Except.bind]
    rw [read32_ok _ _ (by omega), show u32 file (off + u32 file (off + 8)) = 0 from h3]
    rfl
  · rw [correctRaw, e1]
    rfl
  · refine ⟨hl.trans hi.1, fun r c hr hc => ho _ _ (hi.2 r c hr hc)⟩

/-- The black level: the number of the note, if it has 16 bits, or 0 without the note -/
def Black (notes : Notes) (b : Nat) : Prop := (∃ k, notes 0x21d = some (k, .long b) ∧ b < 65536) ∨ (notes 0x21d = none ∧ b = 0)

theorem black_eq {notes : Notes} {b : Nat} (h : Black notes b) : blackOf notes = b := by
  rw [blackOf]
  rcases h with ⟨k, e, h⟩ | ⟨e, h⟩
  · rw [e]
    exact if_pos h
  · rw [e, h]

theorem at_sub (file : List Nat) (a size p : Nat) (l : List Nat) (h : At file (a + p) l) (hp : p + l.length ≤ size) (hs : a + size ≤ file.length) :
    At ((file.drop a).take size) p l := by
  refine ⟨?_, by simp only [List.length_take, List.length_drop]; omega⟩
  rw [List.drop_take, List.drop_drop, List.take_take, Nat.min_eq_left (by omega)]
  exact h.1

/-- **C95, not compressed.** The samples of 14 bits at the place that the notes give become 16 bits, less the black level; white balance is the three numbers at its
place. -/
theorem C95_uncompressed (env : Env) (file : List Nat) (notes : Notes) (w h off size wb : Nat) (H : Header file notes 0 w h off size wb) (P : Plain file notes) (b : Nat) (hb : Black notes b)
    (px : Nat → Nat → Nat) (hpx : ∀ r c, r < h → c < w → px r c < 2 ^ 14) (hsize : 2 * (h * w) ≤ size)
    (hS : ∀ r c, r < h → c < w → At file (8 + off + 2 * (r * w + c)) (le 2 (px r c))) :
    ∃ out, rawImage env file notes = .ok (w, h, out, [Spec.Small.num32 file (8 + wb), Spec.Small.num32 file (12 + wb), Spec.Small.num32 file (16 + wb)]) ∧
      Holds out w h (fun r c => IiqCorr.bound (4 * (px r c : Int) - b)) := by
  obtain ⟨img, e, hi⟩ := C73_uncompressed ((file.drop (8 + off)).take size) w h 14 H.pos.1 (by omega) px hpx (fun r c hr hc => by
    refine at_sub _ _ _ _ _ (hS r c hr hc) ?_ H.inside
    have := mul_add_lt hr hc
    have hl : (le 2 (px r c)).length = 2 := rfl
    omega)
  obtain ⟨c, out, e1, e2, e3, ho⟩ := plain_ok env file notes P w h (blackOf notes) img _ hi
  refine ⟨out, rawCore env file notes 0 w h off size wb 0 0 H (Or.inl ⟨rfl, rfl, rfl⟩) (by omega) (Or.inl rfl) img out none c e e1 e2 e3, holds_congr ho fun r c _ _ => ?_⟩
  rw [black_eq hb]
  push_cast
  refine congrArg _ ?_
  omega

/-- **C95, IIQ L.** Data compressed as IIQ L (14 bits, or 16 bits of the format 8) at the place that the notes give become the samples in 16 bits, less the black level. -/
theorem C95_compressed (env : Env) (file : List Nat) (notes : Notes) (fmt w h off size wb so sn b : Nat) (H : Header file notes fmt w h off size wb) (P : Plain file notes) (bl : Nat) (hb : Black notes bl)
    (hf : (fmt = 3 ∧ b = 14) ∨ (fmt = 8 ∧ b = 16)) (hs : notes 0x21c = some (sn, .long so)) (hso : 8 + so + sn ≤ file.length)
    (px : Nat → Nat → Nat) (hpx : ∀ r c, r < h → c < w → px r c < 2 ^ b) (hw : w < 2 ^ 32)
    (hS : StoredL ((file.drop (8 + off)).take size) ((file.drop (8 + so)).take sn) w h px) :
    ∃ out, rawImage env file notes = .ok (w, h, out, [Spec.Small.num32 file (8 + wb), Spec.Small.num32 file (12 + wb), Spec.Small.num32 file (16 + wb)]) ∧
      Holds out w h (fun r c => IiqCorr.bound ((px r c * 2 ^ (16 - b) : Nat) - (bl : Int))) := by
  rw [← black_eq hb]
  obtain ⟨img, e, hi⟩ := C73_compressed _ _ w h b H.pos.1 hw (by omega) px hpx hS
  obtain ⟨c, out, e1, e2, e3, ho⟩ := plain_ok env file notes P w h (blackOf notes) img _ hi
  refine ⟨out, rawCore env file notes fmt w h off size wb (8 + so) sn H (Or.inr ⟨by omega, so, hs, by omega⟩) hso (by omega) img out none c ?_ e1 e2 e3, ho⟩
  rcases hf with ⟨rfl, rfl⟩ | ⟨rfl, rfl⟩
  · exact e
  · exact e

/-- **C95, IIQ S.** Samples up to 255 become what the curve says in 16 bits, others stay; the black level is subtracted. -/
theorem C95_nonlinear (env : Env) (file : List Nat) (notes : Notes) (w h off size wb so sn : Nat) (H : Header file notes 5 w h off size wb) (P : Plain file notes) (bl : Nat)
    (hb : Black notes bl) (hs : notes 0x21c = some (sn, .long so)) (hso : 8 + so + sn ≤ file.length)
    (hcurve : env.curve.length = 256) (hc : ∀ i, i < 256 → env.curve.getD i 0 < 2 ^ 14)
    (px : Nat → Nat → Nat) (hpx : ∀ r c, r < h → c < w → px r c < 2 ^ 16) (hw : w < 2 ^ 32)
    (hS : StoredL ((file.drop (8 + off)).take size) ((file.drop (8 + so)).take sn) w h px) :
    ∃ out, rawImage env file notes = .ok (w, h, out, [Spec.Small.num32 file (8 + wb), Spec.Small.num32 file (12 + wb), Spec.Small.num32 file (16 + wb)]) ∧
      Holds out w h (fun r c => IiqCorr.bound (((if px r c < 256 then env.curve.getD (px r c) 0 * 4 else px r c : Nat) : Int) - bl)) := by
  rw [← black_eq hb]
  obtain ⟨img, e, hi⟩ := C73_nonlinear env.curve _ _ w h 14 H.pos.1 hw (by omega) px hcurve hc hpx hS
  obtain ⟨c, out, e1, e2, e3, ho⟩ := plain_ok env file notes P w h (blackOf notes) img _ hi
  exact ⟨out, rawCore env file notes 5 w h off size wb (8 + so) sn H (Or.inr ⟨by omega, so, hs, by omega⟩) hso (by omega) img out none c e e1 e2 e3, ho⟩

/-- **C95, IIQ S version 2.** Data compressed as IIQ S version 2 at the place that the notes give become the samples in 16 bits, less the black level. -/
theorem C95_sv2 (env : Env) (file : List Nat) (notes : Notes) (w h off size wb so sn : Nat) (H : Header file notes 6 w h off size wb) (P : Plain file notes) (bl : Nat)
    (hb : Black notes bl) (hs : notes 0x21c = some (sn, .long so)) (hso : 8 + so + sn ≤ file.length)
    (px : Nat → Nat → Nat) (hpx : ∀ r c, r < h → c < w → px r c < 2 ^ 14)
    (hS : StoredS ((file.drop (8 + off)).take size) ((file.drop (8 + so)).take sn) w h px) :
    ∃ out, rawImage env file notes = .ok (w, h, out, [Spec.Small.num32 file (8 + wb), Spec.Small.num32 file (12 + wb), Spec.Small.num32 file (16 + wb)]) ∧
      Holds out w h (fun r c => IiqCorr.bound ((px r c * 4 : Nat) - (bl : Int))) := by
  rw [← black_eq hb]
  obtain ⟨img, e, hi⟩ := C73_sv2 _ _ w h H.pos.1 px hpx hS
  obtain ⟨c, out, e1, e2, e3, ho⟩ := plain_ok env file notes P w h (blackOf notes) img _ hi
  exact ⟨out, rawCore env file notes 6 w h off size wb (8 + so) sn H (Or.inr ⟨by omega, so, hs, by omega⟩) hso (by omega) img out none c e e1 e2 e3, ho⟩

/-- **C95, order of the corrections.** First the black levels are subtracted, then the curve of the right half, that of the sensor and the multipliers of the quadrants are
applied, each to the result of the one before. -/
theorem C95_order (env : Env) (notes : Notes) (black w h sr sc : Nat) (cb rb : List Int) (p m : List ℚ) (q0 q1 q2 q3 t : ℚ) (img : List Nat) (f : Nat → Nat → Nat)
    (hi : Holds img w h f) (hcb : cb.length = h * 2) (hrb : rb.length = w * 2) (hp : p.length = 8) (hm : m.length = 19)
    (k1 k2 k3 bits : Nat) (hsc : notes 0x222 = some (k1, .long sc)) (hsr : notes 0x224 = some (k2, .long sr)) (htm : notes 0x210 = some (k3, .long bits))
    (hbits : env.f32 bits = t)
    (A B C D : Nat → Nat → Nat)
    (hA : ∀ r c, A r c = IiqCorr.bound ((f r c : Int) - black + cb.getD (2 * r + IiqCorr.side sc c) 0 + rb.getD (2 * c + IiqCorr.side sr r) 0))
    (hB : ∀ r c, B r c = if c < sc then A r c else
      IiqCorr.word (p.getD 1 0 + (1 + p.getD 3 0 + p.getD 6 0 * (t - p.getD 7 0)) * A r c + p.getD 5 0 * (A r c) ^ 2))
    (hC : ∀ r c, C r c = IiqCorr.word (B r c + (q0 + q1 * B r c + q2 * (B r c : ℚ) ^ 2 + q3 * (B r c : ℚ) ^ 3)))
    (hD : ∀ r c, D r c = IiqCorr.word ((1 + m.getD (if r < sr then (if c < sc then 4 else 10) else (if c < sc then 14 else 18)) 0) * C r c)) :
    ∃ out, correctRaw env notes black (some (cb, rb)) { half := some p, full := some [q0, q1, q2, q3], mult := some m } w h img = .ok out ∧ Holds out w h D := by
  have hs : splitOf notes = some (sr, sc) := by rw [splitOf, hsc, hsr]; rfl
  have ht : tempOf env notes = some t := by rw [tempOf, htm, ← hbits]; rfl
  have hcol : splitCol notes = some sc := by rw [splitCol, hsc]; rfl
  obtain ⟨i1, e1, h1⟩ := C91_black black cb rb img w h f hi hcb hrb sr sc
  have h1 := holds_congr h1 (g := A) fun r c _ _ => (hA r c).symm
  obtain ⟨i2, e2, h2⟩ := C91_half p hp sc t i1 w h A h1
  have h2 := holds_congr h2 (g := B) fun r c _ _ => (hB r c).symm
  have h3 : Holds (IiqPoly.correctFull (some [q0, q1, q2, q3]) i2) w h C := by
    refine ⟨?_, fun r c hr hc => ?_⟩
    · rw [IiqPoly.correctFull, List.length_map]
      exact h2.1
    · rw [(C91_full q0 q1 q2 q3 i2 _ _ (h2.2 r c hr hc)).2, hC]
  obtain ⟨i4, e4, h4⟩ := C91_multipliers m hm sr sc _ w h C h3
  have h4 := holds_congr h4 (g := D) fun r c _ _ => (hD r c).symm
  refine ⟨i4, ?_, h4⟩
  rw [correctRaw, hs, hcol, ht, e1, ok_bind, e2, ok_bind]
  simp only []
  rw [e4]
  rfl

theorem word_lt (q : ℚ) : IiqCorr.word q < 65536 := by
  rw [IiqCorr.word]
  omega

theorem bends_lt {pts : List (Nat × Nat)} {v v' : Nat} (hv : v < 65536) (hc : IiqCorr.Control pts) (h : IiqCorr.Bends pts v v') : v' < 65536 := by
  by_cases a : v < 65535
  · obtain ⟨i, _, _, _, e⟩ := h.1 a
    rw [e]
    exact word_lt _
  · have a : v = 65535 := by omega
    by_cases b : (pts.getD (pts.length - 2) (0, 0)).1 < 65535
    · rw [h.2.1 a b]
      omega
    · have h2 := hc.2.2.2 (pts.length - 2) (by have := hc.1; omega)
      rw [show pts.length - 2 + 1 = pts.length - 1 by have := hc.1; omega, hc.2.2.1] at h2
      rw [h.2.2 a (by omega)]
      omega

/-- **C95, order of all corrections.** After those of `C95_order` come the curves of the quadrants, first the combined one, then the linearization; then a bad column is
replaced, and last the flat field is applied. -/
theorem C95_order_all (env : Env) (notes : Notes) (black w h sr sc : Nat) (cb rb : List Int) (p m : List ℚ) (q0 q1 q2 q3 t : ℚ) (img : List Nat) (f : Nat → Nat → Nat)
    (hi : Holds img w h f) (hcb : cb.length = h * 2) (hrb : rb.length = w * 2) (hp : p.length = 8) (hm : m.length = 19)
    (k1 k2 k3 bits : Nat) (hsc : notes 0x222 = some (k1, .long sc)) (hsr : notes 0x224 = some (k2, .long sr)) (htm : notes 0x210 = some (k3, .long bits))
    (hbits : env.f32 bits = t) (hsrh : sr ≤ h) (hscw : sc ≤ w)
    (xs ys lin : List Nat) (hx : xs.length = 7) (hy : ys.length = 28) (hcc : ∀ qr qc, qr < 2 → qc < 2 → IiqCorr.Control (IiqCorr.combined xs ys qr qc))
    (hl : lin.length = 64) (hlw : ∀ v ∈ lin, v < 65536) (hl0 : ∀ qr qc, qr < 2 → qc < 2 → 2 ≤ lin.getD (32 * qr + 16 * qc + 15) 0)
    (hlc : ∀ qr qc, qr < 2 → qc < 2 → IiqCorr.Control (IiqCorr.linear lin qr qc))
    (col typ : Nat) (htyp : typ = 131 ∨ typ = 137) (hh : 2 ≤ h) (hc2 : 2 ≤ col) (hcw : col + 2 < w) (hcol : ∀ r, env.color r col ≤ 2)
    (ft h6 h7 : Nat) (g : IiqFlat.Grid) (data : List ℚ) (hft : ft = 0x401 ∨ ft = 0x410 ∨ ft = 0x416) (hg : 0 < g.dx ∧ 0 < g.dy ∧ 0 < g.width ∧ 0 < g.height)
    (hd : IiqFlat.parts g.height g.dy * IiqFlat.parts g.width g.dx ≤ data.length)
    (A B C D : Nat → Nat → Nat)
    (hA : ∀ r c, A r c = IiqCorr.bound ((f r c : Int) - black + cb.getD (2 * r + IiqCorr.side sc c) 0 + rb.getD (2 * c + IiqCorr.side sr r) 0))
    (hB : ∀ r c, B r c = if c < sc then A r c else
      IiqCorr.word (p.getD 1 0 + (1 + p.getD 3 0 + p.getD 6 0 * (t - p.getD 7 0)) * A r c + p.getD 5 0 * (A r c) ^ 2))
    (hC : ∀ r c, C r c = IiqCorr.word (B r c + (q0 + q1 * B r c + q2 * (B r c : ℚ) ^ 2 + q3 * (B r c : ℚ) ^ 3)))
    (hD : ∀ r c, D r c = IiqCorr.word ((1 + m.getD (if r < sr then (if c < sc then 4 else 10) else (if c < sc then 14 else 18)) 0) * C r c)) :
    ∃ (out : List Nat) (E F G : Nat → Nat → Nat), correctRaw env notes black (some (cb, rb))
        { half := some p, full := some [q0, q1, q2, q3], mult := some m, combined := some (xs, ys), linear := some lin,
          defects := some [⟨col, typ⟩], flats := [⟨ft, [g.left, g.top, g.width, g.height, g.dx, g.dy, h6, h7], data⟩] } w h img = .ok out ∧
      (∀ r c, r < h → c < w → IiqCorr.Bends (IiqCorr.combined xs ys (IiqCorr.side sr r) (IiqCorr.side sc c)) (D r c) (E r c)) ∧
      (∀ r c, r < h → c < w → IiqCorr.Bends (IiqCorr.linear lin (IiqCorr.side sr r) (IiqCorr.side sc c)) (E r c) (F r c)) ∧
      (∀ r c, r < h → c < w → (c = col ∧ 2 ≤ r ∧ r + 2 < h → IiqCorr.Repaired env.color F r col (G r c)) ∧ (¬ (c = col ∧ 2 ≤ r ∧ r + 2 < h) → G r c = F r c)) ∧
      Holds out w h (fun r c => if IiqFlat.Inside g r c then IiqCorr.word (G r c * IiqFlat.factor g 1 data 0 r c) else G r c) := by
  obtain ⟨i4, e4, h4⟩ := C95_order env notes black w h sr sc cb rb p m q0 q1 q2 q3 t img f hi hcb hrb hp hm k1 k2 k3 bits hsc hsr htm hbits A B C D hA hB hC hD
  have hs : splitOf notes = some (sr, sc) := by rw [splitOf, hsc, hsr]; rfl
  have side2 : ∀ a b, IiqCorr.side a b < 2 := by
    intro a b
    rw [IiqCorr.side]
    split <;> omega
  have hDl : ∀ r c, r < h → c < w → D r c < 65536 := fun r c _ _ => by rw [hD]; exact word_lt _
  obtain ⟨i5, E, e5, h5, hE⟩ := C91_combined_partial xs ys hx hy hcc i4 w h D h4 hDl sr sc hsrh hscw
  have hEl : ∀ r c, r < h → c < w → E r c < 65536 := fun r c hr hc => bends_lt (hDl r c hr hc) (hcc _ _ (side2 _ _) (side2 _ _)) (hE r c hr hc)
  obtain ⟨i6, F, e6, h6', hF⟩ := C91_linear_partial lin hl hlw hl0 hlc i5 w h E h5 hEl sr sc hsrh hscw
  obtain ⟨i7, G, e7, h7', hG⟩ := C91_column_partial env.color i6 w h F h6' col hh hc2 hcw hcol
  obtain ⟨i8, e8, h8⟩ := C91_flat env.color4 (marginsOf notes) w h ft h6 h7 g data i7 G hft hg hd h7'
  refine ⟨i8, E, F, G, ?_, hE, hF, hG, h8⟩
  rw [correctRaw] at e4 ⊢
  rw [hs] at e4 ⊢
  have e7' : correctDefects env.color [⟨col, typ⟩] w h i6 = .ok i7 := by
    rw [correctDefects, List.foldlM_cons, if_neg (by simp only; omega), if_pos (by simpa using htyp), e7]
    rfl
  have e8' : IiqFlat.correctFlat env.color4 (marginsOf notes) w h [⟨ft, [g.left, g.top, g.width, g.height, g.dx, g.dy, h6, h7], data⟩] i7 = .ok i8 := by
    rw [IiqFlat.correctFlat, List.foldlM_cons, e8]
    rfl
  cases a1 : correctBlack black (some (cb, rb)) (some (sr, sc)) w h img with
  | error x => rw [a1] at e4; cases e4
  | ok j1 =>
    rw [a1, ok_bind] at e4
    rw [ok_bind]
    simp only at e4 ⊢
    cases a2 : IiqPoly.correctHalf (some p) (splitCol notes) (tempOf env notes) w h j1 with
    | error x => rw [a2] at e4; cases e4
    | ok j2 =>
      rw [a2, ok_bind] at e4
      rw [ok_bind]
      cases a3 : IiqPoly.correctMul (some m) (some (sr, sc)) w h (IiqPoly.correctFull (some [q0, q1, q2, q3]) j2) with
      | error x => rw [a3] at e4; cases e4
      | ok j3 =>
        rw [a3, ok_bind] at e4
        rw [ok_bind]
        have : j3 = i4 := by injection e4
        subst this
        rw [e5, ok_bind, e6, ok_bind, e7', ok_bind, e8']

/-- Tables of a calibration that meet the hypotheses -/
example : (∀ qr qc, qr < 2 → qc < 2 → IiqCorr.Control (IiqCorr.combined [1000, 2000, 3000, 4000, 5000, 6000, 7000] (List.replicate 28 10100) qr qc)) ∧
    (∀ qr qc, qr < 2 → qc < 2 → IiqCorr.Control (IiqCorr.linear ((List.range 64).map fun i => 1000 * (i % 16 + 1) + i / 16) qr qc)) ∧
    (∀ qr qc, qr < 2 → qc < 2 → 2 ≤ ((List.range 64).map fun i => 1000 * (i % 16 + 1) + i / 16).getD (32 * qr + 16 * qc + 15) 0) := by
  refine ⟨?_, ?_, ?_⟩ <;>
  · intro qr qc h1 h2
    interval_cases qr <;> interval_cases qc <;> decide +kernel

/-- **C95, black levels of rows and columns.** They are the signed numbers of 16 bits at the places of the notes. -/
theorem C95_black_tables (file : List Nat) (notes : Notes) (n1 n2 a b : Nat) (h1 : notes 0x223 = some (n1, .long a)) (h2 : notes 0x225 = some (n2, .long b))
    (ha : 8 + a + n1 ≤ file.length) (hb : 8 + b + n2 ≤ file.length) (v : Nat → Int)
    (hv : ∀ p, v p = if Spec.IiqTab.u16 file p < 32768 then (Spec.IiqTab.u16 file p : Int) else Spec.IiqTab.u16 file p - 65536) :
    blacksOf file notes = .ok (some (Spec.IiqTab.values v (8 + a) 2 (n1 / 2), Spec.IiqTab.values v (8 + b) 2 (n2 / 2))) := by
  have key : ∀ p n, p + n ≤ file.length → readMany (readI16 file) p 2 (n / 2) = .ok (Spec.IiqTab.values v p 2 (n / 2)) := by
    intro p n h
    refine readMany_ok _ _ _ _ _ fun i hi => ?_
    rw [readI16, read16_ok _ _ (by omega), hv]
    rfl
  rw [blacksOf, h1, h2]
  simp only [num]
  rw [Nat.add_comm a 8, Nat.add_comm b 8, key _ _ ha, key _ _ hb]
  rfl

/-- **C95, errors.** A file without format, size, data or white balance, or of an unknown format, is an error. -/
theorem C95_missing (env : Env) (file : List Nat) (notes : Notes) (h : notes 0x10e = none ∨ notes 0x107 = none ∨ notes 0x108 = none ∨ notes 0x109 = none ∨ notes 0x10f = none ∨
    ∃ k f, notes 0x10e = some (k, .long f) ∧ f ≠ 0 ∧ f ≠ 1 ∧ f ≠ 2 ∧ f ≠ 3 ∧ f ≠ 5 ∧ f ≠ 6 ∧ f ≠ 8) : rawImage env file notes = fail' := by
  have key : ∀ tag, need notes tag = fail' ∨ ∃ v, need notes tag = .ok v := by
    intro tag
    rw [need]
    cases notes tag with
    | none => exact Or.inl rfl
    | some v => exact Or.inr ⟨_, rfl⟩
  have kf : ∀ f, rawImage.assertFmt f = fail' ∨ rawImage.assertFmt f = .ok () := by
    intro f
    rw [rawImage.assertFmt]
    split
    · exact Or.inr rfl
    · exact Or.inl rfl
  rw [rawImage]
  rcases h with h | h | h | h | h | ⟨k, f, h, hf⟩
  · rw [need_none h]; rfl
  all_goals rcases key 0x10e with e | ⟨v, e⟩ <;> rw [e] <;> try rfl
  all_goals rw [ok_bind]
  case inr.inr.inr.inr.inr.inr =>
    rw [need_ok h] at e
    cases e
    rw [show rawImage.assertFmt (k, f).2 = fail' by rw [rawImage.assertFmt, if_neg (by simp only; omega)]]
    rfl
  all_goals rcases kf v.2 with e1 | e1 <;> rw [e1] <;> try rfl
  all_goals rw [ok_bind]
  · rw [need_none h]; rfl
  all_goals rcases key 0x107 with e2 | ⟨v2, e2⟩ <;> rw [e2] <;> try rfl
  all_goals rw [ok_bind]
  · rw [need_none h]; rfl
  all_goals rcases key 0x108 with e3 | ⟨v3, e3⟩ <;> rw [e3] <;> try rfl
  all_goals rw [ok_bind]
  · rw [need_none h]; rfl
  · rcases key 0x109 with e4 | ⟨v4, e4⟩ <;> rw [e4] <;> try rfl
    rw [ok_bind, need_none h]; rfl

/-- **C95, old formats.** Files of the formats 1 and 2 abort. -/
theorem C95_old_formats_abort (env : Env) (file : List Nat) (notes : Notes) (fmt w h off size wb so sn : Nat) (H : Header file notes fmt w h off size wb)
    (hf : fmt = 1 ∨ fmt = 2) (hs : notes 0x21c = some (sn, .long so)) (hso : 8 + so + sn ≤ file.length) : rawImage env file notes = panic' := by
  obtain ⟨⟨k1, e1⟩, ⟨k2, e2⟩, ⟨k3, e3⟩, ⟨k4, e4⟩, e5, hp, hi, _⟩ := H
  rw [rawImage, need_ok e1, need_ok e2, need_ok e3, need_ok e4, need_ok e5, need_ok hs]
  show (rawImage.assertFmt fmt >>= _) = _
  rw [show rawImage.assertFmt fmt = .ok () by rw [rawImage.assertFmt, if_pos (by omega)], ok_bind]
  simp only [ok_bind]
  rw [if_pos (by omega : fmt ≠ 0), ok_bind, if_neg (by omega), Nat.add_comm off 8, Nat.add_comm so 8, sub_ok _ _ _ hi, sub_ok _ _ _ hso, ok_bind, ok_bind, decodeAs]
  rcases hf with rfl | rfl <;> rfl

/-- A file with one pixel -/
def onePixel : List Nat := List.replicate 8 0 ++ [12, 0, 0, 0] ++ List.replicate 8 0 ++ [5, 0] ++ List.replicate 12 1

/-- Its notes -/
def onePixelNotes : Notes := fun t =>
  if t = 0x10e then some (4, .long 0) else if t = 0x107 then some (12, .long 14) else if t = 0x108 then some (4, .long 1) else if t = 0x109 then some (4, .long 1)
  else if t = 0x10f then some (2, .long 12) else if t = 0x110 then some (4, .long 0) else if t = 0x21d then some (4, .long 3) else none

/-- The sample 5 becomes 20, less the black level of 3. -/
example : Header onePixel onePixelNotes 0 1 1 12 2 14 ∧ Plain onePixel onePixelNotes ∧ At onePixel (8 + 12 + 2 * (0 * 1 + 0)) (le 2 5) ∧
    IiqCorr.bound (4 * ((5 : Nat) : Int) - (3 : Nat)) = 17 ∧ Black onePixelNotes 3 := by
  refine ⟨⟨⟨_, rfl⟩, ⟨_, rfl⟩, ⟨_, rfl⟩, ⟨_, rfl⟩, rfl, by decide, by decide, by decide⟩, ⟨Or.inl rfl, ⟨_, _, rfl, by decide, by decide, by decide⟩⟩, ⟨by decide, by decide⟩, by decide, Or.inl ⟨4, rfl, by decide⟩⟩

end Verif.Props
