import Verif.Proofs.Hassel
import Verif.Proofs.Leaf
import Verif.Props.Pumps
import Verif.Props.ArwLjpeg
import Verif.Props.JpegExists
/-!
# C64: Hasselblad 3FR and Leaf MOS images decode to the stored image
-/

namespace Verif.Props
open Verif Verif.Ljpeg Verif.Leaf Verif.Pumps Verif.Spec Verif.Spec.Jpeg Verif.CrxSpec Verif.ArwLjpeg

/-- A Hasselblad file and an image of `h` rows of `w` samples belong together: the headers are as they should be, the predictor is 8, and
after the headers there are 32 bit words, little-endian, whose bits are those of the image and at least 16 more; then anything. -/
structure StoredHassel (F : Frame) (pre post : List Segment) (sel : List Nat) (pt : Nat) (data : List Nat) (T : Nat → Table) (w h : Nat)
    (f : Nat → Nat → Nat) : Prop where
  frame : F.Ok
  first : ∀ c, F.comps[0]? = some c → c.h = 1 ∧ c.v = 1
  before : ∀ g ∈ pre, g.Ok
  after : ∀ g ∈ post, g.Ok
  selects : Selects F sel false
  transform : pt < 16
  tables : ∀ k c, F.comps[k]? = some c → tableFor (pre ++ post) c.tbl = some (T k)
  samples : ∀ r c, r < h → c < w → f r c < 65536
  coded : ∀ r c, r < h → c < w → catOf (hDiff f r c) ∈ (T 0).vals
  bits : ∃ words tail rest, data = words ++ tail ∧ IsBytes words ∧ words.length % 4 = 0 ∧
    bytesMSB (swapWords words) = hScan (T 0) f w h ++ rest ∧ 16 ≤ rest.length

/-- **C64.** Hasselblad: every sample of the image arrives at its place. A last column without a partner is not in the data and is 0. -/
theorem C64_hasselblad (F : Frame) (pre post : List Segment) (sel : List Nat) (pt : Nat) (data : List Nat) (T : Nat → Table) (w h : Nat)
    (f : Nat → Nat → Nat) (hS : StoredHassel F pre post sel pt data T w h f) (hw : 1 ≤ w ∧ w ≤ 131068) :
    ∃ out, decodeTfr (file F pre post sel 8 pt data) w h = .ok out ∧
      Holds out w h fun r c => if c / 2 < w / 2 then f r c else 0 := by
  obtain ⟨d, e, hd⟩ := newFull_ok F hS.frame pre post hS.before hS.after sel false true hS.selects 8 pt hS.transform data T
    (fun k c => hS.tables k c)
  obtain ⟨words, tail, rest, rfl, hb, h4, hbits, h16⟩ := hS.bits
  have hn := hS.frame.n.1
  obtain ⟨t, ht, hr⟩ := hd.tabs 0 (by omega)
  obtain ⟨out, e2, ho⟩ := decodeHasselblad_ok ht hr hw.1 hw.2 hS.samples hS.coded hd.buffer hb h4 h16 hbits (holds_replicate w h 0)
  refine ⟨out, ?_, ho⟩
  obtain ⟨c0, cs, hcomps⟩ : ∃ c0 cs, F.comps = c0 :: cs := by
    cases h0 : F.comps with
    | nil => rw [h0] at hn; simp at hn
    | cons c0 cs => exact ⟨c0, cs, rfl⟩
  obtain ⟨h1, h2⟩ := hS.first c0 (by rw [hcomps]; rfl)
  have h3 := hd.comps
  rw [hcomps, List.map_cons] at h3
  rw [decodeTfr, e]
  simp only [bind, Except.bind]
  rw [Dec.decode, h3]
  simp only [fullComp, h1, h2]
  rw [if_neg (by omega), if_neg (by omega), if_pos ⟨trivial, trivial⟩, Dec.decodePlain, hd.pred, if_neg (by omega), if_pos rfl]
  exact e2

/-- For an even width that is the whole image. -/
theorem C64_hasselblad_even (F : Frame) (pre post : List Segment) (sel : List Nat) (pt : Nat) (data : List Nat) (T : Nat → Table) (w h : Nat)
    (f : Nat → Nat → Nat) (hS : StoredHassel F pre post sel pt data T w h f) (hw : 1 ≤ w ∧ w ≤ 131068) (he : w % 2 = 0) :
    ∃ out, decodeTfr (file F pre post sel 8 pt data) w h = .ok out ∧ Holds out w h f := by
  obtain ⟨out, e, ho⟩ := C64_hasselblad F pre post sel pt data T w h f hS hw
  exact ⟨out, e, ho.same fun r c _ hc => if_pos (by omega)⟩

theorem swapWords_swap : ∀ (n : Nat) (l : List Nat), l.length = 4 * n → swapWords (swapWords l) = l := by
  intro n
  induction n with
  | zero => intro l h; have := List.length_eq_zero_iff.1 (by omega : l.length = 0); subst this; rfl
  | succ n ih =>
    intro l h
    match l, h with
    | a :: b :: c :: d :: r, h =>
      rw [swapWords, swapWords, ih r (by simp only [List.length_cons] at h; omega)]

theorem swapWords_bytes : ∀ (n : Nat) (l : List Nat), l.length = 4 * n → IsBytes l → IsBytes (swapWords l) := by
  intro n
  induction n with
  | zero => intro l h _; have := List.length_eq_zero_iff.1 (by omega : l.length = 0); subst this; intro b hb; simp [swapWords] at hb
  | succ n ih =>
    intro l h hl
    match l, h with
    | a :: b :: c :: d :: r, h =>
      have := ih r (by simp only [List.length_cons] at h; omega) (fun x hx => hl x (by simp [hx]))
      intro x hx
      rw [swapWords] at hx
      simp only [List.mem_cons] at hx
      rcases hx with rfl | rfl | rfl | rfl | hx
      · exact hl _ (by simp)
      · exact hl _ (by simp)
      · exact hl _ (by simp)
      · exact hl _ (by simp)
      · exact this x hx

/-- Every image of 16 bit samples has a Hasselblad file. -/
theorem C64_every_hasselblad (w h : Nat) (f : Nat → Nat → Nat) (hf : ∀ r c, r < h → c < w → f r c < 65536) (tail : List Nat) :
    ∃ words, IsBytes words ∧
      StoredHassel ⟨1, 1, 16, [⟨0, 1, 1, 0⟩]⟩ [.tables [(0, allTab)]] [] [0] 0 (words ++ tail) (fun _ => allTab) w h f := by
  obtain ⟨pad, e, hb, _⟩ := toBytes_spec _ (hScan allTab f w h) (Nat.le_refl _)
  obtain ⟨k, hk⟩ : ∃ k, k = 4 - (toBytes (hScan allTab f w h)).length % 4 + 4 := ⟨_, rfl⟩
  let l := toBytes (hScan allTab f w h) ++ List.replicate k 0
  obtain ⟨n, hn⟩ : ∃ n, l.length = 4 * n := ⟨l.length / 4, by simp only [l, List.length_append, List.length_replicate]; omega⟩
  have hl : IsBytes l := by
    intro b hm
    rcases List.mem_append.1 hm with hm | hm
    · exact hb b hm
    · rw [(List.mem_replicate.1 hm).2]; omega
  refine ⟨swapWords l, swapWords_bytes n l hn hl, ?_⟩
  exact
   {frame := (by decide), first := (by decide), before := (by decide +kernel), after := (by simp), selects := (by decide), transform := (by omega),
    tables := all_tables _ (by simp), samples := hf, coded := fun r c _ _ => all_cats (hDiff_range f r c),
    bits := ⟨swapWords l, tail, pad ++ bytesMSB (List.replicate k 0), rfl, swapWords_bytes n l hn hl, by rw [length_swapWords]; omega, by
      rw [swapWords_swap n l hn, bytesMSB_append, e, List.append_assoc], by
      rw [List.length_append, length_bytesMSB, List.length_replicate]; omega⟩ }

/-! ### Leaf -/

/-- The base value of a file. -/
abbrev leafBase (F : Frame) (pt : Nat) : Nat := 2 ^ (F.prec - pt - 1)

/-- A Leaf file and `h` rows of `w` samples belong together: the data are strips of eight rows (the last may have fewer), each coded on
its own as an image of half the width with two components; between them are markers, at the end is the end marker, then anything. -/
structure StoredLeaf (F : Frame) (pre post : List Segment) (sel : List Nat) (pt : Nat) (data : List Nat) (T : Nat → Table) (w h : Nat)
    (f : Nat → Nat → Nat) : Prop where
  frame : F.Ok
  two : 2 ≤ F.comps.length
  before : ∀ g ∈ pre, g.Ok
  after : ∀ g ∈ post, g.Ok
  selects : Selects F sel true
  transform : pt < F.prec ∧ pt < 16
  tables : ∀ k c, F.comps[k]? = some c → tableFor (pre ++ post) c.tbl = some (T k)
  samples : ∀ r c, r < h → c < w → f r c < 65536
  coded : ∀ i r c k, 8 * i + r < h → r < 8 → c < w / 2 → k < 2 →
    catOf (delta 1 (leafBase F pt) (fun r c k => f (8 * i + r) (2 * c + k)) r c k) ∈ (T k).vals
  bits : ∃ strips tail, data = joinStrips strips tail ∧ MarkersOk strips ∧ (∀ s ∈ strips, IsBytes s.1) ∧ (∀ s ∈ strips, s.2 < 256) ∧ IsBytes tail ∧
    strips.length = (h + 7) / 8 ∧
    ∀ i s, strips[i]? = some s → ∃ rest, bytesMSB s.1 =
      Jpeg.scan T true 2 (w / 2) (min 8 (h - 8 * i)) 1 (leafBase F pt) (fun r c k => f (8 * i + r) (2 * c + k)) ++ rest

theorem joinStrips_bytes (strips : List (List Nat × Nat)) (tail : List Nat) (h1 : ∀ s ∈ strips, IsBytes s.1) (h2 : ∀ s ∈ strips, s.2 < 256)
    (ht : IsBytes tail) : IsBytes (joinStrips strips tail) := by
  induction strips with
  | nil => exact ht
  | cons x l ih =>
    obtain ⟨s, m⟩ := x
    have hs : IsBytes s := h1 _ List.mem_cons_self
    have hm : m < 256 := h2 _ List.mem_cons_self
    have := ih (fun s hs => h1 s (List.mem_cons_of_mem _ hs)) (fun s hs => h2 s (List.mem_cons_of_mem _ hs))
    intro b hb
    rw [joinStrips, List.mem_append] at hb
    rcases hb with hb | hb
    · rw [stuff, List.mem_flatMap] at hb
      obtain ⟨x, hx, hb⟩ := hb
      have := hs x hx
      split at hb
      · simp at hb; omega
      · simp at hb; omega
    · simp only [List.mem_cons] at hb
      rcases hb with rfl | rfl | hb
      · omega
      · exact hm
      · exact this b hb

theorem markers_ne (l : List (List Nat × Nat)) (h : MarkersOk l) : ∀ s ∈ l, s.2 ≠ 0 := by
  induction l with
  | nil => exact absurd h id
  | cons x l ih =>
    cases l with
    | nil =>
      have hx : x.2 = 0xd9 := h
      intro s hs
      rw [List.mem_singleton] at hs
      subst hs; omega
    | cons y l =>
      obtain ⟨h0, _, _, hl⟩ := h
      intro s hs
      rcases List.mem_cons.1 hs with rfl | hs
      · exact h0
      · exact ih hl s hs

/-- The data of a strip: what a reader sees that starts at it. -/
theorem strip_reader (strips : List (List Nat × Nat)) (tail : List Nat) (hm : MarkersOk strips) (i : Nat) (s : List Nat × Nat)
    (hs : strips[i]? = some s) : ProperEnd (joinStrips (strips.drop i) tail) ∧ bitsOf (joinStrips (strips.drop i) tail) = bytesMSB s.1 := by
  obtain ⟨ds, m⟩ := s
  have hlt : i < strips.length := by
    rw [List.getElem?_eq_some_iff] at hs; exact hs.1
  have h0 : m ≠ 0 := markers_ne strips hm _ (List.mem_of_getElem? hs)
  rw [List.drop_eq_getElem_cons hlt]
  rw [List.getElem?_eq_getElem hlt, Option.some.injEq] at hs
  rw [hs, joinStrips, bitsOf, unstuff_stuff, properEnd_stuff]
  constructor
  · simp [ProperEnd, h0]
  · simp [unstuff, h0]

/-- **C64.** Leaf: the samples of all strips arrive at their places. -/
theorem C64_leaf_rows (F : Frame) (pre post : List Segment) (sel : List Nat) (pred pt : Nat) (data : List Nat) (T : Nat → Table) (w h : Nat)
    (f : Nat → Nat → Nat) (hS : StoredLeaf F pre post sel pt data T w h f) (hw : 1 ≤ w) (he : w % 2 = 0) (hh : 1 ≤ h) :
    ∃ out, decodeMos (file F pre post sel pred pt data) false w h = .ok out ∧ Holds out w h f := by
  obtain ⟨d, e, hd⟩ := newFull_ok F hS.frame pre post hS.before hS.after sel true true hS.selects pred pt hS.transform.2 data T
    (fun k c => hS.tables k c)
  obtain ⟨strips, tail, rfl, hm, hb, hm2, htail, hlen, hbits⟩ := hS.bits
  have htwo := hS.two
  obtain ⟨t1, ht1, hr1⟩ := hd.tabs 0 (by omega)
  obtain ⟨t2, ht2, hr2⟩ := hd.tabs 1 (by omega)
  have hfuel : strips.length ≤ (joinStrips strips tail).length + 1 := by
    have : ∀ l : List (List Nat × Nat), l.length ≤ (joinStrips l tail).length := by
      intro l
      induction l with
      | nil => simp
      | cons x l ih => simp only [joinStrips, List.length_append, List.length_cons]; omega
    have := this strips; omega
  obtain ⟨r, em, hrlen, hget⟩ := leafMarkers_ok strips tail hm _ hfuel
  obtain ⟨out, es, ho⟩ := stripsFn_gen (W := w) (H := h) (n := 8) (f := f) (fun strip lines => do
      let src ← idx (joinStrips strips tail :: r) strip
      leafStrip src lines w (lines.length / w) t1 t2 (leafBase F pt)) hw (by omega) hh (by
    intro i m lines hi hmm hl
    have hi' : i < strips.length := by omega
    obtain ⟨hpe, hbo⟩ := strip_reader strips tail hm i strips[i] (List.getElem?_eq_getElem hi')
    obtain ⟨rest, hrest⟩ := hbits i strips[i] (List.getElem?_eq_getElem hi')
    have hscan : ∀ n px, Jpeg.scan T true 2 (w / 2) n 1 (leafBase F pt) px =
        Jpeg.scan (fun k => if k = 0 then T 0 else T 1) true 2 (w / 2) n 1 (leafBase F pt) px := by
      intro n px
      simp [Jpeg.scan, List.range_succ]
    rw [hrest, hscan, Nat.mul_comm 8 i, ← hmm] at hbo
    have hc : LCtx (T 0) (T 1) t1 t2 true (leafBase F pt) w m (fun r c => f (i * 8 + r) c) :=
      { r1 := hr1, r2 := hr2, even := he, pos := hw, u16 := fun r c hr hc => hS.samples _ _ (by omega) hc,
        cat1 := fun r c hr hc => by
          have := hS.coded i r c 0 (by omega) (by omega) hc (by omega)
          rw [Nat.mul_comm 8 i] at this; exact this,
        cat2 := fun r c hr hc => by
          have := hS.coded i r c 1 (by omega) (by omega) hc (by omega)
          rw [Nat.mul_comm 8 i] at this; exact this }
    obtain ⟨out, e, ho⟩ := hc.strip (by omega) (joinStrips_bytes _ _ (fun s hs => hb s (List.mem_of_mem_drop hs))
      (fun s hs => hm2 s (List.mem_of_mem_drop hs)) htail) hpe hbo hl
    refine ⟨out, ?_, ho⟩
    have hidx : idx (joinStrips strips tail :: r) i = .ok (joinStrips (strips.drop i) tail) := by
      have h1 := hget i hi'
      have h2 : i < (joinStrips strips tail :: r).length := by rw [List.length_cons]; omega
      rw [idx_lt _ _ h2]
      rw [List.getElem?_eq_getElem h2, Option.some.injEq] at h1
      rw [h1]
    rw [hidx]
    simp only [bind, Except.bind]
    rw [show lines.length / w = m by rw [hl.1, Nat.mul_div_cancel _ hw]]
    exact e)
  refine ⟨out, ?_, ho⟩
  rw [decodeMos, e]
  simp only [bind, Except.bind]
  rw [decodeLeaf, hd.buffer, em]
  simp only [bind, Except.bind]
  rw [usub, if_pos hh]
  simp only
  rw [if_neg (by rw [List.length_cons]; omega), ht1]
  simp only
  rw [ht2]
  simp only
  rw [hd.prec, hd.pt, if_neg (by have := hS.transform.1; omega), Nat.one_shiftLeft]
  simp only [bind, Except.bind] at es
  rw [es]
  rfl

theorem interlacedRow_ok {h r : Nat} (hr : r < h) : interlacedRow h r = .ok (interlace h r) := by
  unfold interlacedRow interlace
  split
  · rw [usub, if_pos (by omega)]
    simp only [bind, Except.bind]
    rw [usub, if_pos (by omega)]
  · rfl

/-- **C64.** Leaf, interlaced: the rows of the data are the first row of the image, the last, the second, the last but one, and so on. The
image comes out with its rows in order. -/
theorem C64_leaf_interlaced (F : Frame) (pre post : List Segment) (sel : List Nat) (pred pt : Nat) (data : List Nat) (T : Nat → Table)
    (w h : Nat) (g : Nat → Nat → Nat) (hS : StoredLeaf F pre post sel pt data T w h fun r c => g (interlace h r) c) (hw : 1 ≤ w)
    (he : w % 2 = 0) (hh : 1 ≤ h) :
    ∃ out, decodeMos (file F pre post sel pred pt data) true w h = .ok out ∧ Holds out w h g := by
  obtain ⟨px, e, hpx⟩ := C64_leaf_rows F pre post sel pred pt data T w h _ hS hw he hh
  rw [decodeMos] at e
  obtain ⟨d, e1, e2⟩ := bind_inv _ _ _ e
  obtain ⟨px', e3, e4⟩ := bind_inv _ _ _ e2
  rw [if_neg (by simp)] at e4
  cases e4
  have main : ∃ out, forN (px.length / w) (fun row out => do
      let orow ← interlacedRow h row
      Cr2.copyIn out (orow * w) px (row * w) w) (List.replicate (w * h) 0) = .ok out ∧
      Holds out w h fun r c => if r < (h + 1) / 2 ∨ h - h / 2 ≤ r then g r c else 0 := by
    rw [show px.length / w = h by rw [hpx.1, Nat.mul_div_cancel _ hw]]
    refine forN_inv h _ (fun k out => Holds out w h fun r c => if r < (k + 1) / 2 ∨ h - k / 2 ≤ r then g r c else 0) _
      ((holds_replicate w h 0).same fun r c hr _ => by rw [if_neg (by omega)]) ?_
    intro k out hk ho
    have hlt : interlace h k < h := by unfold interlace; split <;> omega
    have hp := Verif.Pix.Holds.piece hpx (r := k) (x := 0) (n := w) hk (by omega)
    rw [Nat.add_zero] at hp
    obtain ⟨o, eo, ho'⟩ := Cr2.copyIn_ok ho (r := interlace h k) (x := 0) (n := w) hlt (by omega) hw hp (d := interlace h k * w) rfl
    refine ⟨o, ?_, ho'.same ?_⟩
    · rw [interlacedRow_ok hk]
      exact eo
    · intro r c hr hc
      show (if r = interlace h k ∧ 0 ≤ c ∧ c < 0 + w then g (interlace h k) (0 + (c - 0)) else if r < (k + 1) / 2 ∨ h - k / 2 ≤ r then g r c else 0) =
        if r < (k + 1 + 1) / 2 ∨ h - (k + 1) / 2 ≤ r then g r c else 0
      by_cases c1 : r = interlace h k
      · rw [if_pos ⟨c1, by omega, by omega⟩, if_pos, c1]
        · congr 1; omega
        · rw [c1]; unfold interlace; split <;> omega
      · rw [if_neg (by omega)]
        have h2 : (r < (k + 1) / 2 ∨ h - k / 2 ≤ r) ↔ (r < (k + 1 + 1) / 2 ∨ h - (k + 1) / 2 ≤ r) := by
          unfold interlace at c1
          split at c1 <;> omega
        by_cases c2 : r < (k + 1) / 2 ∨ h - k / 2 ≤ r
        · rw [if_pos c2, if_pos (h2.1 c2)]
        · rw [if_neg c2, if_neg (fun h => c2 (h2.2 h))]
  obtain ⟨out, e5, ho⟩ := main
  refine ⟨out, ?_, ho.same fun r c hr _ => if_pos (by omega)⟩
  rw [decodeMos, e1]
  simp only [bind, Except.bind]
  rw [e3]
  simp only [if_true]
  rw [if_neg (by omega)]
  exact e5

/-- Every row of the image is somewhere in the data. -/
theorem C64_interlace_all (h r : Nat) (hr : r < h) : ∃ k, k < h ∧ interlace h k = r := by
  by_cases c : r < (h + 1) / 2
  · exact ⟨2 * r, by omega, by unfold interlace; rw [if_neg (by omega)]; omega⟩
  · exact ⟨2 * (h - 1 - r) + 1, by omega, by unfold interlace; rw [if_pos (by omega)]; omega⟩

/-- **C64.** Leaf: no file with an image of odd width is decoded, whatever it contains. -/
theorem C64_leaf_odd_width (src : List Nat) (il : Bool) (w h : Nat) (out : List Nat) (hres : decodeMos src il w h = .ok out) : w % 2 = 0 := by
  unfold decodeMos at hres
  obtain ⟨d, _, hres⟩ := bind_inv _ _ _ hres
  obtain ⟨px, hpx, _⟩ := bind_inv _ _ _ hres
  unfold decodeLeaf at hpx
  obtain ⟨r, _, hpx⟩ := bind_inv _ _ _ hpx
  simp only at hpx
  obtain ⟨a, ha, hpx⟩ := bind_inv _ _ _ hpx
  split at hpx
  · cases hpx
  obtain ⟨t1, _, hpx⟩ := bind_inv _ _ _ hpx
  obtain ⟨t2, _, hpx⟩ := bind_inv _ _ _ hpx
  split at hpx
  · cases hpx
  unfold stripsFn at hpx
  obtain ⟨cs, hcs, hpx⟩ := bind_inv _ _ _ hpx
  obtain ⟨os, hos, _⟩ := bind_inv _ _ _ hpx
  have hh : 0 < h := by
    unfold usub at ha
    split at ha
    · omega
    · cases ha
  unfold chunks at hcs
  split at hcs
  · cases hcs
  rename_i hw8
  rw [List.length_replicate] at hcs
  have hwp : 0 < w := by
    rcases Nat.eq_zero_or_pos w with rfl | h
    · omega
    · exact h
  have hcs := Except.ok.inj hcs
  have hcount : 0 < (w * h + w * 8 - 1) / (w * 8) := by
    refine Nat.div_pos ?_ (by omega)
    have := Nat.mul_pos hwp hh
    omega
  have hclen : cs.length = (w * h + w * 8 - 1) / (w * 8) := by rw [← hcs]; simp
  obtain ⟨o, ho⟩ := mapM_each _ _ _ hos 0 (List.mem_range.2 (by omega))
  obtain ⟨lines, hlines, ho⟩ := bind_inv _ _ _ ho
  obtain ⟨s0, _, ho⟩ := bind_inv _ _ _ ho
  have hll : lines.length = min 8 h * w := by
    rw [idx_lt _ _ (by omega)] at hlines
    cases hlines
    simp only [← hcs, List.getElem_map, List.getElem_range, Nat.zero_mul, List.drop_zero, List.length_take, List.length_replicate]
    rcases Nat.le_total 8 h with h8 | h8
    · have := Nat.mul_le_mul_left w h8
      rw [Nat.min_eq_left (by omega), Nat.min_eq_left h8, Nat.mul_comm]
    · have := Nat.mul_le_mul_left w h8
      rw [Nat.min_eq_right (by omega), Nat.min_eq_right h8, Nat.mul_comm]
  obtain ⟨n, hn⟩ : ∃ n, min 8 h = n + 1 := ⟨min 8 h - 1, by omega⟩
  rw [hll, Nat.mul_div_cancel _ hwp, hn] at ho
  rw [hn] at hll
  unfold leafStrip at ho
  obtain ⟨⟨d1, p1⟩, _, ho⟩ := bind_inv _ _ _ ho
  simp only at ho
  obtain ⟨l1, hl1, ho⟩ := bind_inv _ _ _ ho
  obtain ⟨⟨d2, p2⟩, _, ho⟩ := bind_inv _ _ _ ho
  simp only at ho
  obtain ⟨l2, hl2, ho⟩ := bind_inv _ _ _ ho
  obtain ⟨⟨l3, p3⟩, ho, _⟩ := bind_inv _ _ _ ho
  obtain ⟨_, e1⟩ := upd_inv hl1
  obtain ⟨hlt, e2⟩ := upd_inv hl2
  have pair_inv : ∀ row col st st', leafPair t1 t2 w row col st = .ok st' → st'.1.length = st.1.length ∧ row * w + col + 1 < st.1.length := by
    rintro row col ⟨o, p⟩ st' hst
    unfold leafPair at hst
    simp only at hst
    obtain ⟨_, _, hst⟩ := bind_inv _ _ _ hst
    obtain ⟨_, _, hst⟩ := bind_inv _ _ _ hst
    obtain ⟨_, _, hst⟩ := bind_inv _ _ _ hst
    obtain ⟨⟨_, _⟩, _, hst⟩ := bind_inv _ _ _ hst
    simp only at hst
    obtain ⟨⟨_, _⟩, _, hst⟩ := bind_inv _ _ _ hst
    simp only at hst
    obtain ⟨o1, u1, hst⟩ := bind_inv _ _ _ hst
    obtain ⟨o2, u2, hst⟩ := bind_inv _ _ _ hst
    cases hst
    obtain ⟨_, f1⟩ := upd_inv u1
    obtain ⟨f2, f3⟩ := upd_inv u2
    exact ⟨by rw [f3, f1], by rw [← f1]; exact f2⟩
  rw [forN_succ] at ho
  obtain ⟨⟨l4, p4⟩, h4, h5⟩ := bind_inv _ _ _ ho
  have hl4 : l4.length = l2.length :=
    forN_post n _ (fun st => st.1.length = l2.length) (fun row st st' h1 h2 =>
      forN_post _ _ (fun st => st.1.length = l2.length) (fun k st st' h1 h2 => by rw [(pair_inv _ _ _ _ h1).1]; exact h2) _ _ h1 h2) _ _ h4 rfl
  by_contra hodd
  obtain ⟨m, hm⟩ | hz : (∃ m, (w - (if n = 0 then 2 else 0) + 1) / 2 = m + 1) ∨ (w = 1 ∧ n = 0) := by
    by_cases h0 : n = 0
    · by_cases h1 : w = 1
      · exact Or.inr ⟨h1, h0⟩
      · rw [if_pos h0]; exact Or.inl ⟨(w - 2 + 1) / 2 - 1, by omega⟩
    · rw [if_neg h0]; exact Or.inl ⟨(w - 0 + 1) / 2 - 1, by omega⟩
  · rw [hm, forN_succ] at h5
    obtain ⟨⟨l5, p5⟩, h6, h7⟩ := bind_inv _ _ _ h5
    have hl5 : l5.length = l4.length :=
      forN_post m _ (fun st => st.1.length = l4.length) (fun k st st' h1 h2 => by rw [(pair_inv _ _ _ _ h1).1]; exact h2) _ _ h6 rfl
    have hlast := (pair_inv _ _ _ _ h7).2
    simp only [hl5, hl4, e2, e1, hll, Nat.add_mul, Nat.one_mul] at hlast
    split at hm <;> rename_i h0
    · rw [if_pos h0] at hlast; omega
    · rw [if_neg h0] at hlast; omega
  · obtain ⟨rfl, rfl⟩ := hz
    rw [e1, hll] at hlt
    omega

theorem markersOk_append (l : List (List Nat × Nat)) (x : List Nat × Nat) (hl : ∀ s ∈ l, s.2 = 0xd0) (hx : x.2 = 0xd9) : MarkersOk (l ++ [x]) := by
  induction l with
  | nil => exact hx
  | cons y l ih =>
    have h1 := ih fun s hs => hl s (List.mem_cons_of_mem _ hs)
    have h2 := hl y List.mem_cons_self
    cases l with
    | nil => exact ⟨by omega, by omega, by omega, h1⟩
    | cons z l => exact ⟨by omega, by omega, by omega, h1⟩

/-- Every image of 16 bit samples has a Leaf file, whatever follows. -/
theorem C64_every_leaf (w h : Nat) (f : Nat → Nat → Nat) (hf : ∀ r c, r < h → c < w → f r c < 65536) (hh : 1 ≤ h) (tail : List Nat)
    (ht : IsBytes tail) :
    ∃ data, IsBytes data ∧ StoredLeaf ⟨1, 1, 16, [⟨0, 1, 1, 0⟩, ⟨1, 1, 1, 0⟩]⟩ [.tables [(0, allTab)]] [] [0, 1] 0 data (fun _ => allTab) w h f := by
  let F : Frame := ⟨1, 1, 16, [⟨0, 1, 1, 0⟩, ⟨1, 1, 1, 0⟩]⟩
  let sc (i : Nat) : List Bool :=
    Jpeg.scan (fun _ => allTab) true 2 (w / 2) (min 8 (h - 8 * i)) 1 (leafBase F 0) (fun r c k => f (8 * i + r) (2 * c + k))
  obtain ⟨n, hn⟩ : ∃ n, (h + 7) / 8 = n + 1 := ⟨(h + 7) / 8 - 1, by omega⟩
  let strips := ((List.range n).map fun i => (toBytes (sc i), 0xd0)) ++ [(toBytes (sc n), 0xd9)]
  have hget (i : Nat) (s : List Nat × Nat) (hs : strips[i]? = some s) : s.1 = toBytes (sc i) ∧ s.2 < 256 := by
    by_cases hi : i < n
    · rw [List.getElem?_append_left (by simpa using hi), List.getElem?_map, List.getElem?_range hi] at hs
      cases hs; exact ⟨rfl, by simp⟩
    · rw [List.getElem?_append_right (by simpa using hi)] at hs
      simp only [List.length_map, List.length_range] at hs
      have hi' : i - n = 0 := by
        by_contra hne
        rw [List.getElem?_eq_none (by simp; omega)] at hs
        cases hs
      rw [hi'] at hs
      cases hs
      rw [show i = n by omega]
      exact ⟨rfl, by simp⟩
  have hmem (s : List Nat × Nat) (hs : s ∈ strips) : IsBytes s.1 ∧ s.2 < 256 := by
    obtain ⟨i, hi⟩ := List.mem_iff_getElem?.1 hs
    obtain ⟨h1, h2⟩ := hget i s hi
    obtain ⟨_, _, hb, _⟩ := toBytes_spec _ (sc i) (Nat.le_refl _)
    rw [h1]; exact ⟨hb, h2⟩
  refine ⟨joinStrips strips tail, joinStrips_bytes _ _ (fun s hs => (hmem s hs).1) (fun s hs => (hmem s hs).2) ht, ?_⟩
  exact
   {frame := (by decide), two := (by decide), before := (by decide +kernel), after := (by simp), selects := (by decide), transform := (by decide),
    tables := all_tables _ (by simp), samples := hf, coded := fun i r c k _ _ _ _ => all_cats (diff16_range _),
    bits := ⟨strips, tail, rfl, markersOk_append _ _ (by
        intro s hs
        obtain ⟨i, _, rfl⟩ := List.mem_map.1 hs
        rfl) rfl, fun s hs => (hmem s hs).1, fun s hs => (hmem s hs).2, ht, by simp [strips, hn], by
      intro i s hs
      obtain ⟨pad, e, _, _⟩ := toBytes_spec _ (sc i) (Nat.le_refl _)
      rw [(hget i s hs).1, e]
      exact ⟨pad, rfl⟩⟩ }

/-- A Leaf file of twelve rows, interlaced, comes out in order. -/
example : ∃ src out, decodeMos src true 4 12 = .ok out ∧ Holds out 4 12 fun r c => 5000 * r + 17 * c := by
  obtain ⟨data, _, hS⟩ := C64_every_leaf 4 12 (fun r c => 5000 * interlace 12 r + 17 * c)
    (by intro r c hr hc; have : interlace 12 r < 12 := by unfold interlace; split <;> omega
        omega) (by omega) [1, 2, 3] (by decide)
  obtain ⟨out, h⟩ := C64_leaf_interlaced _ _ _ _ 1 _ _ _ 4 12 (fun r c => 5000 * r + 17 * c) hS (by omega) (by omega) (by omega)
  exact ⟨_, out, h⟩

/-- A Hasselblad file with bytes written out: one row, four samples, tables for no digits and for three. -/
example : StoredHassel ⟨4, 1, 16, [⟨0, 1, 1, 0⟩]⟩ [.tables [(0, ⟨[1, 1] ++ List.replicate 14 0, [0, 3]⟩)]] [] [0] 0
    ([0, 0, 0, 0b10010000] ++ [0, 0, 0, 0] ++ [7]) (fun _ => ⟨[1, 1] ++ List.replicate 14 0, [0, 3]⟩) 4 1
    (fun _ c => [32772, 32768, 32772, 32768].getD c 0) where
  frame := by decide
  first := by decide
  before := by decide +kernel
  after := by simp
  selects := by decide
  transform := by omega
  tables := by
    intro k c hk
    match k with
    | 0 => simp at hk; subst hk; decide +kernel
    | k + 1 => simp at hk
  samples := by
    intro r c _ hc
    have : ∀ c, c < 4 → [32772, 32768, 32772, 32768].getD c 0 < 65536 := by decide
    exact this c hc
  coded := by
    intro r c hr hc
    have hr : r = 0 := by omega
    subst hr
    have : ∀ c, c < 4 → catOf (hDiff (fun _ c => [32772, 32768, 32772, 32768].getD c 0) 0 c) ∈ [0, 3] := by decide
    exact this c hc
  bits := ⟨[0, 0, 0, 0b10010000] ++ [0, 0, 0, 0], [7], List.replicate 56 false, rfl, by decide, by decide, by decide +kernel, by decide⟩

end Verif.Props
