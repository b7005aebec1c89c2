import Verif.Proofs.JpegScan
import Verif.Spec.Image
/-!
# C59: lossless JPEG data of any writer decode to the stored samples

The specification (`Verif.Spec.Jpeg`) is the file format of ITU-T T.81: marker segments in any order, any tables, the scan with
the predictors of Annex H. Nothing in it refers to the encoder of this project (that one is C01).
-/

namespace Verif.Props
open Verif Verif.Ljpeg Verif.Spec Verif.Spec.Jpeg

/-- A file and a picture belong together: the headers are as they should be, every component has a table, and the bits of the scan
are those of the first `h` rows of the picture `px`, all columns, then anything. -/
structure StoredAs (F : Frame) (pre post : List Segment) (sel : List Nat) (fix bug : Bool) (pred pt : Nat) (data : List Nat)
    (T : Nat → Table) (h : Nat) (px : Nat → Nat → Nat → Nat) : Prop where
  frame : F.Ok
  /-- no subsampling -/
  first : ∀ c, F.comps[0]? = some c → c.h = 1 ∧ c.v = 1
  before : ∀ g ∈ pre, g.Ok
  after : ∀ g ∈ post, g.Ok
  selects : Selects F sel fix
  predictor : 1 ≤ pred ∧ pred ≤ 7
  transform : pt < F.prec ∧ pt < 16
  tables : ∀ k c, F.comps[k]? = some c → tableFor (pre ++ post) c.tbl = some (T k)
  samples : ∀ r c k, r < h → c < F.width → k < F.comps.length → px r c k < 65536
  coded : ∀ r c k, r < h → c < F.width → k < F.comps.length →
    catOf (delta pred (2 ^ (F.prec - pt - 1) : Nat) px r c k) ∈ (T k).vals
  bytes : IsBytes data
  ending : ProperEnd data
  bits : ∃ rest, bitsOf data = scan T bug F.comps.length F.width h pred (2 ^ (F.prec - pt - 1) : Nat) px ++ rest

/-- **C59.** Decoding into a window of a larger buffer (a tile or a strip): the samples of the first `w` columns and `h` rows
arrive at their places, and nothing else of the buffer changes. -/
theorem C59_window (F : Frame) (pre post : List Segment) (sel : List Nat) (fix bug : Bool) (pred pt : Nat) (data : List Nat)
    (T : Nat → Table) (px : Nat → Nat → Nat → Nat) (w h x sw : Nat) (out0 : List Nat)
    (hS : StoredAs F pre post sel fix bug pred pt data T h px)
    (hw : 1 ≤ w ∧ w ≤ F.width) (hh : 1 ≤ h ∧ h ≤ F.height) (hx : x + w * F.comps.length ≤ sw)
    (hroom : (h - 1) * sw + x + w * F.comps.length ≤ out0.length) :
    ∃ d out, Dec.newFull (file F pre post sel pred pt data) bug fix = .ok d ∧
      d.decode out0 x sw (w * F.comps.length) h = .ok out ∧
      out.length = out0.length ∧
      (∀ r c k, r < h → c < w → k < F.comps.length → out[r * sw + x + (c * F.comps.length + k)]? = some (px r c k)) ∧
      ∀ m, (∀ r i, r < h → i < w * F.comps.length → r * sw + x + i ≠ m) → out[m]? = out0[m]? := by
  obtain ⟨rest, hbits⟩ := hS.bits
  obtain ⟨d, e, hd⟩ := newFull_ok F hS.frame pre post hS.before hS.after sel fix bug hS.selects pred pt hS.transform.2 data T
    (fun k c => hS.tables k c)
  let v : Win := ⟨F.comps.length, w, h, x, sw⟩
  have hc : SCtx F T bug pred pt data d v px out0 :=
    { frame := hS.frame, dec := hd, n := rfl, p1 := hS.predictor.1, p7 := hS.predictor.2, pt_lt := hS.transform.1,
      w1 := hw.1, w2 := hw.2, h1 := hh.1, h2 := hh.2, sw := hx, room := hroom,
      u16 := fun r c k hr hc hk => hS.samples r c k hr (Nat.lt_of_lt_of_le hc hw.2) hk, cat := hS.coded }
  obtain ⟨out, e2, hout⟩ := hc.scan hS.bytes hS.ending rest hbits
  refine ⟨d, out, e, ?_, hout.len, ?_, ?_⟩
  · obtain ⟨c0, cs, hcomps⟩ : ∃ c0 cs, F.comps = c0 :: cs := by
      have := hS.frame.n.1
      cases h0 : F.comps with
      | nil => rw [h0] at this; simp at this
      | cons c0 cs => exact ⟨c0, cs, rfl⟩
    obtain ⟨h1, h2⟩ := hS.first c0 (by rw [hcomps]; rfl)
    have h3 := hd.comps
    rw [hcomps, List.map_cons] at h3
    rw [Dec.decode, h3]
    simp only [fullComp, h1, h2]
    rw [if_neg (by omega), if_neg (by omega), if_pos ⟨trivial, trivial⟩, Dec.decodePlain,
      if_pos (by rw [hd.pred]; exact hS.predictor)]
    exact e2
  · intro r c k hr hc' hk
    have hi := hc.col hc' hk
    have hlt : r * v.W + (c * v.n + k) < h * v.W := by
      have : (r + 1) * v.W ≤ h * v.W := Nat.mul_le_mul_right _ hr
      rw [Nat.add_mul, Nat.one_mul] at this
      omega
    have := hout.done _ hlt
    rw [v.pos_raster hi, v.X_raster px hc' hk] at this
    exact this
  · intro m hm
    refine hout.rest m ?_
    intro i hi
    have hW : 0 < v.W := Nat.mul_pos hw.1 hS.frame.n.1
    exact hm (i / v.W) (i % v.W) (Nat.div_lt_of_lt_mul (by rw [Nat.mul_comm]; exact hi)) (Nat.mod_lt _ hW)

/-- **C59.** Decoding a whole file gives the picture, row after row, the components of each pixel one after the other. -/
theorem C59_whole (F : Frame) (pre post : List Segment) (sel : List Nat) (pred pt : Nat) (data : List Nat)
    (T : Nat → Table) (px : Nat → Nat → Nat → Nat) (hS : StoredAs F pre post sel false false pred pt data T F.height px) :
    ∃ out, decodeAll (file F pre post sel pred pt data) = .ok out ∧
      Holds out (F.width * F.comps.length) F.height fun r i => px r (i / F.comps.length) (i % F.comps.length) := by
  have hn := hS.frame.n.1
  obtain ⟨hw1, _⟩ := hS.frame.w
  obtain ⟨hh1, _⟩ := hS.frame.h
  have hlast : (F.height - 1) * (F.width * F.comps.length) + F.width * F.comps.length = F.height * (F.width * F.comps.length) := by
    rw [← Nat.add_one_mul]; congr 1; omega
  obtain ⟨d, out, e1, e2, e3, e4, _⟩ := C59_window F pre post sel false false pred pt data T px F.width F.height 0
    (F.width * F.comps.length) (List.replicate (F.width * F.comps.length * F.height) 0) hS ⟨hw1, Nat.le_refl _⟩ ⟨hh1, Nat.le_refl _⟩
    (by omega) (by rw [List.length_replicate, Nat.mul_comm _ F.height]; omega)
  obtain ⟨d', e1', hd⟩ := newFull_ok F hS.frame pre post hS.before hS.after sel false false hS.selects pred pt hS.transform.2 data T
    (fun k c => hS.tables k c)
  rw [e1] at e1'
  have hdd := Except.ok.inj e1'
  rw [← hdd] at hd
  refine ⟨out, ?_, ?_, ?_⟩
  · rw [decodeAll, e1]
    simp only [bind, Except.bind, Dec.width, hd.width, hd.cps, hd.height]
    exact e2
  · rw [e3, List.length_replicate, Nat.mul_comm]
  · intro r i hr hi
    have h1 : i / F.comps.length < F.width := Nat.div_lt_of_lt_mul (by rw [Nat.mul_comm]; exact hi)
    have := e4 r (i / F.comps.length) (i % F.comps.length) hr h1 (Nat.mod_lt _ hn)
    rw [Nat.add_zero, show i / F.comps.length * F.comps.length + i % F.comps.length = i from Nat.div_add_mod' _ _] at this
    exact this

/-! ### a file: two components with different tables, a comment, a table that is replaced later, predictor 6 -/

/-- The first table. -/
def exTabA : Table := ⟨[0, 2, 2, 2] ++ List.replicate 12 0, [1, 0, 2, 9, 11, 3]⟩
/-- The second table. -/
def exTabB : Table := ⟨[1, 1, 1, 1, 1, 1] ++ List.replicate 10 0, [3, 12, 1, 2, 0, 11]⟩
/-- The frame. -/
def exFrame : Frame := ⟨3, 2, 12, [⟨0, 1, 1, 2⟩, ⟨1, 1, 1, 0⟩]⟩
/-- The picture. -/
def exJpx (r c k : Nat) : Nat :=
  (([[[2049, 4095], [2047, 4094], [2050, 4090]], [[2050, 1000], [2049, 996], [1600, 996]]].getD r []).getD c []).getD k 0
/-- The segments before the frame header. -/
def exPre : List Segment := [.other 0xfe [0, 5, 1, 0xff, 0, 3, 0xff, 0xff], .tables [(2, exTabB), (0, exTabB)]]
/-- The segments after it. -/
def exPost : List Segment := [.tables [(2, exTabA)], .other 0xe1 [0, 2]]
/-- The scan. -/
def exScan : List Nat := [63, 127, 248, 228, 204, 199, 209, 47, 143, 141, 30, 124, 125, 191, 0xff, 0xd9]

theorem exStored : StoredAs exFrame exPre exPost [0, 1] false false 6 0 exScan (fun k => if k = 0 then exTabA else exTabB) 2 exJpx where
  frame := by decide
  first := by decide
  before := by decide +kernel
  after := by decide +kernel
  selects := by decide
  predictor := by decide
  transform := by decide
  tables := by
    intro k c hk
    match k with
    | 0 => simp [exFrame] at hk; subst hk; decide +kernel
    | 1 => simp [exFrame] at hk; subst hk; decide +kernel
    | k + 2 => simp [exFrame] at hk
  samples := by
    intro r c k hr hc hk
    have : ∀ r, r < 2 → ∀ c, c < 3 → ∀ k, k < 2 → exJpx r c k < 65536 := by decide
    exact this r hr c hc k hk
  coded := by
    intro r c k hr hc hk
    have : ∀ r, r < 2 → ∀ c, c < 3 → ∀ k, k < 2 → catOf (delta 6 (2 ^ 11 : Nat) exJpx r c k) ∈ (if k = 0 then exTabA else exTabB).vals := by
      decide +kernel
    exact this r hr c hc k hk
  bytes := by unfold IsBytes; decide
  ending := by simp [exScan, ProperEnd]
  bits := ⟨_, (List.take_append_drop 106 _).symm.trans (congrArg (· ++ (bitsOf exScan).drop 106) (by decide +kernel))⟩

/-- The theorems apply to it: the whole picture, and the left two columns as a tile of a wider buffer. -/
example : ∃ out, decodeAll (file exFrame exPre exPost [0, 1] 6 0 exScan) = .ok out ∧
    Holds out 6 2 fun r i => exJpx r (i / 2) (i % 2) :=
  C59_whole _ _ _ _ _ _ _ _ _ exStored

example : ∃ d out, Dec.newFull (file exFrame exPre exPost [0, 1] 6 0 exScan) false false = .ok d ∧
    d.decode (List.replicate 20 7) 3 10 4 2 = .ok out ∧ out.length = 20 ∧
    (∀ r c k, r < 2 → c < 2 → k < 2 → out[r * 10 + 3 + (c * 2 + k)]? = some (exJpx r c k)) ∧
    ∀ m, (∀ r i, r < 2 → i < 4 → r * 10 + 3 + i ≠ m) → out[m]? = (List.replicate 20 7)[m]? :=
  C59_window _ _ _ _ _ _ _ _ _ _ _ 2 2 3 10 _ exStored (by decide) (by decide) (by decide) (by decide)

/-- The decoder does not use the lengths of the segments it passes over: a comment (or any other segment without meaning) that
contains the bytes of an end-of-image marker makes the file unreadable, although the format allows every byte there. -/
theorem C59_comment_ends_the_file (m : Nat) (hm : m ∉ [0, 0xff, 0xc3, 0xc4, 0xd9, 0xda, 0xdb]) (a b : List Nat) (ha : quiet a = true)
    (bug fix : Bool) :
    Dec.newFull ([0xff, 0xd8] ++ ([0xff, m] ++ (a ++ [0xff, 0xd9] ++ b))) bug fix = .error .fail := by
  simp only [List.mem_cons, List.not_mem_nil, or_false, not_or] at hm
  have h1 := skip_junk a ha 0xd9 (by omega) (by omega) b
  have h2 := nextMarker_ok m hm.1 hm.2.1 (a ++ 0xff :: 0xd9 :: b)
  obtain ⟨f, hf⟩ : ∃ f, (0xff :: m :: (a ++ 0xff :: 0xd9 :: b)).length + 1 = f + 1 + 1 := ⟨_, by simp; rfl⟩
  simp only [List.cons_append, List.nil_append, List.append_assoc]
  rw [Dec.newFull]
  have hfm : firstMarker (0xff :: 0xd8 :: 0xff :: m :: (a ++ 0xff :: 0xd9 :: b)) = .ok (0xd8, 0xff :: m :: (a ++ 0xff :: 0xd9 :: b)) := by
    simp [firstMarker, getU8, bind, Except.bind]
  simp only [hfm, bind, Except.bind]
  rw [if_neg (by omega), hf, markerLoop, h2]
  simp only [bind, Except.bind]
  rw [if_neg hm.2.2.1, if_neg hm.2.2.2.1, if_neg hm.2.2.2.2.2.1, if_neg hm.2.2.2.2.1, if_neg hm.2.2.2.2.2.2, markerLoop, h1]
  simp [bind, Except.bind, fail']

end Verif.Props
