import Verif.Proofs.JpegSub
/-!
# C60: lossless JPEG data with fewer colour samples (Canon sRAW, Sony) decode to the stored samples

The specification is in `Verif.Spec.JpegSub`.
-/

namespace Verif.Props
open Verif Verif.Ljpeg Verif.Spec Verif.Spec.Jpeg

/-- A file and a picture of `bh` rows of `bw` blocks belong together: the headers are as they should be, and the bits of the scan are
those of the picture, then anything. -/
structure StoredSub (s : Sub) (F : Frame) (pre post : List Segment) (sel : List Nat) (fix bug : Bool) (pred pt : Nat) (data : List Nat)
    (T : Nat → Table) (bw bh : Nat) (p : SubPic) : Prop where
  frame : F.Ok
  three : F.comps.length = 3
  first : ∀ c, F.comps[0]? = some c → c.h = 2 ∧ c.v = s.rows
  width : F.width = 2 * bw
  height : F.height = s.rows * bh
  before : ∀ g ∈ pre, g.Ok
  after : ∀ g ∈ post, g.Ok
  selects : Selects F sel fix
  transform : pt < F.prec ∧ pt < 16
  tables : ∀ k c, F.comps[k]? = some c → tableFor (pre ++ post) c.tbl = some (T k)
  /-- every sample has 16 bits, and the table of its component has a word for its difference, which has 16 bits, too -/
  coded : ∀ R C, R < bh → C < bw → ∀ t ∈ s.samples (2 ^ (F.prec - pt - 1)) p R C,
    t.2.1 < 65536 ∧ -32768 ≤ (t.2.1 : Int) - t.2.2 ∧ (t.2.1 : Int) - t.2.2 ≤ 32767 ∧ catOf ((t.2.1 : Int) - t.2.2) ∈ (T t.1).vals
  bytes : IsBytes data
  ending : ProperEnd data
  bits : ∃ rest, bitsOf data = s.scan T bug bw bh (2 ^ (F.prec - pt - 1)) p ++ rest

/-- The picture as three samples per pixel. -/
def HoldsSub (s : Sub) (p : SubPic) (w h : Nat) (out : List Nat) : Prop :=
  out.length = h * (w * 3) ∧ ∀ r c k, r < h → c < w → k < 3 → out[r * (w * 3) + (c * 3 + k)]? = some (s.pixel p r c k)

theorem holdsSub_of_blocks {s : Sub} {p : SubPic} {w h bh : Nat} {out : List Nat} (hh : h = s.rows * bh)
    (hb : Blocks s p w h bh 0 out) : HoldsSub s p w h out := by
  refine ⟨by rw [hb.len]; ring, ?_⟩
  intro r c k hr hc hk
  have hlt : r / s.rows < bh := Nat.div_lt_of_lt_mul (by rw [← hh]; exact hr)
  obtain ⟨h1, h2, h3⟩ := hb.done r c hr hc (Or.inl hlt)
  have hi : r * (w * 3) + (c * 3 + k) = 3 * (r * w + c) + k := by ring
  rw [hi]
  match k with
  | 0 => exact h1
  | 1 => exact h2
  | 2 => exact h3

theorem subCtx_of_stored {s : Sub} {F : Frame} {pre post : List Segment} {sel : List Nat} {fix bug : Bool} {pred pt : Nat}
    {data : List Nat} {T : Nat → Table} {bw bh : Nat} {p : SubPic}
    (hS : StoredSub s F pre post sel fix bug pred pt data T bw bh p) :
    ∃ d, Dec.newFull (file F pre post sel pred pt data) bug fix = .ok d ∧ SubCtx s F T bug pred pt data d bw bh p ∧
      d.width = F.width * 3 ∧ d.sof.height = F.height ∧
      ∃ c cs, d.sof.components = c :: cs ∧ c.superH = 2 ∧ c.superV = s.rows := by
  obtain ⟨d, e, hd⟩ := newFull_ok F hS.frame pre post hS.before hS.after sel fix bug hS.selects pred pt hS.transform.2 data T
    (fun k c => hS.tables k c)
  refine ⟨d, e, ⟨hS.frame, hd, hS.three, hS.transform.1, hS.width, hS.height, hS.coded⟩,
    by rw [Dec.width, hd.width, hd.cps, hS.three], hd.height, ?_⟩
  have h3 := hS.three
  cases hc : F.comps with
  | nil => rw [hc] at h3; simp at h3
  | cons c cs =>
    obtain ⟨h1, h2⟩ := hS.first c (by rw [hc]; rfl)
    exact ⟨fullComp c, cs.map fullComp, by rw [hd.comps, hc]; rfl, h1, h2⟩

/-- **C60.** The Canon arrangements: the decoder returns the stored brightness samples, and the colours of each block at each of
its pixels. -/
theorem C60_canon (s : Sub) (hs : s ≠ .sonyFour) (F : Frame) (pre post : List Segment) (sel : List Nat) (fix bug : Bool) (pred pt : Nat)
    (data : List Nat) (T : Nat → Table) (bw bh : Nat) (p : SubPic) (hS : StoredSub s F pre post sel fix bug pred pt data T bw bh p)
    (out0 : List Nat) (hl : out0.length = F.height * (F.width * 3)) :
    ∃ d out, Dec.newFull (file F pre post sel pred pt data) bug fix = .ok d ∧
      d.decode out0 0 d.width d.width d.sof.height = .ok out ∧ HoldsSub s p F.width F.height out := by
  obtain ⟨d, e, hc, hw, hh, c, cs, e1, e2, e3⟩ := subCtx_of_stored hS
  obtain ⟨rest, hbits⟩ := hS.bits
  have hl' : out0.length = 3 * (F.width * F.height) := by rw [hl]; ring
  cases s with
  | sonyFour => exact absurd rfl hs
  | two =>
    obtain ⟨out, f, g⟩ := hc.decode422 hS.bytes hS.ending rest hbits out0 hl'
    refine ⟨d, out, e, ?_, holdsSub_of_blocks hS.height g⟩
    rw [hw, hh, Nat.mul_comm F.width 3, Dec.decode, e1]
    simp only [e2, e3, Sub.rows]
    rw [if_neg (by omega), if_pos (by trivial)]
    exact f
  | canonFour =>
    obtain ⟨out, f, g⟩ := hc.decode420 hS.bytes hS.ending rest hbits out0 hl'
    refine ⟨d, out, e, ?_, holdsSub_of_blocks hS.height g⟩
    rw [hw, hh, Nat.mul_comm F.width 3, Dec.decode, e1]
    simp only [e2, e3, Sub.rows]
    rw [if_pos (by trivial)]
    exact f

/-- **C60.** The Sony arrangements. -/
theorem C60_sony (s : Sub) (hs : s ≠ .canonFour) (F : Frame) (pre post : List Segment) (sel : List Nat) (fix bug : Bool) (pred pt : Nat)
    (data : List Nat) (T : Nat → Table) (bw bh : Nat) (p : SubPic) (hS : StoredSub s F pre post sel fix bug pred pt data T bw bh p)
    (out0 : List Nat) (hl : out0.length = F.height * (F.width * 3)) :
    ∃ d out, Dec.newFull (file F pre post sel pred pt data) bug fix = .ok d ∧
      d.decodeSony out0 0 d.width d.width d.sof.height = .ok out ∧ HoldsSub s p F.width F.height out := by
  obtain ⟨d, e, hc, hw, hh, c, cs, e1, e2, e3⟩ := subCtx_of_stored hS
  obtain ⟨rest, hbits⟩ := hS.bits
  have hl' : out0.length = 3 * (F.width * F.height) := by rw [hl]; ring
  cases s with
  | canonFour => exact absurd rfl hs
  | two =>
    obtain ⟨out, f, g⟩ := hc.decode422 hS.bytes hS.ending rest hbits out0 hl'
    refine ⟨d, out, e, ?_, holdsSub_of_blocks hS.height g⟩
    rw [hw, hh, Nat.mul_comm F.width 3, Dec.decodeSony, e1]
    simp only [e2, e3, Sub.rows]
    rw [if_neg (by omega), if_pos (by trivial)]
    exact f
  | sonyFour =>
    obtain ⟨out, f, g⟩ := hc.decodeSony420 hS.bytes hS.ending rest hbits out0 hl'
    refine ⟨d, out, e, ?_, holdsSub_of_blocks hS.height g⟩
    rw [hw, hh, Nat.mul_comm F.width 3, Dec.decodeSony, e1]
    simp only [e2, e3, Sub.rows]
    rw [if_pos (by trivial)]
    exact f

/-! ### a picture of four by four pixels in each of the three arrangements -/

/-- The table. -/
def exSubTab : Table := ⟨[0, 1, 2, 3, 4] ++ List.replicate 11 0, [4, 3, 5, 2, 6, 1, 0, 7, 8, 9]⟩
/-- The frame; `v` is the vertical sampling factor of the first component. -/
def exSubFrame (v : Nat) : Frame := ⟨4, 4, 12, [⟨1, 2, v, 0⟩, ⟨2, 1, 1, 0⟩, ⟨3, 1, 1, 0⟩]⟩
/-- The segments. -/
def exSubPre : List Segment := [.tables [(0, exSubTab)]]
/-- The picture. -/
def exSubPic : SubPic :=
  ⟨fun r c => 2040 + 13 * r + 5 * c * c + r * c, fun r c => 2048 + 3 * r + 2 * c, fun r c => 2040 + 20 * r - 3 * c⟩

theorem exSub_tables (v : Nat) : ∀ (k : Nat) (c : Comp), (exSubFrame v).comps[k]? = some c → tableFor (exSubPre ++ []) c.tbl = some exSubTab := by
  intro k c hk
  match k with
  | 0 => simp [exSubFrame] at hk; subst hk; rfl
  | 1 => simp [exSubFrame] at hk; subst hk; rfl
  | 2 => simp [exSubFrame] at hk; subst hk; rfl
  | k + 3 => simp [exSubFrame] at hk

/-- The three scans. -/
def exSubTwo : List Nat := [29, 91, 14, 123, 204, 80, 26, 180, 110, 142, 15, 81, 64, 106, 241, 186, 56, 189, 197, 1, 164, 70, 232, 228, 249, 20, 31, 0xff, 0xd9]
/-- The same. -/
def exSubCanon : List Nat := [29, 82, 22, 176, 245, 121, 21, 234, 40, 30, 151, 88, 136, 221, 35, 123, 13, 242, 40, 63, 0xff, 0xd9]
/-- The same. -/
def exSubSony : List Nat := [29, 83, 86, 176, 231, 188, 184, 61, 69, 3, 210, 230, 145, 27, 163, 139, 219, 147, 228, 80, 127, 0xff, 0xd9]

theorem exSub_two : StoredSub .two (exSubFrame 1) exSubPre [] [1, 2, 3] false false 1 0
    exSubTwo (fun _ => exSubTab) 2 4 exSubPic where
  frame := by decide
  three := rfl
  first := by decide
  width := rfl
  height := rfl
  before := by decide +kernel
  after := by decide
  selects := by decide
  transform := by decide
  tables := exSub_tables _
  coded := by
    have : ∀ R, R < 4 → ∀ C, C < 2 → ∀ t ∈ Sub.two.samples (2 ^ 11) exSubPic R C,
        t.2.1 < 65536 ∧ -32768 ≤ (t.2.1 : Int) - t.2.2 ∧ (t.2.1 : Int) - t.2.2 ≤ 32767 ∧
          catOf ((t.2.1 : Int) - t.2.2) ∈ exSubTab.vals := by decide +kernel
    exact fun R C hR hC => this R hR C hC
  bytes := by unfold IsBytes; decide
  ending := by simp [exSubTwo, ProperEnd]
  bits := ⟨_, (List.take_append_drop 211 _).symm.trans (congrArg (· ++ (bitsOf exSubTwo).drop 211) (by decide +kernel))⟩

theorem exSub_canon : StoredSub .canonFour (exSubFrame 2) exSubPre [] [1, 2, 3] false false 1 0
    exSubCanon (fun _ => exSubTab) 2 2 exSubPic where
  frame := by decide
  three := rfl
  first := by decide
  width := rfl
  height := rfl
  before := by decide +kernel
  after := by decide
  selects := by decide
  transform := by decide
  tables := exSub_tables _
  coded := by
    have : ∀ R, R < 2 → ∀ C, C < 2 → ∀ t ∈ Sub.canonFour.samples (2 ^ 11) exSubPic R C,
        t.2.1 < 65536 ∧ -32768 ≤ (t.2.1 : Int) - t.2.2 ∧ (t.2.1 : Int) - t.2.2 ≤ 32767 ∧
          catOf ((t.2.1 : Int) - t.2.2) ∈ exSubTab.vals := by decide +kernel
    exact fun R C hR hC => this R hR C hC
  bytes := by unfold IsBytes; decide
  ending := by simp [exSubCanon, ProperEnd]
  bits := ⟨_, (List.take_append_drop 154 _).symm.trans (congrArg (· ++ (bitsOf exSubCanon).drop 154) (by decide +kernel))⟩

theorem exSub_sony : StoredSub .sonyFour (exSubFrame 2) exSubPre [] [1, 2, 3] false false 1 0
    exSubSony (fun _ => exSubTab) 2 2 exSubPic where
  frame := by decide
  three := rfl
  first := by decide
  width := rfl
  height := rfl
  before := by decide +kernel
  after := by decide
  selects := by decide
  transform := by decide
  tables := exSub_tables _
  coded := by
    have : ∀ R, R < 2 → ∀ C, C < 2 → ∀ t ∈ Sub.sonyFour.samples (2 ^ 11) exSubPic R C,
        t.2.1 < 65536 ∧ -32768 ≤ (t.2.1 : Int) - t.2.2 ∧ (t.2.1 : Int) - t.2.2 ≤ 32767 ∧
          catOf ((t.2.1 : Int) - t.2.2) ∈ exSubTab.vals := by decide +kernel
    exact fun R C hR hC => this R hR C hC
  bytes := by unfold IsBytes; decide
  ending := by simp [exSubSony, ProperEnd]
  bits := ⟨_, (List.take_append_drop 161 _).symm.trans (congrArg (· ++ (bitsOf exSubSony).drop 161) (by decide +kernel))⟩

example : ∃ d out, Dec.newFull (file (exSubFrame 1) exSubPre [] [1, 2, 3] 1 0 exSubTwo) false false = .ok d ∧
    d.decode (List.replicate 48 0) 0 d.width d.width d.sof.height = .ok out ∧
    HoldsSub .two exSubPic 4 4 out := C60_canon _ (by decide) _ _ _ _ _ _ _ _ _ _ _ _ _ exSub_two _ (by decide)

example : ∃ d out, Dec.newFull (file (exSubFrame 2) exSubPre [] [1, 2, 3] 1 0 exSubCanon) false false = .ok d ∧
    d.decode (List.replicate 48 0) 0 d.width d.width d.sof.height = .ok out ∧
    HoldsSub .canonFour exSubPic 4 4 out := C60_canon _ (by decide) _ _ _ _ _ _ _ _ _ _ _ _ _ exSub_canon _ (by decide)

example : ∃ d out, Dec.newFull (file (exSubFrame 2) exSubPre [] [1, 2, 3] 1 0 exSubSony) false false = .ok d ∧
    d.decodeSony (List.replicate 48 0) 0 d.width d.width d.sof.height = .ok out ∧
    HoldsSub .sonyFour exSubPic 4 4 out := C60_sony _ (by decide) _ _ _ _ _ _ _ _ _ _ _ _ _ exSub_sony _ (by decide)

end Verif.Props
