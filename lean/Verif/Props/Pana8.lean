import Verif.Proofs.Pana8Image
/-! # C78: Panasonic raw format 8 -/

namespace Verif.Props
open Verif Verif.Pana8 Verif.Spec Verif.Spec.Pef Verif.Spec.Pana8

/-- A file with the strips of a picture: each strip is in its place in the file, its data begin with the encoding of its part of the picture, and are
followed by fifteen bits or more, counting whole groups of four bytes only. -/
def C78_Stored (P : Params) (ss : List Strip) (px : Nat → Nat → Nat) (file : List Nat) : Prop :=
  ∀ s ∈ ss, s.offset + (s.size + 7) / 8 ≤ file.length ∧
    (∃ pad, bytesLSB ((file.drop s.offset).take ((s.size + 7) / 8)) = encode P.table P.init px s ++ pad) ∧
    (encode P.table P.init px s).length + 15 ≤ 32 * ((s.size + 7) / 8 / 4)

/-- Strips inside the picture that leave nothing out, and differences for which there is a word. -/
def C78_Cut (P : Params) (ss : List Strip) (px : Nat → Nat → Nat) (w h : Nat) : Prop :=
  (∀ s ∈ ss, s.Fits w h) ∧ (∀ r c, r < h → c < w → ∃ s ∈ ss, s.Covers r c) ∧ (∀ r c, r < h → c < w → px r c ≤ P.clip) ∧
  ∀ s ∈ ss, ∀ i n, i < s.height / 2 → n < 2 * s.width → catOf (diff P.init px s.row s.col i n) < P.table.length

/-- Settings the decoder has a meaning for. -/
def C78_Settings (P : Params) (ss : List Strip) (w : Nat) : Prop :=
  Usable P.table ∧ NoShift P ∧ P.init.length = 4 ∧ Describes P ss ∧ P.widths.sum / P.stripsV = w

/-- Every picture comes back from its strips, without a tone curve. (Missing from the full claim: data without bits behind the last word, see
`C78_no_padding_panics`, and strips with an odd number of rows, see `C78_odd_rows_lost`.) -/
theorem C78_picture_partial (P : Params) (ss : List Strip) (px : Nat → Nat → Nat) (w h : Nat) (file : List Nat) (hs : C78_Settings P ss w)
    (hc : C78_Cut P ss px w h) (hf : C78_Stored P ss px file) (h1 : P.gammaPoint = List.replicate 6 65536) (h2 : P.gammaSlope = List.replicate 6 0) :
    ∃ out, decode P file w h = .ok out ∧ Holds out w h px :=
  decode_ok P ss px px w h file hs.1 hs.2.1 none (gammaTable_linear P h1 h2) hs.2.2.1 hs.2.2.2.1 hs.2.2.2.2 hc.1 hc.2.1 hc.2.2.1
    (fun _ _ _ _ => rfl) hc.2.2.2 hf

/-- With a tone curve every sample is the value of the curve. -/
theorem C78_toned_picture_partial (P : Params) (ss : List Strip) (px : Nat → Nat → Nat) (w h : Nat) (file : List Nat) (hs : C78_Settings P ss w)
    (hc : C78_Cut P ss px w h) (hf : C78_Stored P ss px file) (h1 : ¬ (P.gammaPoint = List.replicate 6 65536 ∧ P.gammaSlope = List.replicate 6 0))
    (h16 : P.clip < 65536) (cv : Nat → Nat) (hcv : ∀ v, v < 65536 → calcGamma P v = .ok (cv v)) :
    ∃ out, decode P file w h = .ok out ∧ Holds out w h fun r c => cv (px r c) :=
  decode_ok P ss px _ w h file hs.1 hs.2.1 _ (gammaTable_curve P cv h1 hcv) hs.2.2.1 hs.2.2.2.1 hs.2.2.2.2 hc.1 hc.2.1 hc.2.2.1
    (fun r c hr hc' => look_curve cv _ (by have := hc.2.2.1 r c hr hc'; omega)) hc.2.2.2 hf

/-- The tone curve: the last piece that begins at or before a value gives its beginning plus the rise, at most the limit; a piece of kind 15 is flat, one
of kind 31 has the value the next one begins with (65535 for the last one). (Missing from the full claim: values above 65535, see `C78_curve_wraps`.) -/
theorem C78_tone_curve_partial (P : Params) (g : List Seg) (hc : Curve P g) (hm : (g.map (·.x)).Pairwise (· ≤ ·)) (h0 : (g.map (·.x))[0]? = some 0)
    (v : Nat) (hv : v < 65536) :
    ∃ k s, g[k]? = some s ∧ s.x ≤ v ∧ (∀ j u, k < j → g[j]? = some u → v < u.x) ∧
      (s.n = 31 → calcGamma P v = .ok (min (((g[k + 1]?).map (·.y)).getD 65535) P.clip)) ∧
      (s.n = 15 → calcGamma P v = .ok (min s.y P.clip)) ∧
      (s.n ≠ 31 → s.n ≠ 15 → s.y + rise s.n (v - s.x) < 65536 → calcGamma P v = .ok (min (s.y + rise s.n (v - s.x)) P.clip)) := by
  obtain ⟨k, s, h1, h2, h3, h4⟩ := calcGamma_ok P g hc hm h0 v hv
  refine ⟨k, s, h1, h2, h3, fun h => ?_, fun h => ?_, fun h h' hl => ?_⟩
  · rw [h4, valueOf, if_pos h]
  · rw [h4, valueOf, if_neg (by omega), if_pos h]
  · rw [h4, valueOf, if_neg h, if_neg h', Nat.mod_eq_of_lt (show rise s.n (v - s.x) < 2 ^ 32 by omega), Nat.add_comm, Nat.mod_eq_of_lt hl]

/-- Whatever the words of a complete curve are, a tone is found: no panic. -/
theorem C78_tone_curve_total (P : Params) (g : List Seg) (hc : Curve P g) (hm : (g.map (·.x)).Pairwise (· ≤ ·)) (h0 : (g.map (·.x))[0]? = some 0) :
    ∃ cv : Nat → Nat, ∀ v, v < 65536 → calcGamma P v = .ok (cv v) ∧ cv v ≤ P.clip := by
  refine ⟨fun v => (calcGamma P v).toOption.getD 0, fun v hv => ?_⟩
  obtain ⟨k, s, -, -, -, h4⟩ := calcGamma_ok P g hc hm h0 v hv
  simp only [h4]
  refine ⟨rfl, ?_⟩
  show valueOf _ _ _ _ ≤ _
  rw [valueOf]
  split
  · exact Nat.min_le_right _ _
  · split <;> exact Nat.min_le_right _ _

/-! ## A small file -/

def C78_px (r c : Nat) : Nat := ([[10, 20, 12, 26], [30, 40, 25, 40]].getD r []).getD c 0

def C78_strips : List Strip := [⟨0, 0, 2, 2, 3, 64⟩, ⟨2, 0, 2, 2, 11, 64⟩]

def C78_file : List Nat := [1, 2, 3, 243, 201, 4, 0, 0, 0, 0, 0, 242, 78, 0, 0, 0, 0, 0, 0]

def C78_P : Params where
  gammaPoint := List.replicate 6 65536
  gammaSlope := List.replicate 6 0
  clip := 4095
  init := [12, 21, 26, 42]
  table := [(1, 0), (2, 2), (3, 6), (3, 7)]
  shiftDown := [0, 0, 0, 0]
  stripsH := 2
  stripsV := 1
  byteOffsets := [3, 11]
  lineOffsets := [(0, 0), (2, 0)]
  dataSizes := [64, 64]
  widths := [2, 2]
  heights := [2, 2]

theorem C78_small_settings : C78_Settings C78_P C78_strips 4 :=
  ⟨by decide, by unfold NoShift; decide, rfl, ⟨rfl, by decide, by decide, rfl, rfl, rfl, rfl, rfl⟩, rfl⟩

theorem C78_small_cut : C78_Cut C78_P C78_strips C78_px 4 2 := by
  refine ⟨by unfold Strip.Fits; decide, ?_, ?_, ?_⟩
  · have : ∀ r : Fin 2, ∀ c : Fin 4, ∃ s ∈ C78_strips, s.Covers r c := by unfold Strip.Covers; decide
    exact fun r c hr hc => this ⟨r, hr⟩ ⟨c, hc⟩
  · have : ∀ r : Fin 2, ∀ c : Fin 4, C78_px r c ≤ 4095 := by decide
    exact fun r c hr hc => this ⟨r, hr⟩ ⟨c, hc⟩
  · have : ∀ s ∈ C78_strips, ∀ i, i < s.height / 2 → ∀ n, n < 2 * s.width → catOf (diff C78_P.init C78_px s.row s.col i n) < C78_P.table.length := by
      decide
    exact fun s hs i n hi hn => this s hs i hi n hn

theorem C78_small_stored : C78_Stored C78_P C78_strips C78_px C78_file := by
  intro s hs
  rcases List.mem_cons.1 hs with rfl | hs
  · exact ⟨by decide, ⟨(bytesLSB [243, 201, 4, 0, 0, 0, 0, 0]).drop 19, by decide⟩, by decide⟩
  · rcases List.mem_cons.1 hs with rfl | hs
    · exact ⟨by decide, ⟨(bytesLSB [242, 78, 0, 0, 0, 0, 0, 0]).drop 15, by decide⟩, by decide⟩
    · cases hs

example : ∃ out, decode C78_P C78_file 4 2 = .ok out ∧ Holds out 4 2 C78_px :=
  C78_picture_partial _ _ _ _ _ _ C78_small_settings C78_small_cut C78_small_stored rfl rfl

example : decode C78_P C78_file 4 2 = .ok [10, 20, 12, 26, 30, 40, 25, 40] := by rfl

/-- The same with a curve: doubled up to 16, then rising by 1 each 1, by 1 each 4, and flat at last. -/
def C78_curve : List Seg := [⟨0, 0, 17⟩, ⟨16, 32, 0⟩, ⟨24, 40, 2⟩, ⟨1000, 284, 15⟩, ⟨2000, 284, 15⟩, ⟨3000, 284, 31⟩]

def C78_Q : Params := { C78_P with gammaPoint := [17, 32, 2, 15, 15, 31], gammaSlope := C78_curve.map fun s => s.y * 65536 + s.x }

example : Curve C78_Q C78_curve ∧ (C78_curve.map (·.x)).Pairwise (· ≤ ·) ∧ (C78_curve.map (·.x))[0]? = some 0 := by unfold Curve; decide

example : calcGamma C78_Q 12 = .ok 24 ∧ calcGamma C78_Q 20 = .ok 36 ∧ calcGamma C78_Q 41 = .ok 44 ∧ calcGamma C78_Q 1500 = .ok 284 ∧
    calcGamma C78_Q 4000 = .ok 4095 := by decide

example : ∃ (out : List Nat) (cv : Nat → Nat), decode C78_Q C78_file 4 2 = .ok out ∧ Holds out 4 2 (fun r c => cv (C78_px r c)) ∧ cv 12 = 24 ∧ cv 40 = 44 := by
  obtain ⟨cv, h⟩ := C78_tone_curve_total C78_Q C78_curve (by unfold Curve; decide) (by decide) (by decide)
  obtain ⟨out, e, ho⟩ := C78_toned_picture_partial C78_Q C78_strips C78_px 4 2 C78_file ⟨by decide, by unfold NoShift; decide, rfl, ⟨rfl, by decide, by decide, rfl, rfl, rfl, rfl, rfl⟩, rfl⟩
    C78_small_cut C78_small_stored
    (by decide) (by decide) cv (fun v hv => (h v hv).1)
  refine ⟨out, cv, e, ho, ?_, ?_⟩
  · exact (Except.ok.inj ((h 12 (by decide)).1.symm.trans (by decide)))
  · exact (Except.ok.inj ((h 40 (by decide)).1.symm.trans (by decide)))

/-! ## Where the full claim fails -/

/-- Data that end with the byte of the last word: the first word to be read asks for four bytes, and the decoder panics. -/
theorem C78_no_padding_panics :
    ∃ (P : Params) (ss : List Strip) (file : List Nat), C78_Settings P ss 4 ∧ C78_Cut P ss C78_px 4 2 ∧
      (∀ s ∈ ss, s.offset + (s.size + 7) / 8 ≤ file.length ∧
        ∃ pad, bytesLSB ((file.drop s.offset).take ((s.size + 7) / 8)) = encode P.table P.init C78_px s ++ pad) ∧
      decode P file 4 2 = .error .panic := by
  refine ⟨{ C78_P with byteOffsets := [0, 3], dataSizes := [19, 15] }, [⟨0, 0, 2, 2, 0, 19⟩, ⟨2, 0, 2, 2, 3, 15⟩], [243, 201, 4, 242, 78],
    ⟨by decide, by unfold NoShift; decide, rfl, ⟨rfl, by decide, by decide, rfl, rfl, rfl, rfl, rfl⟩, rfl⟩, ?_, ?_, by rfl⟩
  · refine ⟨by unfold Strip.Fits; decide, ?_, C78_small_cut.2.2.1, ?_⟩
    · have : ∀ r : Fin 2, ∀ c : Fin 4, ∃ s ∈ [(⟨0, 0, 2, 2, 0, 19⟩ : Strip), ⟨2, 0, 2, 2, 3, 15⟩], s.Covers r c := by unfold Strip.Covers; decide
      exact fun r c hr hc => this ⟨r, hr⟩ ⟨c, hc⟩
    · have : ∀ s ∈ [(⟨0, 0, 2, 2, 0, 19⟩ : Strip), ⟨2, 0, 2, 2, 3, 15⟩], ∀ i, i < s.height / 2 → ∀ n, n < 2 * s.width →
          catOf (diff C78_P.init C78_px s.row s.col i n) < C78_P.table.length := by decide
      exact fun s hs i n hi hn => this s hs i hi n hn
  · intro s hs
    rcases List.mem_cons.1 hs with rfl | hs
    · exact ⟨by decide, (bytesLSB [243, 201, 4]).drop 19, by decide⟩
    · rcases List.mem_cons.1 hs with rfl | hs
      · exact ⟨by decide, (bytesLSB [242, 78]).drop 15, by decide⟩
      · cases hs

/-- The place of a strip in the picture is not checked: here its first row is the last of the picture. In checked builds the decoder panics, in others
it writes outside of the picture. -/
theorem C78_strip_outside_panics : decode { C78_P with lineOffsets := [(0, 0), (2, 1)] } C78_file 4 2 = .error .panic := by rfl

/-- A strip with an odd number of rows: the last one is not decoded, and stays black. -/
theorem C78_odd_rows_lost :
    decode { C78_P with heights := [3, 3] } C78_file 4 3 = .ok [10, 20, 12, 26, 30, 40, 25, 40, 0, 0, 0, 0] := by rfl

/-- A rise above 65535 begins again at zero instead of meeting the limit: of the two pieces, the first rises by 2 each 1. -/
theorem C78_curve_wraps :
    ∃ (P : Params) (s t : Seg), Curve P (s :: List.replicate 5 t) ∧ s.x = 0 ∧ s.y = 0 ∧ s.n = 17 ∧ t.x = 50000 ∧ P.clip = 65535 ∧
      min (s.y + rise s.n (40000 - s.x)) P.clip = 65535 ∧ calcGamma P 40000 = .ok 14464 :=
  ⟨{ C78_P with clip := 65535, gammaPoint := List.replicate 6 17, gammaSlope := [0, 50000, 50000, 50000, 50000, 50000] },
    ⟨0, 0, 17⟩, ⟨50000, 0, 17⟩, by unfold Curve; decide, by decide, by decide, by decide, by decide, by decide, by decide, by decide⟩

/-- Settings with shifts are not decoded. -/
theorem C78_shift_panics : decode { C78_P with shiftDown := [0, 0, 1, 0] } C78_file 4 2 = .error .panic := by rfl

end Verif.Props
