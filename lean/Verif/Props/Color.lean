import Verif.Proofs.Color
/-! # C85: developing gives back the colours the camera saw

`Color.xyzToCam` chooses the colour matrix of a picture, `Color.map3` and `Color.map4` turn a pixel of a three and a four colour sensor into linear sRGB. -/

namespace Verif.Props
open Verif Verif.Color Verif.Spec.Color

/-- `s`, `k` times as bright -/
def brighter (k : ℚ) (s : ℚ × ℚ × ℚ) : ℚ × ℚ × ℚ := (k * s.1, k * s.2.1, k * s.2.2)

/-- The white balance makes the channels equal on white. -/
def BalancesWhite (m : Nat → Nat → ℚ) (n : Nat) (wb : ℚ × ℚ × ℚ × ℚ) (k : ℚ) : Prop :=
  ∀ i < n, (match i with | 0 => wb.1 | 1 => wb.2.1 | 2 => wb.2.2.1 | _ => wb.2.2.2) * response m (xyz white) i = k

private theorem linear (m : Mat) (k : ℚ) (s : Rgb) (i : Nat) : response m (xyz (brighter k s)) i = k * response m (xyz s) i := by
  simp only [response, xyz, brighter]; ring

private theorem balanced {m : Mat} {k w : ℚ} {s : Rgb} {i : Nat} (hw : response m (xyz white) i ≠ 0) (h : w * response m (xyz white) i = k) :
    response m (xyz s) i * w = response m (xyz (brighter k s)) i / response m (xyz white) i := by
  rw [linear, ← h]
  field_simp

/-- The matrix for D65 is used whenever there is one: its rows, and zeros. -/
theorem C85_matrix_d65 (ms : Illu → Option (List ℚ)) (l : List ℚ) (h : ms .d65 = some l) (hl : l.length = 9 ∨ l.length = 12) :
    xyzToCam ms = .ok (l.length / 3, rows3 l) := by
  simp only [xyzToCam, preference, List.findSome?, h, Option.map]
  rcases hl with h | h <;> simp [h]

/-- Three colours: whatever sRGB colour is in front of the camera, if the white balance is right then developing shows it, as bright as the white balance
makes white. -/
theorem C85_three_colours (norm : Rgb → ℚ) (ms : Illu → Option (List ℚ)) (l : List ℚ) (hm : ms .d65 = some l) (hl : l.length = 9)
    (hd : Distinguishes (rows3 l) 3) (hw : SeesWhite (rows3 l) 3) (wb : Quad) (k : ℚ) (hb : BalancesWhite (rows3 l) 3 wb k) (s : Rgb)
    (hs : InGamut (brighter k s)) :
    ∃ n m, xyzToCam ms = .ok (n, m) ∧
      map3 norm m wb (response (rows3 l) (xyz s) 0, response (rows3 l) (xyz s) 1, response (rows3 l) (xyz s) 2) = brighter k s := by
  refine ⟨_, _, C85_matrix_d65 ms l hm (.inl hl), ?_⟩
  have hz : ∀ j, rows3 l 3 j = 0 := by
    intro j
    simp only [rows3]
    split
    · rw [List.getD, List.getElem?_eq_none (by omega)]; rfl
    · rfl
  rw [map3_eq norm _ hz hd hw wb _ (brighter k s) (balanced (hw 0 (by omega)) (hb 0 (by omega))) (balanced (hw 1 (by omega)) (hb 1 (by omega)))
    (balanced (hw 2 (by omega)) (hb 2 (by omega))), clip_id norm _ hs]

/-- Four colours: likewise. -/
theorem C85_four_colours (norm : Rgb → ℚ) (ms : Illu → Option (List ℚ)) (l : List ℚ) (hm : ms .d65 = some l) (hl : l.length = 12)
    (hd : Distinguishes (rows3 l) 4) (hw : SeesWhite (rows3 l) 4) (wb : Quad) (k : ℚ) (hb : BalancesWhite (rows3 l) 4 wb k) (s : Rgb)
    (hs : InGamut (brighter k s)) :
    ∃ n m, xyzToCam ms = .ok (n, m) ∧
      map4 norm m wb (response (rows3 l) (xyz s) 0, response (rows3 l) (xyz s) 1, response (rows3 l) (xyz s) 2, response (rows3 l) (xyz s) 3)
        = brighter k s := by
  refine ⟨_, _, C85_matrix_d65 ms l hm (.inr hl), ?_⟩
  rw [map4_eq norm _ hd hw wb _ (brighter k s) (balanced (hw 0 (by omega)) (hb 0 (by omega))) (balanced (hw 1 (by omega)) (hb 1 (by omega)))
    (balanced (hw 2 (by omega)) (hb 2 (by omega))) (balanced (hw 3 (by omega)) (hb 3 (by omega))), clip_id norm _ hs]

/-- Whatever is equal in all channels after the white balance is grey in the picture, however bright, and up to white exactly as bright. -/
theorem C85_grey (norm : Rgb → ℚ) (m : Mat) (hz : ∀ j, m 3 j = 0) (hd : Distinguishes m 3) (hw : SeesWhite m 3) (wb : Quad) (p : Rgb) (g : ℚ)
    (h0 : p.1 * wb.1 = g) (h1 : p.2.1 * wb.2.1 = g) (h2 : p.2.2 * wb.2.2.1 = g) :
    (∃ v, map3 norm m wb p = (v, v, v)) ∧ (0 ≤ g → g ≤ 1 → map3 norm m wb p = (g, g, g)) := by
  have e : ∀ i < 3, g = response m (xyz (g, g, g)) i / response m (xyz white) i := by
    intro i hi
    rw [show ((g, g, g) : Rgb) = brighter g white by simp [brighter, white], linear, mul_div_assoc, div_self (hw i hi), mul_one]
  rw [map3_eq norm m hz hd hw wb p (g, g, g) (by rw [h0]; exact e 0 (by omega)) (by rw [h1]; exact e 1 (by omega)) (by rw [h2]; exact e 2 (by omega))]
  exact ⟨clip_grey norm g, fun a b => clip_id norm _ ⟨⟨a, b⟩, ⟨a, b⟩, a, b⟩⟩

/-- The same for four colours -/
theorem C85_grey_four (norm : Rgb → ℚ) (m : Mat) (hd : Distinguishes m 4) (hw : SeesWhite m 4) (wb p : Quad) (g : ℚ)
    (h0 : p.1 * wb.1 = g) (h1 : p.2.1 * wb.2.1 = g) (h2 : p.2.2.1 * wb.2.2.1 = g) (h3 : p.2.2.2 * wb.2.2.2 = g) :
    (∃ v, map4 norm m wb p = (v, v, v)) ∧ (0 ≤ g → g ≤ 1 → map4 norm m wb p = (g, g, g)) := by
  have e : ∀ i < 4, g = response m (xyz (g, g, g)) i / response m (xyz white) i := by
    intro i hi
    rw [show ((g, g, g) : Rgb) = brighter g white by simp [brighter, white], linear, mul_div_assoc, div_self (hw i hi), mul_one]
  rw [map4_eq norm m hd hw wb p (g, g, g) (by rw [h0]; exact e 0 (by omega)) (by rw [h1]; exact e 1 (by omega)) (by rw [h2]; exact e 2 (by omega))
    (by rw [h3]; exact e 3 (by omega))]
  exact ⟨clip_grey norm g, fun a b => clip_id norm _ ⟨⟨a, b⟩, ⟨a, b⟩, a, b⟩⟩

private theorem clip_nonneg (norm : Rgb → ℚ) (hn : ∀ p : Rgb, 0 ≤ norm p) (q : Rgb) :
    0 ≤ (clipAvg norm q).1 ∧ 0 ≤ (clipAvg norm q).2.1 ∧ 0 ≤ (clipAvg norm q).2.2 := by
  have pos : ∀ v, 0 ≤ clipNeg v := by
    intro v; rw [clipNeg]; split
    · exact le_refl _
    · exact not_lt.1 ‹_›
  simp only [clipAvg]
  have q0 := pos q.1
  have q1 := pos q.2.1
  have q2 := pos q.2.2
  have n0 := hn (clipNeg q.1, clipNeg q.2.1, clipNeg q.2.2)
  generalize max (max (clipNeg q.1) (clipNeg q.2.1)) (clipNeg q.2.2) = top at *
  split
  · next h =>
    have tp : 0 < top := lt_trans one_pos h
    have a0 := div_nonneg q0 (le_of_lt tp)
    have a1 := div_nonneg q1 (le_of_lt tp)
    have a2 := div_nonneg q2 (le_of_lt tp)
    exact ⟨by linarith, by linarith, by linarith⟩
  · exact ⟨q0, q1, q2⟩

/-- Colours are never negative, for any pixel, white balance and matrix. -/
theorem C85_never_negative (norm : Rgb → ℚ) (hn : ∀ p : Rgb, 0 ≤ norm p) (m : Mat) (wb : Quad) (p : Rgb) (p4 : Quad) :
    (0 ≤ (map3 norm m wb p).1 ∧ 0 ≤ (map3 norm m wb p).2.1 ∧ 0 ≤ (map3 norm m wb p).2.2) ∧
    0 ≤ (map4 norm m wb p4).1 ∧ 0 ≤ (map4 norm m wb p4).2.1 ∧ 0 ≤ (map4 norm m wb p4).2.2 :=
  ⟨clip_nonneg norm hn _, clip_nonneg norm hn _⟩

/-- Colours brighter than white are not clipped to white: the norm mixed in is that of the colour before it was scaled down. A grey three times as bright as
white comes out twice as bright. -/
theorem C85_not_clipped (norm : Rgb → ℚ) (h0 : 0 ≤ norm (3, 3, 3)) (h : 3 * norm (3, 3, 3) ^ 2 = 3 ^ 2 + 3 ^ 2 + 3 ^ 2) :
    ∃ (m : Mat) (wb : Quad) (p : Rgb), map3 norm m wb p = (2, 2, 2) := by
  have h3 : norm (3, 3, 3) = 3 := by
    have : (norm (3, 3, 3) - 3) * (norm (3, 3, 3) + 3) = 0 := by ring_nf; ring_nf at h; linarith
    rcases mul_eq_zero.1 this with h1 | h1 <;> linarith
  have hd : Distinguishes (rows3 [1, 0, 0, 0, 1, 0, 0, 0, 1]) 3 := by
    intro a b h
    have h0 := h 0 (by omega)
    have h1 := h 1 (by omega)
    have h2 := h 2 (by omega)
    simp only [response, rows3] at h0 h1 h2
    norm_num at h0 h1 h2
    exact Prod.ext h0 (Prod.ext h1 h2)
  have hw : SeesWhite (rows3 [1, 0, 0, 0, 1, 0, 0, 0, 1]) 3 := fun i hi => by interval_cases i <;> decide +kernel
  have e : ∀ i < 3, (3 : ℚ) = response (rows3 [1, 0, 0, 0, 1, 0, 0, 0, 1]) (xyz (3, 3, 3)) i / response (rows3 [1, 0, 0, 0, 1, 0, 0, 0, 1]) (xyz white) i := by
    intro i hi
    rw [show ((3, 3, 3) : Rgb) = brighter 3 white by simp [brighter, white], linear, mul_div_assoc, div_self (hw i hi), mul_one]
  refine ⟨rows3 [1, 0, 0, 0, 1, 0, 0, 0, 1], (3, 3, 3, 3), (1, 1, 1), ?_⟩
  rw [map3_eq norm _ (fun j => by simp [rows3]) hd hw (3, 3, 3, 3) (1, 1, 1) (3, 3, 3) (by rw [← e 0 (by omega)]; norm_num)
    (by rw [← e 1 (by omega)]; norm_num) (by rw [← e 2 (by omega)]; norm_num)]
  have c3 : clipNeg 3 = 3 := by norm_num [clipNeg]
  simp only [clipAvg, c3, h3, max_self]
  norm_num

/-- Without any matrix the camera is taken to record XYZ. -/
theorem C85_no_matrix (ms : Illu → Option (List ℚ)) (h : ∀ i, ms i = none) : xyzToCam ms = .ok (3, rows3 [1, 0, 0, 0, 1, 0, 0, 0, 1]) := by
  simp [xyzToCam, preference, List.findSome?, h, identity3]

/-- Without a matrix for D65 the first in the order A, B, C, D50, D55, D75, daylight, flash is adapted. -/
theorem C85_matrix_other (ms : Illu → Option (List ℚ)) (before after : List Illu) (i : Illu) (l : List ℚ)
    (ho : [Illu.d65, .a, .b, .c, .d50, .d55, .d75, .daylight, .flash] = before ++ i :: after) (hn : i ≠ .d65) (hb : ∀ j ∈ before, ms j = none)
    (h : ms i = some l) :
    (l.length = 9 → ∃ m, xyzToCam ms = .ok (3, m) ∧ ∀ r < 3, ∀ c, m r c = multiply 3 (rows3 l) (bradfordMatrix i .d65) r c) ∧
    (l.length ≠ 9 → xyzToCam ms = .error .panic) := by
  have e : preference.findSome? (fun i => (ms i).map fun l => (i, l)) = some (i, l) := by
    show [Illu.d65, .a, .b, .c, .d50, .d55, .d75, .daylight, .flash].findSome? _ = _
    rw [ho, List.findSome?_append, List.findSome?_eq_none_iff.2 (fun j hj => by simp [hb j hj])]
    simp [h]
  constructor
  · intro hl
    refine ⟨fun r c => if r < 3 then adaptBradford i .d65 (rows3 l) r c else 0, ?_, fun r hr c => by simp [hr, adaptBradford]⟩
    cases i <;> simp_all [xyzToCam]
  · intro hl
    cases i <;> simp_all [xyzToCam, panic']

/-- A camera with four colours and a matrix for another illuminant only cannot be developed. -/
theorem C85_four_colours_other : ∃ ms : Illu → Option (List ℚ), (∃ l, ms .a = some l ∧ l.length = 12) ∧ xyzToCam ms = .error .panic :=
  ⟨fun i => if i = .a then some (List.replicate 12 1) else none, ⟨_, rfl, by simp⟩, by simp [xyzToCam, preference, List.findSome?, panic']⟩

/-- The white of illuminant A -/
def whiteA : ℚ × ℚ × ℚ := (1.09850, 1, 0.35585)

/-- The white of D65 -/
def whiteD65 : ℚ × ℚ × ℚ := (0.95047, 1, 1.08883)

/-- A matrix for illuminant A is adapted the wrong way round. It says what the camera records of lights relative to the white of A; adapted, it should give
for the white of D65 what it gave for the white of A. It does so when adapted from D65 to A; the code adapts from A to D65, and what it gives for D65 is off
by a factor of more than four in the blue. -/
theorem C85_adapted_backwards :
    let m : Mat := rows3 [1, 0, 0, 0, 1, 0, 0, 0, 1]
    (∀ i < 3, |response (adaptBradford .d65 .a m) whiteD65 i - response m whiteA i| < 1 / 10000) ∧
    4 * response m whiteA 2 < response (adaptBradford .a .d65 m) whiteD65 2 ∧
    (∃ r, xyzToCam (fun i => if i = .a then some [1, 0, 0, 0, 1, 0, 0, 0, 1] else none) = .ok (3, r) ∧
      ∀ i < 3, ∀ j < 3, r i j = adaptBradford .a .d65 m i j) := by
  refine ⟨by decide +kernel, by decide +kernel, ?_⟩
  refine ⟨fun r c => if r < 3 then adaptBradford .a .d65 (rows3 [1, 0, 0, 0, 1, 0, 0, 0, 1]) r c else 0, ?_, fun i hi j _ => by simp [hi]⟩
  simp [xyzToCam, preference, List.findSome?]

/-- A picture in three colours with a matrix of four rows (such as a linear DNG of a four colour camera): grey is not grey. -/
theorem C85_four_rows_three_colours : ∃ (l : List ℚ) (m : Mat), l.length = 12 ∧ xyzToCam (fun i => if i = .d65 then some l else none) = .ok (4, m) ∧
    (∀ i < 3, ∀ j < 3, m i j = if i = j then 1 else 0) ∧ SeesWhite m 4 ∧
    ∀ norm, ¬ ∃ v, map3 norm m (1, 1, 1, 1) (1 / 2, 1 / 2, 1 / 2) = (v, v, v) := by
  refine ⟨[1, 0, 0, 0, 1, 0, 0, 0, 1, 0, 1, 1], rows3 [1, 0, 0, 0, 1, 0, 0, 0, 1, 0, 1, 1], rfl, ?_, by decide +kernel,
    fun i hi => by interval_cases i <;> decide +kernel, ?_⟩
  · simp [xyzToCam, preference, List.findSome?]
  · intro norm ⟨v, h⟩
    have key : ∀ a b c : ℚ, ¬ (1 < max (max (clipNeg a) (clipNeg b)) (clipNeg c)) → clipNeg a ≠ clipNeg b → clipAvg norm (a, b, c) ≠ (v, v, v) := by
      intro a b c h1 h2 h3
      simp only [clipAvg, if_neg h1, Prod.mk.injEq] at h3
      exact h2 (h3.1.trans h3.2.1.symm)
    exact key _ _ _ (by decide +kernel) (by decide +kernel) h

/-- A white point of positive brightness becomes coefficients that make the camera's response to it 1 in every channel that sees it. -/
theorem C85_white_point (x y : ℚ) (m : Mat) (hy : 0 < y) (i : Nat) (hi : i < 3) (hc : 0 < response m (x / y, 1, (1 - x - y) / y) i) :
    ∃ v, (whitepointWb x y m)[i]? = some v ∧ v * response m (x / y, 1, (1 - x - y) / y) i = 1 := by
  have e : apply3 m [x / y, 1, (1 - x - y) / y] i = response m (x / y, 1, (1 - x - y) / y) i := by simp [apply3, response]
  refine ⟨1 / response m (x / y, 1, (1 - x - y) / y) i, ?_, by field_simp⟩
  simp only [whitepointWb, if_pos hy]
  rw [List.getElem?_map, List.getElem?_range hi]
  simp [e, hc]

/-- The numbers of `rows3 l` for a real camera (Canon EOS 5D Mark II, in data/cameras): different lights are told apart and white is seen. -/
example : Distinguishes (rows3 [0.4716, 0.0603, -0.0830, -0.7798, 1.5474, 0.2480, -0.1496, 0.1937, 0.6651]) 3 ∧
    SeesWhite (rows3 [0.4716, 0.0603, -0.0830, -0.7798, 1.5474, 0.2480, -0.1496, 0.1937, 0.6651]) 3 := by
  constructor
  · intro a b h
    obtain ⟨a0, a1, a2⟩ := a
    obtain ⟨b0, b1, b2⟩ := b
    have h0 := h 0 (by omega)
    have h1 := h 1 (by omega)
    have h2 := h 2 (by omega)
    simp only [response, rows3] at h0 h1 h2
    norm_num at h0 h1 h2
    simp only [Prod.mk.injEq]
    refine ⟨?_, ?_, ?_⟩ <;> linarith
  · intro i hi
    interval_cases i <;> decide +kernel

/-- A colour, a white balance -/
example : BalancesWhite (rows3 [1, 0, 0, 0, 1, 0, 0, 0, 1]) 3 (1 / 0.95047, 1 / 1.0000001, 1 / 1.08883, 0) 1 ∧ InGamut (brighter 1 (1 / 2, 1 / 3, 0)) := by
  constructor
  · intro i hi
    interval_cases i <;> decide +kernel
  · simp only [InGamut, brighter]; norm_num

/-- A list that starts with A -/
example : [Illu.d65, .a, .b, .c, .d50, .d55, .d75, .daylight, .flash] = [Illu.d65] ++ .a :: [.b, .c, .d50, .d55, .d75, .daylight, .flash] := rfl

/-- A white point -/
example : 0 < response (rows3 [0.4716, 0.0603, -0.0830]) (0.3127 / 0.329, 1, (1 - 0.3127 - 0.329) / 0.329) 0 := by decide +kernel

end Verif.Props
