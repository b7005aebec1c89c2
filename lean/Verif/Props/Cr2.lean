import Verif.Proofs.Cr2
import Verif.Props.Jpeg
import Verif.Props.JpegSub
/-!
# C61 and C62: Canon CR2 images

The specification is in `Verif.Spec.Cr2`: slices, missing colours, RGB. The JPEG data are those of C59 and C60.
-/

namespace Verif.Props
open Verif Verif.Ljpeg Verif.Spec Verif.Spec.Jpeg Verif.Spec.Cr2 Verif.Cr2

/-! ## C61: sensor data -/

/-- The decoder for a file of `StoredAs`, and what it decodes. -/
theorem stored_decodes {F : Frame} {pre post : List Segment} {sel : List Nat} {pred pt : Nat} {data : List Nat}
    {T : Nat → Table} {px : Nat → Nat → Nat → Nat} (hS : StoredAs F pre post sel false false pred pt data T F.height px) :
    ∃ d lj, Dec.newFull (file F pre post sel pred pt data) false false = .ok d ∧ d.width = F.width * F.comps.length ∧
      d.sof.height = F.height ∧ supers d = .ok (1, 1) ∧
      d.decode (List.replicate (d.width * d.sof.height) 0) 0 d.width d.width d.sof.height = .ok lj ∧
      Holds lj (F.width * F.comps.length) F.height fun r i => px r (i / F.comps.length) (i % F.comps.length) := by
  obtain ⟨lj, e, h⟩ := C59_whole F pre post sel pred pt data T px hS
  obtain ⟨d, e1, hd⟩ := newFull_ok F hS.frame pre post hS.before hS.after sel false false hS.selects pred pt hS.transform.2 data T
    (fun k c => hS.tables k c)
  rw [decodeAll, e1] at e
  refine ⟨d, lj, e1, by rw [Dec.width, hd.width, hd.cps], hd.height, ?_, e, h⟩
  have hn := hS.frame.n.1
  cases hc : F.comps with
  | nil => rw [hc] at hn; simp at hn
  | cons c cs =>
    obtain ⟨h1, h2⟩ := hS.first c (by rw [hc]; rfl)
    rw [supers, hd.comps, hc]
    simp [idx, fullComp, h1, h2, bind, Except.bind]

/-- The `m`-th sample of the JPEG picture. -/
def nth (F : Frame) (px : Nat → Nat → Nat → Nat) (m : Nat) : Nat :=
  px (m / (F.width * F.comps.length)) (m % (F.width * F.comps.length) / F.comps.length)
    (m % (F.width * F.comps.length) % F.comps.length)

/-- The size of the image of sensor data: some cameras store two rows as one. -/
def sensorSize (F : Frame) (double : Bool) : Nat × Nat :=
  if double then (F.width * F.comps.length / 2, F.height * 2) else (F.width * F.comps.length, F.height)

/-- A buffer with the samples of an image in the order of the slices. -/
theorem sliced_prefix {f : Nat → Nat → Nat} {lj : List Nat} {L H' H : Nat} {g : Nat → Nat → Nat} {ws : List Nat} (hd : Holds lj L H' g) (hL : 0 < L)
    (hroom : ws.sum * H ≤ H' * L)
    (ho : ∀ m r c, (order H ws 0)[m]? = some (r, c) → g (m / L) (m % L) = f r c) :
    lj = (order H ws 0).map (fun rc => f rc.1 rc.2) ++ lj.drop (ws.sum * H) := by
  have hl := hd.1
  have : lj.take (ws.sum * H) = (order H ws 0).map (fun rc => f rc.1 rc.2) := by
    apply List.ext_getElem?
    intro m
    by_cases hm : m < ws.sum * H
    · have hm' : m < (order H ws 0).length := by rw [order_length]; exact hm
      rw [List.getElem?_take_of_lt hm, List.getElem?_map, List.getElem?_eq_getElem hm']
      have h1 := hd.2 (m / L) (m % L) (Nat.div_lt_of_lt_mul (by rw [Nat.mul_comm]; omega)) (Nat.mod_lt _ hL)
      rw [Nat.div_add_mod' m L] at h1
      rw [h1, Option.map_some, ho m _ _ (List.getElem?_eq_getElem hm')]
      rfl
    · rw [List.getElem?_eq_none (by rw [List.length_take]; omega), List.getElem?_eq_none (by rw [List.length_map, order_length]; omega)]
  rw [← this, List.take_append_drop]

/-- **C61.** A CR2 file whose JPEG data hold the samples of the sensor cut into slices (`n` of the width `w1`, then one of the width
`w2`): the decoded image has every sample at its place. -/
theorem C61_sensor (t : Tags) (F : Frame) (pre post : List Segment) (sel : List Nat) (pred pt : Nat) (data : List Nat)
    (T : Nat → Table) (px : Nat → Nat → Nat → Nat) (hS : StoredAs F pre post sel false false pred pt data T F.height px)
    (f : Nat → Nat → Nat) (n w1 w2 W H : Nat) (hlin : t.linearization = none) (hst : t.stripes = some (n, w1, w2))
    (hn : 0 < n) (h1 : 0 < w1) (h2 : 0 < w2) (hsize : (W, H) = sensorSize F t.doubleLine) (hW : n * w1 + w2 = W)
    (hf : ∀ m r c, (order H (List.replicate n w1 ++ [w2]) 0)[m]? = some (r, c) → nth F px m = f r c) :
    ∃ out, rawImage t (file F pre post sel pred pt data) = .ok (W, H, out) ∧ Holds out W H f := by
  obtain ⟨d, lj, e1, hw, hh, e2, e3, hd⟩ := stored_decodes hS
  have hL : 0 < F.width * F.comps.length := Nat.mul_pos (by have := hS.frame.w; omega) hS.frame.n.1
  have hsum : (List.replicate n w1 ++ [w2]).sum = W := by simp [← hW]
  have hroom : W * H ≤ F.height * (F.width * F.comps.length) := by
    unfold sensorSize at hsize
    have := Nat.div_mul_le_self (F.width * F.comps.length) 2
    generalize F.width * F.comps.length = L at *
    split at hsize
    · obtain ⟨a, b⟩ := Prod.mk.inj hsize
      rw [a, b, show L / 2 * (F.height * 2) = F.height * (L / 2 * 2) by ring]
      exact Nat.mul_le_mul_left _ this
    · obtain ⟨a, b⟩ := Prod.mk.inj hsize
      rw [a, b, Nat.mul_comm]
  have hm : (List.replicate n w1 ++ [w2]).map (fun w => w / 1 * 1) = List.replicate n w1 ++ [w2] := by simp
  obtain ⟨out, e4, ho⟩ := fields_ok (W := W) (H := H) (sh := 1) (cpp := 1) (by omega) f (List.replicate n w1 ++ [w2])
    (out := List.replicate (W * H) 0) (src := lj) (rest := lj.drop (W * H)) (x := 0) (p := 0)
    (by
      intro w hw
      simp only [List.mem_append, List.mem_singleton] at hw
      rcases hw with h | h
      · have := (List.mem_replicate.1 h).2
        omega
      · omega)
    (by rw [hm, hsum, Nat.zero_add])
    ((holds_replicate W H 0).same fun r c _ _ => by rw [if_neg (by omega)])
    (by
      rw [hm, List.drop_zero, ← hsum]
      exact sliced_prefix hd hL (by rw [hsum]; exact hroom) hf)
  refine ⟨out, ?_, ho⟩
  have hs : size t 1 (F.width * F.comps.length) F.height = .ok (W, H) := by
    rw [size, if_neg (by omega), hsize, sensorSize]
    split <;> rfl
  rw [rawImage, e1]
  simp only [bind, Except.bind, e2, e3]
  rw [assemble, hw, hh, linearize, hlin]
  simp only [bind, Except.bind, if_neg (show ¬ 1 = 2 by omega), hs, hst, if_neg (show ¬ n = 0 by omega)]
  rw [assert', if_pos (decide_eq_true h1), assert', if_pos (decide_eq_true h2)]
  simp only [e4]
  rfl

/-- **C61.** Without slices (no tag, or a first value of 0) the image is the JPEG picture. -/
theorem C61_unsliced (t : Tags) (F : Frame) (pre post : List Segment) (sel : List Nat) (pred pt : Nat) (data : List Nat)
    (T : Nat → Table) (px : Nat → Nat → Nat → Nat) (hS : StoredAs F pre post sel false false pred pt data T F.height px)
    (W H : Nat) (hlin : t.linearization = none) (hst : ∀ n w1 w2, t.stripes = some (n, w1, w2) → n = 0)
    (hsize : (W, H) = sensorSize F t.doubleLine) (heven : t.doubleLine = true → F.width * F.comps.length % 2 = 0) :
    ∃ out, rawImage t (file F pre post sel pred pt data) = .ok (W, H, out) ∧
      Holds out W H fun r c => nth F px (r * W + c) := by
  obtain ⟨d, lj, e1, hw, hh, e2, e3, hd⟩ := stored_decodes hS
  have hL : 0 < F.width * F.comps.length := Nat.mul_pos (by have := hS.frame.w; omega) hS.frame.n.1
  have hWH : F.width * F.comps.length * F.height = W * H := by
    unfold sensorSize at hsize
    generalize F.width * F.comps.length = L at *
    split at hsize
    · rename_i hb
      obtain ⟨a, b⟩ := Prod.mk.inj hsize
      have := heven hb
      rw [a, b, show L / 2 * (F.height * 2) = (L / 2 * 2) * F.height by ring, show L / 2 * 2 = L by omega]
    · obtain ⟨a, b⟩ := Prod.mk.inj hsize
      rw [a, b]
  refine ⟨lj, ?_, ?_, ?_⟩
  · have hs : size t 1 (F.width * F.comps.length) F.height = .ok (W, H) := by
      rw [size, if_neg (by omega), hsize, sensorSize]
      split <;> rfl
    rw [rawImage, e1]
    simp only [bind, Except.bind, e2, e3]
    rw [assemble, hw, hh, linearize, hlin]
    simp only [bind, Except.bind, if_neg (show ¬ 1 = 2 by omega), hs]
    have hu : updateDimension (F.width * F.comps.length) F.height W H lj = .ok (W, H, lj) := by rw [updateDimension, if_pos hWH]
    cases hst' : t.stripes with
    | none => exact hu
    | some s =>
      obtain ⟨n, w1, w2⟩ := s
      simp only [if_pos (hst n w1 w2 hst')]
      exact hu
  · rw [hd.1, Nat.mul_comm, hWH, Nat.mul_comm]
  · intro r c hr hc
    show lj[r * W + c]? = some (nth F px (r * W + c))
    have hlt : r * W + c < F.height * (F.width * F.comps.length) := by
      rw [Nat.mul_comm F.height, hWH, Nat.mul_comm W]; exact mul_add_lt hr hc
    generalize r * W + c = m at *
    have h1 := hd.2 (m / (F.width * F.comps.length)) (m % (F.width * F.comps.length))
      (Nat.div_lt_of_lt_mul (by rw [Nat.mul_comm]; exact hlt)) (Nat.mod_lt _ hL)
    rw [Nat.div_add_mod' m _] at h1
    exact h1

/-! ### the file of C59 as slices of widths 2, 2, 2 and as one wide slice with doubled rows -/

/-- Tags without anything special. -/
def exTags : Tags := ⟨none, none, false, none, none, false, false, false, none, none⟩

example : ∃ out, rawImage { exTags with stripes := some (2, 2, 2) } (file exFrame exPre exPost [0, 1] 6 0 exScan) = .ok (6, 2, out) ∧
    Holds out 6 2 fun r c => nth exFrame exJpx (c / 2 * 4 + r * 2 + c % 2) := by
  refine C61_sensor _ _ _ _ _ _ _ _ _ _ exStored _ 2 2 2 6 2 rfl rfl (by decide) (by decide) (by decide) (by decide) (by decide) ?_
  intro m r c h
  have hm : m < 12 := by
    have := (List.getElem?_eq_some_iff.1 h).1
    simpa [order_length] using this
  have : ∀ m, m < 12 → ∀ rc ∈ (order 2 (List.replicate 2 2 ++ [2]) 0)[m]?, rc.2 / 2 * 4 + rc.1 * 2 + rc.2 % 2 = m := by decide
  rw [this m hm (r, c) h]

example : ∃ out, rawImage { exTags with doubleLine := true } (file exFrame exPre exPost [0, 1] 6 0 exScan) = .ok (3, 4, out) ∧
    Holds out 3 4 fun r c => nth exFrame exJpx (r * 3 + c) :=
  C61_unsliced _ _ _ _ _ _ _ _ _ _ exStored 3 4 rfl (by simp [exTags]) (by decide) (by decide)

/-! ## C62: sRAW -/

/-- The numbers are small enough for 32 bits. -/
structure Fits32 (t : Tags) (wb : Nat → Nat) (P : Pic) (w h : Nat) : Prop where
  samples : ∀ r c k, r < h → c < w → k < 3 → P r c k < 65536
  small : ∀ k, k < 3 → wb k ≤ if version t = 1 then 11792 else 18724
  colours : version t = 1 → ∀ r c k, r < h → c < w → 0 < k → k < 3 → P r c k < 32768

/-- What the colour conversion needs: small numbers, and the levels are there. -/
structure Balanced (t : Tags) (wb : Nat → Nat) (P : Pic) (w h : Nat) : Prop extends Fits32 t wb P w h where
  levels : ∃ l0 l1 l2 l3, t.levels = some (l0, l1, l2, l3) ∧ wb = balance t.invertWb l0 l1 l2 l3 ∧ (t.invertWb = true → 0 < l0 ∧ 0 < l3)

theorem Balanced.coeffs {t : Tags} {wb : Nat → Nat} {P : Pic} {w h : Nat} (hB : Balanced t wb P w h) : coeffs t = (wb 0, wb 1, wb 2) := by
  obtain ⟨l0, l1, l2, l3, e, rfl, hinv⟩ := hB.levels
  rw [Verif.Cr2.coeffs, e]
  simp only [balance]
  cases hb : t.invertWb with
  | false => rfl
  | true =>
    obtain ⟨ha, hb⟩ := hinv hb
    simp only [if_pos, if_neg (show ¬ l0 = 0 by omega), if_neg (show ¬ l3 = 0 by omega)]

theorem acrossS_pic (w : Nat) (P : Pic) (r i : Nat) :
    acrossS w (fun r i => P r (i / 3) (i % 3)) r i = across w P r (i / 3) (i % 3) := by
  rw [acrossS, across]
  by_cases h : i % 3 ≠ 0 ∧ i / 3 % 2 = 1 ∧ i / 3 + 1 < w
  · rw [if_pos h, if_pos h, show (i - 3) / 3 = i / 3 - 1 by omega, show (i - 3) % 3 = i % 3 by omega,
      show (i + 3) / 3 = i / 3 + 1 by omega, show (i + 3) % 3 = i % 3 by omega]
    rfl
  · rw [if_neg h, if_neg h]

theorem downS_pic (h : Nat) (P : Pic) (r i : Nat) :
    downS h (fun r i => P r (i / 3) (i % 3)) r i = downThree h P r (i / 3) (i % 3) := rfl

/-- The picture after the interpolation. -/
def filled (sv w h : Nat) (P : Pic) : Pic := if sv = 2 then downThree h (across w P) else across w P

/-- **C62.** Interpolation: what it does to every picture. -/
theorem C62_interpolation (w h sv : Nat) (hw : 0 < w) (P : Pic) (image : List Nat)
    (hi : Holds image (w * 3) h fun r i => P r (i / 3) (i % 3)) :
    ∃ out, interpolateYuv 2 sv (w * 3) image = .ok out ∧ Holds out (w * 3) h fun r i => filled sv w h P r (i / 3) (i % 3) := by
  obtain ⟨out, e, ho⟩ := interpolateYuv_ok (sv := sv) hw hi
  refine ⟨out, e, ho.same ?_⟩
  intro r i _ _
  have ha : acrossS w (fun r i => P r (i / 3) (i % 3)) = fun r i => across w P r (i / 3) (i % 3) := by
    funext r i; exact acrossS_pic w P r i
  rw [ha, filled]
  by_cases h2 : sv = 2
  · rw [if_pos h2, if_pos h2]
    rfl
  · rw [if_neg h2, if_neg h2]

theorem mean_lt {a b B : Nat} (ha : a < B) (hb : b < B) : mean a b < B := by
  unfold mean; omega

theorem across_lt {w : Nat} {P : Pic} {B r k : Nat} (h : ∀ c, c < w → P r c k < B) {c : Nat} (hc : c < w) : across w P r c k < B := by
  unfold across
  split
  · exact mean_lt (h _ (by omega)) (h _ (by omega))
  · exact h c hc

theorem down_lt {h : Nat} {P : Pic} {B c k : Nat} (hp : ∀ r, r < h → P r c k < B) {r : Nat} (hr : r < h) : downThree h P r c k < B := by
  unfold downThree
  split
  · exact mean_lt (hp _ (by omega)) (hp _ (by omega))
  · exact hp r hr

theorem filled_lt {sv w h : Nat} {P : Pic} {B k : Nat} (hp : ∀ r c, r < h → c < w → P r c k < B) {r c : Nat} (hr : r < h) (hc : c < w) :
    filled sv w h P r c k < B := by
  unfold filled
  split
  · exact down_lt (fun r hr => across_lt (fun c hc => hp r c hr hc) hc) hr
  · exact across_lt (fun c hc => hp r c hr hc) hc

/-- Interpolation and RGB together. -/
theorem convert_ok {t : Tags} {wb : Nat → Nat} {P : Pic} {w h sv : Nat} (hw : 0 < w) (hsv : sv = 1 ∨ sv = 2) (hB : Fits32 t wb P w h)
    (hcf : coeffs t = (wb 0, wb 1, wb 2)) {image : List Nat}
    (hi : Holds image (w * 3) h fun r i => P r (i / 3) (i % 3)) :
    ∃ out, convertToRgb t 2 sv (w * 3) image = .ok out ∧
      Holds out (w * 3) h fun r i => rgb (version t) (hueShift t.modelId t.firmware (2 * sv)) wb (filled sv w h P) r (i / 3) (i % 3) := by
  obtain ⟨mid, e1, h1⟩ := C62_interpolation w h sv hw P image hi
  have hhue : hue t 2 sv = .ok (hueShift t.modelId t.firmware (2 * sv)) := by
    rw [hue, hueShift.eq_def]
    cases t.modelId with
    | none => rfl
    | some id =>
      simp only []
      split
      · rw [usub, if_pos (by omega)]; rfl
      · rfl
  have hue4 : hueShift t.modelId t.firmware (2 * sv) ≤ 4 := by
    rw [hueShift.eq_def]
    cases t.modelId with
    | none => simp
    | some id =>
      simp only []
      split <;> omega
  obtain ⟨out, e2, h2⟩ := pixels_ok (v := version t) (cf := coeffs t) (hue := hueShift t.modelId t.firmware (2 * sv))
    (P := rgb (version t) (hueShift t.modelId t.firmware (2 * sv)) wb (filled sv w h P)) hw h1 (by
      intro r c hr hc
      rw [hcf]
      by_cases hv : version t = 1
      · rw [hv]
        have hs := hB.small
        rw [if_pos hv] at hs
        exact pixel_one hs hue4 (filled_lt (fun r c hr hc => hB.samples r c 0 hr hc (by omega)) hr hc)
          (filled_lt (fun r c hr hc => hB.colours hv r c 1 hr hc (by omega) (by omega)) hr hc)
          (filled_lt (fun r c hr hc => hB.colours hv r c 2 hr hc (by omega) (by omega)) hr hc)
      · have hs := hB.small
        rw [if_neg hv] at hs
        exact pixel_other hv hs _ fun k hk => filled_lt (fun r c hr hc => hB.samples r c k hr hc hk) hr hc)
  refine ⟨out, ?_, h2⟩
  rw [convertToRgb, e1]
  simp only [bind, Except.bind, hhue]
  exact e2

theorem range_triple {α : Type} (w : Nat) (g : Nat → α) :
    (List.range (w * 3)).map g = (List.range w).flatMap fun c => (List.range 3).map fun k => g (c * 3 + k) := by
  induction w with
  | zero => rfl
  | succ w ih =>
    have e : (List.range (w + 1)).flatMap (fun c => (List.range 3).map fun k => g (c * 3 + k)) =
        (List.range w).flatMap (fun c => (List.range 3).map fun k => g (c * 3 + k)) ++ (List.range 3).map fun k => g (w * 3 + k) := by
      rw [List.range_succ (n := w), List.flatMap_append, List.flatMap_singleton]
    rw [e, Nat.succ_mul, List.range_add, List.map_append, ih, List.map_map]
    rfl

theorem order_triple (h : Nat) (ws : List Nat) (x : Nat) :
    order h (ws.map (· * 3)) (x * 3) = (order h ws x).flatMap fun rc => (List.range 3).map fun k => (rc.1, rc.2 * 3 + k) := by
  induction ws generalizing x with
  | nil => rfl
  | cons w ws ih =>
    rw [List.map_cons, order, order, List.flatMap_append, ← Nat.add_mul, ih, List.flatMap_assoc]
    congr 1
    apply congrArg (fun g => List.flatMap g (List.range h))
    funext r
    rw [range_triple, List.flatMap_map]
    apply congrArg (fun g => List.flatMap g (List.range w))
    funext c
    apply List.map_congr_left
    intro k _
    rw [Nat.add_mul, Nat.add_assoc]

/-- The decoder for a file of `StoredSub`, and what it decodes. -/
theorem stored_sub_decodes {s : Sub} (hs : s ≠ .sonyFour) {F : Frame} {pre post : List Segment} {sel : List Nat} {pred pt : Nat} {data : List Nat}
    {T : Nat → Table} {bw bh : Nat} {p : SubPic} (hS : StoredSub s F pre post sel false false pred pt data T bw bh p) :
    ∃ d lj, Dec.newFull (file F pre post sel pred pt data) false false = .ok d ∧ d.width = F.width * 3 ∧
      d.sof.height = F.height ∧ supers d = .ok (2, s.rows) ∧
      d.decode (List.replicate (d.width * d.sof.height) 0) 0 d.width d.width d.sof.height = .ok lj ∧
      Holds lj (F.width * 3) F.height fun r i => s.pixel p r (i / 3) (i % 3) := by
  obtain ⟨d, e, _, hw, hh, c, cs, e1, e2, e3⟩ := subCtx_of_stored hS
  obtain ⟨d', lj, e', e4, hl, h⟩ := C60_canon s hs F pre post sel false false pred pt data T bw bh p hS
    (List.replicate (d.width * d.sof.height) 0) (by rw [List.length_replicate, hw, hh, Nat.mul_comm])
  rw [e] at e'
  have hdd := Except.ok.inj e'
  subst hdd
  refine ⟨d, lj, e, hw, hh, by rw [supers, e1]; simp [idx, e2, e3, bind, Except.bind], e4, hl, ?_⟩
  intro r i hr hi
  have := h r (i / 3) (i % 3) hr (by omega) (Nat.mod_lt _ (by omega))
  rw [Nat.div_add_mod' i 3] at this
  exact this

theorem size_dims {t : Tags} {W H lw lh : Nat} (h : t.dims = some (W, some H)) : size t 3 lw lh = .ok (W * 3, H) := by
  rw [size, if_pos rfl, h]

/-- **C62.** An sRAW file with a colour sample for two pixels, cut into slices (half of the widths in the tag): the image is the stored
picture with the missing colours filled in, in red, green and blue. -/
theorem C62_two (t : Tags) (F : Frame) (pre post : List Segment) (sel : List Nat) (pred pt : Nat) (data : List Nat)
    (T : Nat → Table) (bw bh : Nat) (p : SubPic) (hS : StoredSub .two F pre post sel false false pred pt data T bw bh p)
    (P : Pic) (wb : Nat → Nat) (n w1 w2 W H : Nat) (hlin : t.linearization = none) (hst : t.stripes = some (n, w1, w2))
    (hdim : t.dims = some (W, some H)) (hn : 0 < n) (h1 : 2 ≤ w1) (h2 : 2 ≤ w2) (hW : n * (w1 / 2) + w2 / 2 = W) (hroom : W * H ≤ F.width * F.height)
    (hf : ∀ m r c, (order H (List.replicate n (w1 / 2) ++ [w2 / 2]) 0)[m]? = some (r, c) →
      ∀ k, k < 3 → Sub.two.pixel p (m / F.width) (m % F.width) k = P r c k)
    (hB : Balanced t wb P W H) :
    ∃ out, rawImage t (file F pre post sel pred pt data) = .ok (W * 3, H, out) ∧
      Holds out (W * 3) H fun r i => rgb (version t) (hueShift t.modelId t.firmware 2) wb (across W P) r (i / 3) (i % 3) := by
  obtain ⟨d, lj, e1, hw, hh, e2, e3, hd⟩ := stored_sub_decodes (by decide) hS
  have hL : 0 < F.width := by have := hS.frame.w; omega
  have hm : (List.replicate n w1 ++ [w2]).map (fun w => w / 2 * 3) = (List.replicate n (w1 / 2) ++ [w2 / 2]).map (· * 3) := by simp
  have hsum : ((List.replicate n (w1 / 2) ++ [w2 / 2]).map (· * 3)).sum = W * 3 := by
    simp [← hW]; ring
  obtain ⟨mid, e4, ho⟩ := fields_ok (W := W * 3) (H := H) (sh := 2) (cpp := 3) (by omega) (fun r i => P r (i / 3) (i % 3)) (List.replicate n w1 ++ [w2])
    (out := List.replicate (W * 3 * H) 0) (src := lj) (rest := lj.drop (W * 3 * H)) (x := 0) (p := 0)
    (by
      intro w hw
      simp only [List.mem_append, List.mem_singleton] at hw
      rcases hw with h | h
      · have := (List.mem_replicate.1 h).2
        omega
      · omega)
    (by rw [hm, hsum, Nat.zero_add])
    ((holds_replicate _ H 0).same fun r c _ _ => by rw [if_neg (by omega)])
    (by
      rw [hm, List.drop_zero]
      have hpre := sliced_prefix (f := fun r i => P r (i / 3) (i % 3)) (H := H) (ws := (List.replicate n (w1 / 2) ++ [w2 / 2]).map (· * 3))
        hd (by omega) (by
        rw [hsum]
        calc W * 3 * H = W * H * 3 := by ring
          _ ≤ F.width * F.height * 3 := Nat.mul_le_mul_right _ hroom
          _ = F.height * (F.width * 3) := by ring) (by
      intro m r c hmo
      have h0 := order_triple H (List.replicate n (w1 / 2) ++ [w2 / 2]) 0
      rw [Nat.zero_mul] at h0
      rw [h0] at hmo
      generalize hO : order H (List.replicate n (w1 / 2) ++ [w2 / 2]) 0 = O at *
      have hidx : m / 3 < O.length := by
        have := (List.getElem?_eq_some_iff.1 hmo).1
        have hfl : (O.flatMap fun rc => (List.range 3).map fun k => (rc.1, rc.2 * 3 + k)).length = O.length * 3 := by
          simp [List.length_flatMap]
        omega
      have key : ∀ (O : List (Nat × Nat)) (m : Nat) (hm : m / 3 < O.length),
          (O.flatMap fun rc => (List.range 3).map fun k => (rc.1, rc.2 * 3 + k))[m]? = some (O[m / 3].1, O[m / 3].2 * 3 + m % 3) := by
        intro O
        induction O with
        | nil => intro m hm; simp at hm
        | cons a O ih =>
          intro m hm
          rw [List.flatMap_cons]
          match m with
          | 0 => rfl
          | 1 => rfl
          | 2 => rfl
          | m + 3 =>
            have := ih m (by rw [List.length_cons] at hm; omega)
            rw [List.getElem?_append_right (by simp)]
            simp only [List.length_map, List.length_range, Nat.add_sub_cancel]
            rw [this]
            have e : (m + 3) / 3 = m / 3 + 1 := by omega
            simp only [e, List.getElem_cons_succ, Nat.add_mod_right]
      rw [key O m hidx, Option.some.injEq] at hmo
      obtain ⟨rfl, rfl⟩ := Prod.mk.inj hmo
      have h4 := hf (m / 3) O[m / 3].1 O[m / 3].2 (List.getElem?_eq_getElem hidx) (m % 3) (Nat.mod_lt _ (by omega))
      have h5 : m / (F.width * 3) = m / 3 / F.width := by rw [Nat.mul_comm, Nat.div_div_eq_div_mul]
      have h6 : m % (F.width * 3) / 3 = m / 3 % F.width := by rw [Nat.mul_comm, Nat.mod_mul_right_div_self]
      have h7 : m % (F.width * 3) % 3 = m % 3 := by rw [Nat.mod_mul_left_mod]
      show Sub.two.pixel p (m / (F.width * 3)) (m % (F.width * 3) / 3) (m % (F.width * 3) % 3) =
        P O[m / 3].1 ((O[m / 3].2 * 3 + m % 3) / 3) ((O[m / 3].2 * 3 + m % 3) % 3)
      rw [h5, h6, h7, h4, show (O[m / 3].2 * 3 + m % 3) / 3 = O[m / 3].2 by omega, show (O[m / 3].2 * 3 + m % 3) % 3 = m % 3 by omega])
      rw [hsum] at hpre
      exact hpre)
  have hWpos : 0 < W := by omega
  obtain ⟨out, e5, h5⟩ := convert_ok (sv := 1) hWpos (Or.inl rfl) hB.toFits32 hB.coeffs ho
  refine ⟨out, ?_, h5⟩
  rw [rawImage, e1]
  simp only [bind, Except.bind, e2, e3, Sub.rows]
  rw [assemble, hw, hh, linearize, hlin]
  simp only [bind, Except.bind, if_pos, size_dims hdim, hst, if_neg (show ¬ n = 0 by omega)]
  rw [assert', if_pos (decide_eq_true (show w1 > 0 by omega)), assert', if_pos (decide_eq_true (show w2 > 0 by omega))]
  simp only [if_neg (show ¬ (1 : Nat) = 2 by omega), e4, e5]

/-- **C62.** An sRAW file with a colour sample for four pixels, cut into `n + 1` slices of the same width (a third of that in the tag): the
decoder puts every pixel at its place, fills in colours in its way (see `downThree`), and converts to red, green and blue. -/
theorem C62_four_partial (t : Tags) (F : Frame) (pre post : List Segment) (sel : List Nat) (pred pt : Nat) (data : List Nat)
    (T : Nat → Table) (bw bh : Nat) (p : SubPic) (hS : StoredSub .canonFour F pre post sel false false pred pt data T bw bh p)
    (P : Pic) (wb : Nat → Nat) (n w w2 W hh : Nat) (hlin : t.linearization = none) (hst : t.stripes = some (n, 3 * w, w2))
    (hdim : t.dims = some (W, some (2 * hh))) (hn : 0 < n) (h1 : 0 < w) (h2 : 0 < w2) (hW : (n + 1) * w = W) (hroom : W * (2 * hh) ≤ F.width * F.height)
    (hf : ∀ m r c, (order hh (List.replicate (n + 1) w) 0)[m]? = some (r, c) → ∀ e k, e < 2 → k < 3 →
      Sub.canonFour.pixel p (2 * (m / F.width) + e) (m % F.width) k = P (2 * r + e) c k)
    (hB : Balanced t wb P W (2 * hh)) :
    ∃ out, rawImage t (file F pre post sel pred pt data) = .ok (W * 3, 2 * hh, out) ∧
      Holds out (W * 3) (2 * hh) fun r i =>
        rgb (version t) (hueShift t.modelId t.firmware 4) wb (downThree (2 * hh) (across W P)) r (i / 3) (i % 3) := by
  obtain ⟨d, lj, e1, hw, hh', e2, e3, hd⟩ := stored_sub_decodes (by decide) hS
  have hL : 0 < F.width := by have := hS.frame.w; omega
  have hht : F.height = 2 * bh := hS.height
  have hWpos : 0 < W := by rw [← hW]; exact Nat.mul_pos (by omega) h1
  rw [hht, Nat.mul_comm F.width 3] at hd
  obtain ⟨mid, e4, ho⟩ := fieldPairs_ok (w := w) (hh := hh) (n := n + 1) (jw := F.width) (jh := bh) (P := P) h1 hL hd (by
    rw [hht] at hroom
    have a1 : W * (2 * hh) = 2 * ((n + 1) * hh * w) := by rw [← hW]; ring
    have a2 : F.width * (2 * bh) = 2 * (F.width * bh) := by ring
    omega) hf (W * 3) (2 * hh) (by rw [hW]; ring) rfl
  obtain ⟨out, e5, h5⟩ := convert_ok (sv := 2) hWpos (Or.inr rfl) hB.toFits32 hB.coeffs ho
  refine ⟨out, ?_, h5⟩
  rw [rawImage, e1]
  simp only [bind, Except.bind, e2, e3, Sub.rows]
  rw [assemble, hw, hh', linearize, hlin]
  simp only [bind, Except.bind, if_pos, size_dims hdim, hst, if_neg (show ¬ n = 0 by omega)]
  rw [assert', if_pos (decide_eq_true (show 3 * w > 0 by omega)), assert', if_pos (decide_eq_true (show w2 > 0 by omega))]
  have hlen : (List.replicate n (3 * w) ++ [w2]).length = n + 1 := by simp
  rw [Nat.mul_comm F.width 3, hlen]
  simp only [e4, e5]

theorem size_whole {t : Tags} {F : Frame} (h : t.dims = some (F.width, some F.height) ∨ t.dims = none ∧ F.height ≤ F.width) :
    size t 3 (F.width * 3) F.height = .ok (F.width * 3, F.height) := by
  rcases h with h | ⟨h, hle⟩
  · exact size_dims h
  · rw [size, if_pos rfl, h]
    simp only [Nat.mul_div_cancel _ (show 0 < 3 by omega), if_neg (show ¬ F.width < F.height by omega)]

/-- **C62.** An sRAW file that is not cut into slices (the first value of the tag is 0). -/
theorem C62_unsliced_partial (s : Sub) (hs : s ≠ .sonyFour) (t : Tags) (F : Frame) (pre post : List Segment) (sel : List Nat) (pred pt : Nat)
    (data : List Nat) (T : Nat → Table) (bw bh : Nat) (p : SubPic) (hS : StoredSub s F pre post sel false false pred pt data T bw bh p)
    (wb : Nat → Nat) (w1 w2 : Nat) (hlin : t.linearization = none) (hst : t.stripes = some (0, w1, w2))
    (hdim : t.dims = some (F.width, some F.height) ∨ t.dims = none ∧ F.height ≤ F.width) (hB : Balanced t wb (s.pixel p) F.width F.height) :
    ∃ out, rawImage t (file F pre post sel pred pt data) = .ok (F.width * 3, F.height, out) ∧
      Holds out (F.width * 3) F.height fun r i => rgb (version t) (hueShift t.modelId t.firmware (2 * s.rows)) wb
        (if s.rows = 2 then downThree F.height (across F.width (s.pixel p)) else across F.width (s.pixel p)) r (i / 3) (i % 3) := by
  obtain ⟨d, lj, e1, hw, hh', e2, e3, hd⟩ := stored_sub_decodes hs hS
  have hL : 0 < F.width := by have := hS.frame.w; omega
  obtain ⟨out, e5, h5⟩ := convert_ok (sv := s.rows) hL (by cases s <;> simp [Sub.rows]) hB.toFits32 hB.coeffs hd
  refine ⟨out, ?_, h5⟩
  rw [rawImage, e1]
  simp only [bind, Except.bind, e2, e3]
  rw [assemble, hw, hh', linearize, hlin]
  simp only [bind, Except.bind, if_pos, size_whole hdim, hst, e5]
  rw [updateDimension, if_pos rfl]

/-- An sRAW file without the tag is not converted: the image contains brightness and colour differences where red, green and blue are
expected. -/
theorem C62_unconverted_without_tag (s : Sub) (hs : s ≠ .sonyFour) (t : Tags) (F : Frame) (pre post : List Segment) (sel : List Nat) (pred pt : Nat)
    (data : List Nat) (T : Nat → Table) (bw bh : Nat) (p : SubPic) (hS : StoredSub s F pre post sel false false pred pt data T bw bh p)
    (hlin : t.linearization = none) (hst : t.stripes = none)
    (hdim : t.dims = some (F.width, some F.height) ∨ t.dims = none ∧ F.height ≤ F.width) :
    ∃ out, rawImage t (file F pre post sel pred pt data) = .ok (F.width * 3, F.height, out) ∧
      Holds out (F.width * 3) F.height fun r i => s.pixel p r (i / 3) (i % 3) := by
  obtain ⟨d, lj, e1, hw, hh', e2, e3, hd⟩ := stored_sub_decodes hs hS
  refine ⟨lj, ?_, hd⟩
  rw [rawImage, e1]
  simp only [bind, Except.bind, e2, e3]
  rw [assemble, hw, hh', linearize, hlin]
  simp only [bind, Except.bind, if_pos, size_whole hdim, hst]
  rw [updateDimension, if_pos rfl]

/-! ### the files of C60 as two slices -/

/-- Tags of an sRAW file. -/
def exSraw (stripes : Nat × Nat × Nat) : Tags :=
  { exTags with dims := some (4, some 4), stripes := some stripes, levels := some (2048, 1000, 1047, 1500), srawNew := true, modelId := some 0x80000285 }

/-- Its white balance. -/
def exWb : Nat → Nat := balance false 2048 1000 1047 1500

theorem exBalanced (s : Nat × Nat × Nat) (P : Pic) (h : ∀ r, r < 4 → ∀ c, c < 4 → ∀ k, k < 3 → P r c k < 65536) : Balanced (exSraw s) exWb P 4 4 where
  levels := ⟨_, _, _, _, rfl, rfl, fun _ => by decide⟩
  samples := fun r c k hr hc hk => h r hr c hc k hk
  small := by
    have : ∀ k, k < 3 → exWb k ≤ 18724 := by decide
    exact this
  colours := fun h => absurd (show (2 : Nat) = 1 from h) (by decide)

/-- The picture put together from its slices. -/
def exP2 : Pic := fun r c k => Sub.two.pixel exSubPic ((c / 2 * 8 + r * 2 + c % 2) / 4) ((c / 2 * 8 + r * 2 + c % 2) % 4) k

example : ∃ out, rawImage (exSraw (1, 4, 5)) (file (exSubFrame 1) exSubPre [] [1, 2, 3] 1 0 exSubTwo) = .ok (4 * 3, 4, out) ∧
    Holds out (4 * 3) 4 fun r i => rgb 2 0 exWb (across 4 exP2) r (i / 3) (i % 3) := by
  refine C62_two _ _ _ _ _ _ _ _ _ _ _ _ exSub_two exP2 exWb 1 4 5 4 4 rfl rfl rfl (by decide) (by decide) (by decide) (by decide) (by decide) ?_
    (exBalanced _ _ (by decide))
  intro m r c h k _
  have hm : m < 16 := by
    have := (List.getElem?_eq_some_iff.1 h).1
    simpa [order_length] using this
  have : ∀ m, m < 16 → ∀ rc ∈ (order 4 (List.replicate 1 (4 / 2) ++ [5 / 2]) 0)[m]?, rc.2 / 2 * 8 + rc.1 * 2 + rc.2 % 2 = m := by decide
  show _ = exP2 r c k
  rw [exP2, this m hm (r, c) h]
  rfl

example : ∃ out, rawImage (exSraw (0, 0, 0)) (file (exSubFrame 1) exSubPre [] [1, 2, 3] 1 0 exSubTwo) = .ok (4 * 3, 4, out) ∧
    Holds out (4 * 3) 4 fun r i => rgb 2 0 exWb (across 4 (Sub.two.pixel exSubPic)) r (i / 3) (i % 3) :=
  C62_unsliced_partial .two (by decide) _ _ _ _ _ _ _ _ _ _ _ _ exSub_two exWb 0 0 rfl rfl (Or.inl rfl) (exBalanced _ _ (by decide))

/-- The picture put together from its slices. -/
def exP4 : Pic := fun r c k =>
  Sub.canonFour.pixel exSubPic (2 * ((c / 2 * 4 + r / 2 * 2 + c % 2) / 4) + r % 2) ((c / 2 * 4 + r / 2 * 2 + c % 2) % 4) k

example : ∃ out, rawImage (exSraw (1, 6, 6)) (file (exSubFrame 2) exSubPre [] [1, 2, 3] 1 0 exSubCanon) = .ok (4 * 3, 4, out) ∧
    Holds out (4 * 3) 4 fun r i => rgb 2 1 exWb (downThree 4 (across 4 exP4)) r (i / 3) (i % 3) := by
  refine C62_four_partial _ _ _ _ _ _ _ _ _ _ _ _ exSub_canon exP4 exWb 1 2 6 4 2 rfl rfl rfl (by decide) (by decide) (by decide) (by decide)
    (by decide) ?_ (exBalanced _ _ (by decide))
  intro m r c h e k he _
  have hm : m < 8 := by
    have := (List.getElem?_eq_some_iff.1 h).1
    simpa [order_length] using this
  have : ∀ m, m < 8 → ∀ rc ∈ (order 2 (List.replicate (1 + 1) 2) 0)[m]?, rc.2 / 2 * 4 + rc.1 * 2 + rc.2 % 2 = m := by decide
  show _ = exP4 (2 * r + e) c k
  rw [exP4, show (2 * r + e) / 2 = r by omega, show (2 * r + e) % 2 = e by omega, this m hm (r, c) h]
  rfl

/-! ## What does not hold -/

/-- With a colour sample for four pixels the missing rows of colours are not filled in: for every size of at least five rows there is a
picture whose colours in row 3 should be averages and are not. -/
theorem C62_four_rows_left_out (w h : Nat) (hw : 0 < w) (hh : 5 ≤ h) :
    ∃ (P : Pic) (image out : List Nat), (Holds image (w * 3) h fun r i => P r (i / 3) (i % 3)) ∧
      interpolateYuv 2 2 (w * 3) image = .ok out ∧ ¬ Holds out (w * 3) h fun r i => down h (across w P) r (i / 3) (i % 3) := by
  let P : Pic := fun r _ _ => if r = 4 then 10 else 0
  have hi := holds_flatMap (w * 3) h fun r i => P r (i / 3) (i % 3)
  obtain ⟨out, e, ho⟩ := C62_interpolation w h 2 hw P _ hi
  refine ⟨P, _, out, hi, e, ?_⟩
  intro hc
  have h1 := ho.2 3 1 (by omega) (by omega)
  have h2 := hc.2 3 1 (by omega) (by omega)
  rw [h1, Option.some.injEq] at h2
  simp [filled, downThree, down, across, P, mean, show 3 + 1 < h by omega] at h2

/-- Without the levels in the makernotes every sRAW picture becomes black. -/
theorem C62_black_without_levels (t : Tags) (P : Pic) (w h sv : Nat) (hw : 0 < w) (hsv : sv = 1 ∨ sv = 2) (hl : t.levels = none)
    (hP : Fits32 t (fun _ => 0) P w h) (image : List Nat) (hi : Holds image (w * 3) h fun r i => P r (i / 3) (i % 3)) :
    ∃ out, convertToRgb t 2 sv (w * 3) image = .ok out ∧ Holds out (w * 3) h fun _ _ => 0 := by
  obtain ⟨out, e, ho⟩ := convert_ok hw hsv hP (by rw [coeffs, hl]) hi
  refine ⟨out, e, ho.same ?_⟩
  intro r i _ _
  simp [rgb, floorDiv, Nef.limit]

/-- Large levels and a bright pixel: the product does not fit (a panic in the checked build). -/
theorem C62_bright_panics (t : Tags) (hv : version t = 2) (l0 l1 l2 l3 : Nat) (hl : t.levels = some (l0, l1, l2, l3)) (hi : t.invertWb = false)
    (h0 : 18725 ≤ l0) : convertToRgb t 2 1 3 [65535, 65535, 65535] = .error .panic := by
  have e1 : interpolateYuv 2 1 3 [65535, 65535, 65535] = .ok [65535, 65535, 65535] := by decide
  have e2 : ∃ h, hue t 2 1 = .ok h := by
    rw [hue]
    cases t.modelId with
    | none => exact ⟨_, rfl⟩
    | some id =>
      simp only []
      split
      · exact ⟨_, rfl⟩
      · exact ⟨_, rfl⟩
  obtain ⟨h, e2⟩ := e2
  have e3 : scale l0 (((65535 : Nat) : Int) + (((65535 : Nat) : Int) - 16383)) = .error .panic := by
    rw [scale, chkI32, if_neg (by omega)]
    rfl
  rw [convertToRgb, e1]
  simp only [bind, Except.bind, e2, hv]
  rw [coeffs, hl]
  simp only [hi]
  rw [pixels, pixel, if_neg (by omega)]
  simp only [if_neg (show ¬ (2 : Nat) = 0 by omega)]
  show (Except.bind (Except.bind (scale l0 _) _) _) = _
  rw [e3]
  rfl

end Verif.Props
