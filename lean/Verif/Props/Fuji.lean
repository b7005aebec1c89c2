import Verif.Proofs.FujiFile
/-! # C70: compressed Fuji pictures -/

namespace Verif.Props
open Verif Verif.Pumps Verif.Spec Verif.Spec.Fuji Verif.Fuji
open Verif.Orf (ok_bind)

theorem filled_unique {w h : Nat} {px : Nat → Nat → Nat} {a b : List Nat} (ha : Verif.Srw.Filled w h px (fun _ _ => True) a)
    (hb : Verif.Srw.Filled w h px (fun _ _ => True) b) : a = b := by
  refine List.ext_getElem? fun i => ?_
  by_cases hi : i < h * w
  · have hw : 0 < w := by
      rcases Nat.eq_zero_or_pos w with h0 | h0
      · subst h0; simp at hi
      · exact h0
    have hr : i / w < h := Nat.div_lt_of_lt_mul (by rw [Nat.mul_comm]; exact hi)
    have hc : i % w < w := Nat.mod_lt _ hw
    have h1 := ha.2 _ _ hr hc trivial
    have h2 := hb.2 _ _ hr hc trivial
    rw [Nat.mul_comm, Nat.div_add_mod] at h1 h2
    rw [h1, h2]
  · rw [List.getElem?_eq_none (by rw [ha.1]; omega), List.getElem?_eq_none (by rw [hb.1]; omega)]

/-- A lossless compressed picture is read back exactly, for every size, bit depth and filter array the format allows, and in
whatever order the strips are processed. -/
theorem fuji_lossless (P : Picture) (hP : P.Good) (hl : P.lossless = true) :
    ∃ out, (∀ order, order.Perm (List.range P.strips) → decompressFuji order P.file P.w P.h P.cfa = .ok out) ∧ Holds out P.w P.h P.px := by
  obtain ⟨out, e, f⟩ := file_ok hP _ (List.Perm.refl _)
  refine ⟨out, ?_, f.1, ?_⟩
  · intro order ho
    obtain ⟨out', e', f'⟩ := file_ok hP order ho
    rw [e', filled_unique f' f]
  · intro r c hr hc
    have := outPx_error hP r c hr hc
    rw [hl, if_pos rfl] at this
    rw [f.2 r c hr hc trivial]
    congr 1
    omega

/-- A lossy compressed picture is read back to within the error stored for each block of six rows of a strip, in whatever order the
strips are processed. -/
theorem fuji_lossy (P : Picture) (hP : P.Good) (hl : P.lossless = false) :
    ∃ out f, (∀ order, order.Perm (List.range P.strips) → decompressFuji order P.file P.w P.h P.cfa = .ok out) ∧ Holds out P.w P.h f ∧
      ∀ r c, r < P.h → c < P.w → f r c ≤ P.px r c + P.q (c / 768) (r / 6) ∧ P.px r c ≤ f r c + P.q (c / 768) (r / 6) := by
  obtain ⟨out, e, f⟩ := file_ok hP _ (List.Perm.refl _)
  refine ⟨out, outPx P, ?_, ⟨f.1, fun r c hr hc => f.2 r c hr hc trivial⟩, ?_⟩
  · intro order ho
    obtain ⟨out', e', f'⟩ := file_ok hP order ho
    rw [e', filled_unique f' f]
  · intro r c hr hc
    have := outPx_error hP r c hr hc
    rw [hl, if_neg (by simp)] at this
    exact this

/-! ## Files that do not fit -/

/-- A buffer without the signature is refused. -/
theorem fuji_signature (order : List Nat) (a b : Nat) (rest : List Nat) (w h : Nat) (cfa : Nat → Nat → Nat) (hr : 14 ≤ rest.length)
    (hs : a * 256 + b ≠ 0x4953) : decompressFuji order (a :: b :: rest) w h cfa = fail' := by
  match rest, hr with
  | x1 :: x2 :: x3 :: x4 :: x5 :: x6 :: x7 :: x8 :: x9 :: x10 :: x11 :: x12 :: x13 :: x14 :: rest, _ =>
    have hp : ∃ hd s, parseHeader (a :: b :: x1 :: x2 :: x3 :: x4 :: x5 :: x6 :: x7 :: x8 :: x9 :: x10 :: x11 :: x12 :: x13 :: x14 :: rest) = .ok (hd, s) ∧
        hd.signature = a * 256 + b := ⟨_, _, rfl, rfl⟩
    obtain ⟨hd, s, e, hsig⟩ := hp
    unfold decompressFuji prepare
    rw [e, ok_bind]
    simp only
    have : hd.isValid = .ok false := by
      unfold Header.isValid
      rw [if_pos (Or.inl (by rw [hsig]; exact hs))]
    rw [this, ok_bind]
    rfl

/-- Reading panics, instead of returning an error, when the dimensions announced by the container are not those of the data. -/
theorem fuji_dimensions_panic (P : Picture) (hP : P.Good) (order : List Nat) (w h : Nat) (hwh : w ≠ P.w ∨ h ≠ P.h) :
    decompressFuji order P.file w h P.cfa = panic' := by
  unfold decompressFuji prepare
  rw [file_eq, parseHeader_ok hP, ok_bind]
  simp only
  rw [isValid_ok hP, ok_bind]
  simp only [Bool.not_true, Bool.false_eq_true, if_false]
  rw [show ((w == (headOf P).rawWidth) && (h == (headOf P).rawHeight)) = false by
    simp only [headOf, Bool.and_eq_false_iff, beq_eq_false_iff_ne]
    exact hwh]
  rfl

theorem prepare_tail (P : Picture) (hP : P.Good) (X : List Nat) (hX : X.length ≠ 0) : prepare (P.file ++ X) P.w P.h P.cfa = panic' := by
  obtain ⟨pr, e1, h1, h2⟩ := paramsNew_ok (headOf P) hP.bits rfl P.xtrans rfl rfl P.lossless rfl
  unfold prepare
  have hcfa : ((List.range 6).any fun i => (List.range 6).any fun j => decide (2 < P.cfa i j)) = false := by
    rw [List.any_eq_false]
    intro i hi
    rw [List.mem_range] at hi
    simp only [Bool.not_eq_true]
    rw [List.any_eq_false]
    intro j hj
    rw [List.mem_range] at hj
    have := (hP.layout.1 i hi j hj).1
    simp only [decide_eq_true_eq]
    omega
  have hsz : ∀ X, blockSizes P.strips (fill16 (sizeBytes P) ++ X) = .ok (sizes P, List.replicate ((16 - (sizeBytes P).length % 16) % 16) 0 ++ X) := by
    intro X
    have := blockSizes_ok (fun n => ((P.strip n).data (P.h / 6)).length) (List.replicate ((16 - (sizeBytes P).length % 16) % 16) 0 ++ X)
      (fun n => data_len (P.strip n) hP.bits _ (by have := hP.height; omega)) (List.range P.strips)
    rw [List.length_range] at this
    rw [fill16, List.append_assoc]
    exact this
  have hsum : (sizes P).sum = (stripBytes P).length := by
    have := sizes_take P P.strips (Nat.le_refl _)
    rw [List.take_of_length_le (by unfold sizes; rw [List.length_map, List.length_range])] at this
    exact this
  have hfile : P.file ++ X = P.header ++ (fill16 (sizeBytes P) ++ (qBytes P ++ (stripBytes P ++ List.replicate 16 0 ++ X))) := by
    rw [file_eq]
    simp only [List.append_assoc]
  rw [hfile, parseHeader_ok hP, ok_bind]
  simp only
  rw [isValid_ok hP, ok_bind]
  simp only [Bool.not_true, Bool.false_eq_true, if_false]
  rw [show ((P.w == (headOf P).rawWidth) && (P.h == (headOf P).rawHeight)) = true by simp [headOf], assert', if_pos rfl, ok_bind, e1, ok_bind, hcfa]
  simp only [Bool.false_eq_true, if_false]
  rw [show (headOf P).blocksInRow = P.strips from rfl, hsz, ok_bind]
  simp only
  have hq : (if (headOf P).lossless = 1 then Except.ok (none, 16 + pad16 (P.strips * 4)) else do
      let q ← slice (P.header ++ (fill16 (sizeBytes P) ++ (qBytes P ++ (stripBytes P ++ List.replicate 16 0 ++ X)))) (16 + pad16 (P.strips * 4))
        (16 + pad16 (P.strips * 4) + P.strips * pad16 (headOf P).totalLines)
      .ok (some q, 16 + pad16 (P.strips * 4) + P.strips * pad16 (headOf P).totalLines) : R (Option (List Nat) × Nat)) =
      .ok (if P.lossless then none else some (qBytes P), start P) := by
    cases hl : P.lossless with
    | true =>
      rw [if_pos (by simp [headOf, hl])]
      unfold start qBytes
      rw [hl]
      rfl
    | false =>
      rw [if_neg (by simp [headOf, hl])]
      have hql := qBytes_len P hl
      rw [show (headOf P).totalLines = P.h / 6 from rfl, ← hql, ← List.append_assoc P.header,
        slice_mid (P.header ++ fill16 (sizeBytes P)) (qBytes P) (stripBytes P ++ List.replicate 16 0 ++ X) _ _
          (by rw [List.length_append, header_len, fill16_len, sizeBytes_len]) (by rw [List.length_append, header_len, fill16_len, sizeBytes_len]), ok_bind]
      rfl
  rw [hq, ok_bind]
  simp only
  rw [← hfile, strips_end, hsum, List.length_append, file_len, usub, if_pos (by omega), ok_bind, assert', if_neg (by simp; omega)]
  rfl

/-- Reading also panics when anything follows the strips. -/
theorem fuji_trailing_panics (P : Picture) (hP : P.Good) (order : List Nat) (X : List Nat) (hX : X ≠ []) :
    decompressFuji order (P.file ++ X) P.w P.h P.cfa = panic' := by
  unfold decompressFuji
  rw [prepare_tail P hP X (by cases X <;> simp_all)]
  rfl

/-! ## Examples -/

/-- The usual X-Trans array. -/
def xtransArray (r c : Nat) : Nat :=
  (([[1, 1, 0, 1, 1, 2], [1, 1, 2, 1, 1, 0], [2, 0, 1, 0, 2, 1], [1, 1, 2, 1, 1, 0], [1, 1, 0, 1, 1, 2], [0, 2, 1, 2, 0, 1]] : List (List Nat)).getD r []).getD c 0

/-- Red at the origin of a Bayer array. -/
def bayerArray (r c : Nat) : Nat := if r % 2 = 0 then (if c % 2 = 0 then 0 else 1) else (if c % 2 = 0 then 1 else 2)

theorem xtransArray_layout : Layout true xtransArray := by decide +kernel

theorem bayerArray_layout : Layout false bayerArray := by decide +kernel

/-- Two strips of fourteen bit X-Trans pixels. -/
def samplePicture : Picture where
  b := 14
  xtrans := true
  lossless := true
  w := 792
  h := 12
  cfa := xtransArray
  q := fun _ _ => 0
  px := fun r c => (r * 7919 + c * c * 31) % 16384

theorem samplePicture_good : samplePicture.Good :=
  ⟨.inr (.inl rfl), by decide, by decide, fun r c _ _ => Nat.mod_lt _ (by decide), xtransArray_layout, fun _ _ _ _ => (by decide : (0 : Nat) < 256)⟩

/-- Eight strips of twelve bit Bayer pixels, with errors up to 9. -/
def lossyPicture : Picture where
  b := 12
  xtrans := false
  lossless := false
  w := 6000
  h := 4002
  cfa := bayerArray
  q := fun n t => (n + t) % 10
  px := fun r c => (r * 7919 + c * c * 31) % 4096

theorem lossyPicture_good : lossyPicture.Good :=
  ⟨.inl rfl, by decide, by decide, fun r c _ _ => Nat.mod_lt _ (by decide), bayerArray_layout,
    fun n t _ _ => Nat.lt_trans (Nat.mod_lt _ (by decide)) (by decide)⟩

example : ∃ out, decompressFuji [1, 0] samplePicture.file 792 12 xtransArray = .ok out ∧ out[5 * 792 + 770]? = some ((5 * 7919 + 770 * 770 * 31) % 16384) := by
  obtain ⟨out, h1, h2⟩ := fuji_lossless samplePicture samplePicture_good rfl
  exact ⟨out, h1 [1, 0] (List.Perm.swap 0 1 []), h2.2 5 770 (by decide) (by decide)⟩

example : ∃ out, decompressFuji (List.range 8) lossyPicture.file 6000 4002 bayerArray = .ok out := by
  obtain ⟨out, _, h1, _⟩ := fuji_lossy lossyPicture lossyPicture_good rfl
  exact ⟨out, h1 _ (List.Perm.refl _)⟩

example : decompressFuji [0, 1] samplePicture.file 792 6 xtransArray = panic' :=
  fuji_dimensions_panic samplePicture samplePicture_good [0, 1] 792 6 (Or.inr (by decide))

example : decompressFuji [0, 1] (samplePicture.file ++ [0]) 792 12 xtransArray = panic' :=
  fuji_trailing_panics samplePicture samplePicture_good [0, 1] [0] (by simp)

example : decompressFuji [0] (List.replicate 40 0) 792 12 xtransArray = fail' :=
  fuji_signature [0] 0 0 (List.replicate 38 0) 792 12 xtransArray (by decide) (by decide)

/-- Two bytes of a file, the first the higher. -/
def fujiWord (buf : List Nat) (i : Nat) : Nat := buf.getD i 0 * 256 + buf.getD (i + 1) 0

/-- What the first sixteen bytes of a file must say about a picture of `w` by `h` pixels: the signature, a kind and a number of bits, the picture's size, its width in
strips of 768 pixels and the numbers of strips and of groups of six lines. -/
structure FujiHeaderOf (buf : List Nat) (w h : Nat) : Prop where
  signature : fujiWord buf 0 = 0x4953
  kind : buf.getD 3 0 = 16 ∨ buf.getD 3 0 = 0
  bits : buf.getD 4 0 = 12 ∨ buf.getD 4 0 = 14 ∨ buf.getD 4 0 = 16
  height : fujiWord buf 5 = h
  heightRange : 6 ≤ h ∧ h ≤ 0x3000 ∧ h % 6 = 0
  rounded : fujiWord buf 7 = 768 * buf.getD 13 0
  width : fujiWord buf 9 = w
  widthRange : 768 ≤ w ∧ w ≤ 0x3000 ∧ w % 24 = 0
  block : fujiWord buf 11 = 768
  strips : buf.getD 13 0 = (w + 767) / 768
  groups : fujiWord buf 14 = h / 6

/-- A file that is decoded has a header that agrees with the picture: every other file is refused or makes the program panic. -/
theorem fuji_header (order : List Nat) (buf : List Nat) (w h : Nat) (cfa : Nat → Nat → Nat) (out : List Nat)
    (hd : decompressFuji order buf w h cfa = .ok out) : FujiHeaderOf buf w h := by
  unfold decompressFuji at hd
  cases hp : prepare buf w h cfa with
  | error e => rw [hp] at hd; cases hd
  | ok v =>
    unfold prepare at hp
    cases hq : parseHeader buf with
    | error e => rw [hq] at hp; cases hp
    | ok v =>
      obtain ⟨H, s⟩ := v
      rw [hq, ok_bind] at hp
      simp only at hp
      cases hv : H.isValid with
      | error e => rw [hv] at hp; cases hp
      | ok b =>
        rw [hv, ok_bind] at hp
        cases b with
        | false => cases hp
        | true =>
          simp only [Bool.not_true, Bool.false_eq_true, if_false] at hp
          have hwh : (w == H.rawWidth && h == H.rawHeight) = true := by
            cases hb : (w == H.rawWidth && h == H.rawHeight) with
            | true => rfl
            | false => rw [hb] at hp; cases hp
          simp only [Bool.and_eq_true, beq_iff_eq] at hwh
          obtain ⟨rfl, rfl⟩ := hwh
          have hH : H = ⟨fujiWord buf 0, buf.getD 2 0, buf.getD 3 0, buf.getD 4 0, fujiWord buf 5, fujiWord buf 7, fujiWord buf 9, fujiWord buf 11,
              buf.getD 13 0, fujiWord buf 14⟩ := by
            match buf, hq with
            | a0 :: a1 :: a2 :: a3 :: a4 :: a5 :: a6 :: a7 :: a8 :: a9 :: a10 :: a11 :: a12 :: a13 :: a14 :: a15 :: rest, hq =>
              have := (Except.ok.inj hq)
              exact (congrArg Prod.fst this).symm
          unfold Header.isValid at hv
          split at hv
          · cases hv
          · rename_i h1
            simp only [not_or, not_not, Nat.not_lt, gt_iff_lt] at h1
            obtain ⟨a1, a2, a3, a4, a5, a6, a7, a8, a9, a10, a11⟩ := h1
            unfold usub at hv
            split at hv
            · rw [ok_bind] at hv
              have hv := Except.ok.inj hv
              simp only [Bool.not_eq_true', decide_eq_false_iff_not, not_or, not_and_or, not_not, Nat.not_lt, ge_iff_le, Nat.not_le, gt_iff_lt] at hv
              obtain ⟨b1, b2, b3, b4, b5, b6, b7, b8, b9, b10⟩ := hv
              subst hH
              simp only at a1 a2 a3 a4 a5 a6 a7 a8 a9 a10 a11 b1 b2 b3 b4 b5 b6 b7 b8 b9 b10
              rw [a9] at a10 a11 b1 b4 b5
              refine ⟨a1, by omega, by omega, rfl, ⟨a3, a2, a4⟩, by omega, rfl, ⟨a6, a5, a7⟩, a9, b5, b8⟩
            · cases hv

/-- A code is only used when it stands for one of the differences the table knows. -/
theorem fuji_code_range (pr : Params) (p p' : PumpMSB) (g g' : Grad) (qt : QTable) (c : Int) (hd : readCode pr p g qt = .ok (c, g', p')) :
    -qt.total ≤ 2 * c ∧ 2 * c < qt.total := by
  unfold readCode at hd
  cases h1 : zerobits p with
  | error e => rw [h1] at hd; cases hd
  | ok v =>
    rw [h1, ok_bind] at hd
    simp only at hd
    cases h2 : usub pr.maxBits qt.rawBits with
    | error e => rw [h2] at hd; cases hd
    | ok t =>
      rw [h2, ok_bind] at hd
      cases h3 : usub t 1 with
      | error e => rw [h3] at hd; cases hd
      | ok t' =>
        rw [h3, ok_bind] at hd
        generalize (if v.1 < t' then (do
          let (x, p) ← getBits v.2 (bitDiff g.1 g.2)
          .ok (v.1 * 2 ^ bitDiff g.1 g.2 + x, p) : R (Nat × PumpMSB)) else _) = q at hd
        cases q with
        | error e => cases hd
        | ok q =>
          rw [ok_bind] at hd
          split at hd
          · cases hd
          · rename_i hc
            generalize hcc : (if q.1 % 2 ≠ 0 then -1 - ((q.1 / 2 : Nat) : Int) else ((q.1 / 2 : Nat) : Int)) = cc at hd
            have : cc = c := by
              cases h4 : chkI32 (g.1 + cc.natAbs) with
              | error e => rw [h4] at hd; cases hd
              | ok g0 =>
                rw [h4, ok_bind] at hd
                exact congrArg Prod.fst (Except.ok.inj hd)
            subst this
            rw [← hcc]
            split <;> omega

example : FujiHeaderOf samplePicture.file 792 12 := by
  obtain ⟨out, h1, _⟩ := fuji_lossless samplePicture samplePicture_good rfl
  exact fuji_header _ _ _ _ _ out (h1 (List.range samplePicture.strips) (List.Perm.refl _))

end Verif.Props
