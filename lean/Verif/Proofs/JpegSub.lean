import Verif.Proofs.JpegScan
import Verif.Spec.JpegSub
/-! # Lossless JPEG scans with fewer colour samples -/

namespace Verif.Ljpeg
open Verif Verif.Pumps Verif.Spec Verif.Spec.Jpeg

theorem addHuff_ok {bug : Bool} {T : Table} {t : HuffTable} (h : ReadsT bug T t) {v p : Nat} (hv : v < 65536)
    (h1 : -32768 ≤ (v : Int) - p) (h2 : (v : Int) - p ≤ 32767) (hc : catOf ((v : Int) - p) ∈ T.vals) {pump : PumpJPEG}
    {rest : List Bool} (hr : pump.Rep (T.code bug ((v : Int) - p) ++ rest)) :
    ∃ pump', addHuff t (p : Int) pump = .ok ((v : Int), pump') ∧ pump'.Rep rest := by
  obtain ⟨p', e, r⟩ := h.decode h1 h2 hc hr
  refine ⟨p', ?_, r⟩
  have hk : chkI32 ((p : Int) + ((v : Int) - p)) = .ok (v : Int) := by
    rw [show (p : Int) + ((v : Int) - p) = v by omega, chkI32, if_pos (by omega)]
  simp only [addHuff, e, bind, Except.bind, hk]

/-- Pixel `p` of the buffer has these three samples. -/
def At (out : List Nat) (p a b c : Nat) : Prop := out[3 * p]? = some a ∧ out[3 * p + 1]? = some b ∧ out[3 * p + 2]? = some c

theorem asU16_nat {v : Nat} (h : v < 65536) : asU16 (v : Int) = v := by unfold asU16; omega

theorem setPix_ok {out : List Nat} {p a b c : Nat} (hp : 3 * p + 2 < out.length) (ha : a < 65536) (hb : b < 65536) (hc : c < 65536) :
    ∃ out', setPix out (3 * p) (a : Int) (b : Int) (c : Int) = .ok out' ∧ out'.length = out.length ∧ At out' p a b c ∧
      ∀ q x y z, q ≠ p → At out q x y z → At out' q x y z := by
  refine ⟨((out.set (3 * p) a).set (3 * p + 1) b).set (3 * p + 2) c, ?_, by simp, ?_, ?_⟩
  · rw [setPix, assert', if_pos (decide_eq_true (by omega))]
    simp only [bind, Except.bind, asU16_nat ha, asU16_nat hb, asU16_nat hc]
    rw [upd_lt _ _ _ (by omega)]
    simp only
    rw [upd_lt _ _ _ (by simp; omega)]
    simp only
    rw [upd_lt _ _ _ (by simp; omega)]
  · refine ⟨?_, ?_, ?_⟩ <;> simp only [List.getElem?_set, List.length_set]
    · rw [if_neg (by omega), if_neg (by omega), if_pos trivial, if_pos (by omega)]
    · rw [if_neg (by omega), if_pos trivial, if_pos (by omega)]
    · rw [if_pos trivial, if_pos (by omega)]
  · rintro q x y z hq ⟨h1, h2, h3⟩
    refine ⟨?_, ?_, ?_⟩ <;> simp only [List.getElem?_set] <;>
      rw [if_neg (by omega), if_neg (by omega), if_neg (by omega)] <;> assumption

theorem triple_ok {out : List Nat} {p a b c : Nat} (h : At out p a b c) : triple out (3 * p) = .ok ((a : Int), (b : Int), (c : Int)) := by
  obtain ⟨h1, h2, h3⟩ := h
  simp only [triple, idx, h1, h2, h3, bind, Except.bind]

/-- What is needed of the file and the picture. -/
structure SubCtx (s : Sub) (F : Frame) (T : Nat → Table) (bug : Bool) (pred pt : Nat) (data : List Nat) (d : Dec) (bw bh : Nat)
    (p : SubPic) : Prop where
  frame : F.Ok
  dec : DecFor F T bug pred pt data d
  n : F.comps.length = 3
  pt_lt : pt < F.prec
  w : F.width = 2 * bw
  h : F.height = s.rows * bh
  fits : ∀ R C, R < bh → C < bw → ∀ t ∈ s.samples (2 ^ (F.prec - pt - 1)) p R C,
    t.2.1 < 65536 ∧ -32768 ≤ (t.2.1 : Int) - t.2.2 ∧ (t.2.1 : Int) - t.2.2 ≤ 32767 ∧ catOf ((t.2.1 : Int) - t.2.2) ∈ (T t.1).vals

/-- All blocks before block `(R, C)` are written. -/
structure Blocks (s : Sub) (p : SubPic) (w h R C : Nat) (out : List Nat) : Prop where
  len : out.length = 3 * (w * h)
  done : ∀ r c, r < h → c < w → (r / s.rows < R ∨ (r / s.rows = R ∧ c / 2 < C)) →
    At out (r * w + c) (p.y r c) (p.cb (r / s.rows) (c / 2)) (p.cr (r / s.rows) (c / 2))

theorem Blocks.next {s : Sub} {p : SubPic} {w h R bw : Nat} {out : List Nat} (hw : w = 2 * bw) (hb : Blocks s p w h R bw out) :
    Blocks s p w h (R + 1) 0 out where
  len := hb.len
  done := by
    intro r c hr hc hd
    refine hb.done r c hr hc ?_
    rcases hd with hd | ⟨_, hd⟩
    · by_cases h1 : r / s.rows < R
      · exact Or.inl h1
      · exact Or.inr ⟨by omega, by omega⟩
    · omega

section
variable {s : Sub} {F : Frame} {T : Nat → Table} {bug : Bool} {pred pt : Nat} {data : List Nat} {d : Dec} {bw bh : Nat} {p : SubPic}

/-- The loop over the blocks, the first one apart. -/
theorem blocks_loop (s : Sub) (T : Nat → Table) (bug : Bool) (base : Nat) (p : SubPic) (w h bw bh : Nat) (hw : w = 2 * bw) (hbw : 1 ≤ bw)
    (f : Nat → Nat → List Nat × PumpJPEG → R (List Nat × PumpJPEG))
    (hstep : ∀ R C, R < bh → C < bw → ¬ (R = 0 ∧ C = 0) → ∀ st rest, Blocks s p w h R C st.1 →
      SRep st (s.code T bug base p R C ++ rest) →
      ∃ st', f R (6 * C) st = .ok st' ∧ Blocks s p w h R (C + 1) st'.1 ∧ SRep st' rest)
    (st : List Nat × PumpJPEG) (rest : List Bool) (h0 : Blocks s p w h 0 1 st.1)
    (hr : SRep st ((List.range bh).flatMap (fun R => (List.range' (if R = 0 then 1 else 0) (bw - if R = 0 then 1 else 0)).flatMap
      fun C => s.code T bug base p R C) ++ rest)) (hbh : 1 ≤ bh) :
    ∃ st', forN bh (fun R st => forN (steps6 (if R = 0 then 6 else 0) (3 * w)) (fun k st =>
      f R ((if R = 0 then 6 else 0) + 6 * k) st) st) st = .ok st' ∧ Blocks s p w h bh 0 st'.1 := by
  obtain ⟨st', e, g, _⟩ := forN_read (fun R st => forN (steps6 (if R = 0 then 6 else 0) (3 * w)) (fun k st =>
      f R ((if R = 0 then 6 else 0) + 6 * k) st) st)
    (fun R => (List.range' (if R = 0 then 1 else 0) (bw - if R = 0 then 1 else 0)).flatMap fun C => s.code T bug base p R C)
    (fun R st => Blocks s p w h R (if R = 0 then 1 else 0) st.1) SRep bh (by
      intro R st rest' hR hb hrep
      obtain ⟨q0, hq0⟩ : ∃ q0, q0 = if R = 0 then 1 else 0 := ⟨_, rfl⟩
      have hq1 : q0 ≤ 1 := by rw [hq0]; split <;> omega
      have hcol : (if R = 0 then 6 else 0) = 6 * q0 := by rw [hq0]; split <;> rfl
      have hsteps : steps6 (6 * q0) (3 * w) = bw - q0 := by unfold steps6; omega
      simp only [hcol, hsteps]
      rw [← hq0] at hb hrep
      rw [List.range'_eq_map_range, List.flatMap_map] at hrep
      obtain ⟨st', e, g, r⟩ := forN_read (fun k st => f R (6 * q0 + 6 * k) st) (fun k => s.code T bug base p R (q0 + k))
        (fun k st => Blocks s p w h R (q0 + k) st.1) SRep (bw - q0) (by
          intro k st1 rest1 hk hb1 hr1
          rw [show 6 * q0 + 6 * k = 6 * (q0 + k) by omega]
          exact hstep R (q0 + k) hR (by omega) (by
            rintro ⟨h1, h2⟩
            rw [if_pos h1] at hq0; omega) st1 rest1 hb1 hr1) st rest' (by simpa using hb) hrep
      rw [show q0 + (bw - q0) = bw by omega] at g
      exact ⟨st', e, by rw [if_neg (by omega)]; exact g.next hw, r⟩) st rest (by simpa using h0) hr
  rw [if_neg (by omega)] at g
  exact ⟨st', e, g⟩

theorem Sub.scan_split (s : Sub) (T : Nat → Table) (bug : Bool) (bw bh base : Nat) (p : SubPic) (hbw : 1 ≤ bw) (hbh : 1 ≤ bh) :
    s.scan T bug bw bh base p = s.code T bug base p 0 0 ++
      (List.range bh).flatMap (fun R => (List.range' (if R = 0 then 1 else 0) (bw - if R = 0 then 1 else 0)).flatMap
        fun C => s.code T bug base p R C) := by
  obtain ⟨m, rfl⟩ : ∃ m, bh = m + 1 := ⟨bh - 1, by omega⟩
  obtain ⟨w', hw'⟩ : ∃ w', bw = w' + 1 := ⟨bw - 1, by omega⟩
  rw [Sub.scan, List.range_succ_eq_map, List.flatMap_cons, List.flatMap_cons, ← List.append_assoc]
  congr 1
  · simp only [if_pos, hw']
    rw [show List.range (w' + 1) = 0 :: List.range' 1 w' by rw [List.range_eq_range', List.range'_succ], List.flatMap_cons]
    rfl
  · rw [List.flatMap_map, List.flatMap_map]
    simp only [Nat.succ_ne_zero, if_false, Nat.sub_zero, ← List.range_eq_range']

/-! ### one block -/

theorem lt_pix {w h r c : Nat} (hr : r < h) (hc : c < w) : 3 * (r * w + c) + 2 < 3 * (w * h) := by
  have : (r + 1) * w ≤ h * w := Nat.mul_le_mul_right _ hr
  rw [Nat.add_mul, Nat.one_mul, Nat.mul_comm h w] at this
  omega

theorem pix_inj {w r c r' c' : Nat} (hc : c < w) (hc' : c' < w) (h : r * w + c = r' * w + c') : r = r' ∧ c = c' := by
  have h1 : (w * r + c) / w = r := by rw [Nat.mul_add_div (by omega), Nat.div_eq_of_lt hc]; rfl
  have h2 : (w * r' + c') / w = r' := by rw [Nat.mul_add_div (by omega), Nat.div_eq_of_lt hc']; rfl
  have h3 : (w * r + c) % w = c := by rw [Nat.mul_add_mod, Nat.mod_eq_of_lt hc]
  have h4 : (w * r' + c') % w = c' := by rw [Nat.mul_add_mod, Nat.mod_eq_of_lt hc']
  rw [Nat.mul_comm r w, Nat.mul_comm r' w] at h
  rw [h] at h1 h3
  exact ⟨by omega, by omega⟩

theorem yuv422_ok {p : SubPic} {w h R C bw : Nat} (hw : w = 2 * bw) (hR : R < h) (hC : C < bw) {out : List Nat}
    (hb : Blocks .two p w h R C out) (hy : ∀ j, j < 2 → p.y R (2 * C + j) < 65536) (hcb : p.cb R C < 65536) (hcr : p.cr R C < 65536) :
    ∃ out', setYuv422 out R (6 * C) (3 * w) (p.y R (2 * C)) (p.y R (2 * C + 1)) (p.cb R C) (p.cr R C) = .ok out' ∧
      Blocks .two p w h R (C + 1) out' := by
  have hl := hb.len
  have h1 := lt_pix (w := w) hR (c := 2 * C) (by omega)
  have h2 := lt_pix (w := w) hR (c := 2 * C + 1) (by omega)
  obtain ⟨o1, e1, l1, a1, k1⟩ := setPix_ok (out := out) (p := R * w + 2 * C) (by omega) (hy 0 (by omega)) hcb hcr
  obtain ⟨o2, e2, l2, a2, k2⟩ := setPix_ok (out := o1) (p := R * w + (2 * C + 1)) (by omega) (hy 1 (by omega)) hcb hcr
  refine ⟨o2, ?_, by omega, ?_⟩
  · have q1 : R * (3 * w) + 6 * C = 3 * (R * w + 2 * C) := by ring
    have q2 : R * (3 * w) + 6 * C + 3 = 3 * (R * w + (2 * C + 1)) := by ring
    simp only [setYuv422, q2]
    rw [q1]
    rw [Nat.add_zero] at e1
    simp only [e1, bind, Except.bind, e2]
  · intro r c hr hc hd
    simp only [Sub.rows, Nat.div_one] at hd ⊢
    by_cases hrc : r = R ∧ c / 2 = C
    · obtain ⟨rfl, hcC⟩ := hrc
      rcases Nat.mod_two_eq_zero_or_one c with hm | hm
      · have : c = 2 * C := by omega
        subst this
        rw [hcC]
        exact k2 _ _ _ _ (by omega) a1
      · have : c = 2 * C + 1 := by omega
        subst this
        rw [hcC]
        exact a2
    · have hold := hb.done r c hr hc (by simp only [Sub.rows, Nat.div_one]; omega)
      simp only [Sub.rows, Nat.div_one] at hold
      have n1 : r * w + c ≠ R * w + 2 * C := fun he => by
        obtain ⟨x1, x2⟩ := pix_inj hc (by omega) he
        exact hrc ⟨x1, by omega⟩
      have n2 : r * w + c ≠ R * w + (2 * C + 1) := fun he => by
        obtain ⟨x1, x2⟩ := pix_inj hc (by omega) he
        exact hrc ⟨x1, by omega⟩
      exact k2 _ _ _ _ n2 (k1 _ _ _ _ n1 hold)

theorem yuv420_ok {s : Sub} (hs : s.rows = 2) {p : SubPic} {w h R C bw : Nat} (hw : w = 2 * bw) (hR : 2 * R + 1 < h) (hC : C < bw) {out : List Nat}
    (hb : Blocks s p w h R C out) (hy : ∀ i j, i < 2 → j < 2 → p.y (2 * R + i) (2 * C + j) < 65536) (hcb : p.cb R C < 65536)
    (hcr : p.cr R C < 65536) :
    ∃ out', setYuv420 out (2 * R) (6 * C) (3 * w) (p.y (2 * R) (2 * C)) (p.y (2 * R) (2 * C + 1)) (p.y (2 * R + 1) (2 * C))
      (p.y (2 * R + 1) (2 * C + 1)) (p.cb R C) (p.cr R C) = .ok out' ∧ Blocks s p w h R (C + 1) out' := by
  have hl := hb.len
  have h1 := lt_pix (w := w) (show 2 * R < h by omega) (c := 2 * C) (by omega)
  have h2 := lt_pix (w := w) (show 2 * R < h by omega) (c := 2 * C + 1) (by omega)
  have h3 := lt_pix (w := w) hR (c := 2 * C) (by omega)
  have h4 := lt_pix (w := w) hR (c := 2 * C + 1) (by omega)
  obtain ⟨o1, e1, l1, a1, k1⟩ := setPix_ok (out := out) (p := 2 * R * w + 2 * C) (by omega) (hy 0 0 (by omega) (by omega)) hcb hcr
  obtain ⟨o2, e2, l2, a2, k2⟩ := setPix_ok (out := o1) (p := 2 * R * w + (2 * C + 1)) (by omega) (hy 0 1 (by omega) (by omega)) hcb hcr
  obtain ⟨o3, e3, l3, a3, k3⟩ := setPix_ok (out := o2) (p := (2 * R + 1) * w + 2 * C) (by omega) (hy 1 0 (by omega) (by omega)) hcb hcr
  obtain ⟨o4, e4, l4, a4, k4⟩ := setPix_ok (out := o3) (p := (2 * R + 1) * w + (2 * C + 1)) (by omega) (hy 1 1 (by omega) (by omega)) hcb hcr
  refine ⟨o4, ?_, by omega, ?_⟩
  · have q1 : 2 * R * (3 * w) + 6 * C = 3 * (2 * R * w + 2 * C) := by ring
    have q2 : 2 * R * (3 * w) + 6 * C + 3 = 3 * (2 * R * w + (2 * C + 1)) := by ring
    have q3 : (2 * R + 1) * (3 * w) + 6 * C = 3 * ((2 * R + 1) * w + 2 * C) := by ring
    have q4 : (2 * R + 1) * (3 * w) + 6 * C + 3 = 3 * ((2 * R + 1) * w + (2 * C + 1)) := by ring
    simp only [setYuv420, q2, q4]
    rw [q1, q3]
    simp only [Nat.add_zero] at e1 e2 e3 e4
    simp only [e1, bind, Except.bind, e2, e3, e4]
  · intro r c hr hc hd
    rw [hs] at hd ⊢
    have hw1 : 2 * R * w + w = (2 * R + 1) * w := by ring
    by_cases hrc : r / 2 = R ∧ c / 2 = C
    · obtain ⟨hrR, hcC⟩ := hrc
      rw [hrR, hcC]
      rcases Nat.mod_two_eq_zero_or_one r with hm' | hm' <;> rcases Nat.mod_two_eq_zero_or_one c with hm | hm
      · have e1 : c = 2 * C := by omega
        have e2 : r = 2 * R := by omega
        subst e1; subst e2
        exact k4 _ _ _ _ (by omega) (k3 _ _ _ _ (by omega) (k2 _ _ _ _ (by omega) a1))
      · have e1 : c = 2 * C + 1 := by omega
        have e2 : r = 2 * R := by omega
        subst e1; subst e2
        exact k4 _ _ _ _ (by omega) (k3 _ _ _ _ (by omega) a2)
      · have e1 : c = 2 * C := by omega
        have e2 : r = 2 * R + 1 := by omega
        subst e1; subst e2
        exact k4 _ _ _ _ (by omega) a3
      · have e1 : c = 2 * C + 1 := by omega
        have e2 : r = 2 * R + 1 := by omega
        subst e1; subst e2
        exact a4
    · have hold := hb.done r c hr hc (by rw [hs]; omega)
      rw [hs] at hold
      have n : ∀ i j, i < 2 → j < 2 → r * w + c ≠ (2 * R + i) * w + (2 * C + j) := fun i j hi hj he => by
        obtain ⟨x1, x2⟩ := pix_inj hc (by omega) he
        exact hrc ⟨by omega, by omega⟩
      exact k4 _ _ _ _ (n 1 1 (by omega) (by omega)) (k3 _ _ _ _ (n 1 0 (by omega) (by omega))
        (k2 _ _ _ _ (n 0 1 (by omega) (by omega)) (k1 _ _ _ _ (n 0 0 (by omega) (by omega)) hold)))

/-- The tables of the three components. -/
theorem SubCtx.tables (h : SubCtx s F T bug pred pt data d bw bh p) :
    ∃ t1 t2 t3, d.tables3 = .ok (t1, t2, t3) ∧ ReadsT bug (T 0) t1 ∧ ReadsT bug (T 1) t2 ∧ ReadsT bug (T 2) t3 := by
  have hn := h.n
  obtain ⟨t1, e1, r1⟩ := h.dec.tabs 0 (by omega)
  obtain ⟨t2, e2, r2⟩ := h.dec.tabs 1 (by omega)
  obtain ⟨t3, e3, r3⟩ := h.dec.tabs 2 (by omega)
  exact ⟨t1, t2, t3, by simp only [Dec.tables3, e1, e2, e3, bind, Except.bind], r1, r2, r3⟩

/-- The base value as a number. -/
abbrev baseN (F : Frame) (pt : Nat) : Nat := 2 ^ (F.prec - pt - 1)

/-! ### two pixels side by side -/

theorem block422_ok (h : SubCtx .two F T bug pred pt data d bw bh p) {t1 t2 t3 : HuffTable} (r1 : ReadsT bug (T 0) t1)
    (r2 : ReadsT bug (T 1) t2) (r3 : ReadsT bug (T 2) t3) {R C : Nat} (hR : R < bh) (hC : C < bw) (st : List Nat × PumpJPEG)
    (rest : List Bool) (hb : Blocks .two p F.width F.height R C st.1)
    (hr : SRep st (Sub.two.code T bug (baseN F pt) p R C ++ rest)) :
    ∃ st', block422 t1 t2 t3 R (6 * C) (3 * F.width) (before (baseN F pt) R C (p.y (R - 1) 0) (p.y R (2 * C - 1)) : Nat)
      (before (baseN F pt) R C (p.cb (R - 1) 0) (p.cb R (C - 1)) : Nat) (before (baseN F pt) R C (p.cr (R - 1) 0) (p.cr R (C - 1)) : Nat)
      st = .ok st' ∧ Blocks .two p F.width F.height R (C + 1) st'.1 ∧ SRep st' rest := by
  obtain ⟨out, pump⟩ := st
  have hh := h.h
  simp only [Sub.rows, Nat.one_mul] at hh
  have hf := h.fits R C hR hC
  simp only [Sub.samples, List.cons_append, List.nil_append, List.forall_mem_cons] at hf
  obtain ⟨⟨a1, a2, a3, a4⟩, ⟨b1, b2, b3, b4⟩, ⟨c1, c2, c3, c4⟩, ⟨d1, d2, d3, d4⟩, _⟩ := hf
  simp only [SRep, Sub.code, Sub.samples, List.cons_append, List.nil_append, List.flatMap_cons, List.flatMap_nil, List.append_nil,
    List.append_assoc] at hr
  obtain ⟨p1, e1, q1⟩ := addHuff_ok r1 a1 a2 a3 a4 hr
  obtain ⟨p2, e2, q2⟩ := addHuff_ok r1 b1 b2 b3 b4 q1
  obtain ⟨p3, e3, q3⟩ := addHuff_ok r2 c1 c2 c3 c4 q2
  obtain ⟨p4, e4, q4⟩ := addHuff_ok r3 d1 d2 d3 d4 q3
  obtain ⟨out', e5, q5⟩ := yuv422_ok (h := F.height) h.w (by omega) hC hb (by
    intro j hj
    match j with
    | 0 => exact a1
    | 1 => exact b1
    | j + 2 => omega) c1 d1
  refine ⟨(out', p4), ?_, q5, q4⟩
  simp only [block422, e1, e2, e3, e4, e5, bind, Except.bind]

theorem step422_ok (h : SubCtx .two F T bug pred pt data d bw bh p) {t1 t2 t3 : HuffTable} (r1 : ReadsT bug (T 0) t1)
    (r2 : ReadsT bug (T 1) t2) (r3 : ReadsT bug (T 2) t3) {R C : Nat} (hR : R < bh) (hC : C < bw) (hne : ¬ (R = 0 ∧ C = 0))
    (st : List Nat × PumpJPEG) (rest : List Bool) (hb : Blocks .two p F.width F.height R C st.1)
    (hr : SRep st (Sub.two.code T bug (baseN F pt) p R C ++ rest)) :
    ∃ st', (do
      let pos ← pos422 R (6 * C) (3 * F.width)
      let (py, pcb, pcr) ← triple st.1 pos
      block422 t1 t2 t3 R (6 * C) (3 * F.width) py pcb pcr st) = .ok st' ∧ Blocks .two p F.width F.height R (C + 1) st'.1 ∧
      SRep st' rest := by
  obtain ⟨st', e, q⟩ := block422_ok h r1 r2 r3 hR hC st rest hb hr
  refine ⟨st', ?_, q⟩
  have hw := h.w
  have hh := h.h
  simp only [Sub.rows, Nat.one_mul] at hh
  by_cases hC0 : C = 0
  · subst hC0
    have hat := hb.done (R - 1) 0 (by omega) (by omega) (Or.inl (by simp only [Sub.rows, Nat.div_one]; omega))
    simp only [Sub.rows, Nat.div_one, Nat.zero_div, Nat.add_zero] at hat
    have ht := triple_ok hat
    have hpos : pos422 R (6 * 0) (3 * F.width) = .ok (3 * ((R - 1) * F.width)) := by
      rw [pos422, if_pos (by omega), usub, if_pos (by omega)]
      simp only [bind, Except.bind]
      congr 1
      ring
    simp only [before, if_true, if_neg (show ¬ R = 0 by omega)] at e
    simp only [hpos, ht, bind, Except.bind]
    exact e
  · have hat := hb.done R (2 * C - 1) (by omega) (by omega) (Or.inr ⟨by simp only [Sub.rows, Nat.div_one], by omega⟩)
    simp only [Sub.rows, Nat.div_one, show (2 * C - 1) / 2 = C - 1 by omega] at hat
    have ht := triple_ok hat
    have hpos : pos422 R (6 * C) (3 * F.width) = .ok (3 * (R * F.width + (2 * C - 1))) := by
      rw [pos422, if_neg (by omega), usub, if_pos (by omega)]
      congr 1
      rw [show R * (3 * F.width) = 3 * (R * F.width) by ring]
      omega
    simp only [before, if_neg hC0] at e
    simp only [hpos, ht, bind, Except.bind]
    exact e

theorem SubCtx.decode422 (h : SubCtx .two F T bug pred pt data d bw bh p) (hb : IsBytes data) (he : ProperEnd data) (rest : List Bool)
    (hdata : bitsOf data = Sub.two.scan T bug bw bh (baseN F pt) p ++ rest) (out0 : List Nat) (hl : out0.length = 3 * (F.width * F.height)) :
    ∃ out, decode422 d out0 (3 * F.width) F.height = .ok out ∧ Blocks .two p F.width F.height bh 0 out := by
  have hw := h.w
  have hh := h.h
  simp only [Sub.rows, Nat.one_mul] at hh
  have hw1 := h.frame.w.1
  have hh1 := h.frame.h.1
  have hpt := h.pt_lt
  obtain ⟨t1, t2, t3, e3, r1, r2, r3⟩ := h.tables
  have hrep := PumpJPEG.rep_new data hb he
  rw [show bytesMSB (unstuff data) = _ from hdata, Sub.scan_split _ _ _ _ _ _ _ (by omega) (by omega), List.append_assoc] at hrep
  obtain ⟨st0, f0, g0, q0⟩ := block422_ok h r1 r2 r3 (R := 0) (C := 0) (by omega) (by omega) (out0, PumpJPEG.new data) _
    ⟨hl, by intro r c _ _ hd; rcases hd with hd | ⟨_, hd⟩ <;> exact absurd hd (Nat.not_lt_zero _)⟩ hrep
  simp only [before, if_true] at f0
  obtain ⟨st1, f1, g1⟩ := blocks_loop .two T bug (baseN F pt) p F.width F.height bw bh hw (by omega)
    (fun row col st => do
      let pos ← pos422 row col (3 * F.width)
      let (py, pcb, pcr) ← triple st.1 pos
      block422 t1 t2 t3 row col (3 * F.width) py pcb pcr st)
    (fun R C hR hC hne st rest hb hr => step422_ok h r1 r2 r3 hR hC hne st rest hb hr) st0 rest g0 q0 (by omega)
  refine ⟨st1.1, ?_, g1⟩
  rw [Ljpeg.decode422, if_neg (by rw [h.dec.width, h.dec.height]; omega)]
  simp only [e3, bind, Except.bind]
  rw [if_neg (by rw [h.dec.prec, h.dec.pt]; omega)]
  simp only [h.dec.prec, h.dec.pt, h.dec.buffer, Nat.one_shiftLeft]
  simp only [f0]
  rw [← hh] at f1
  simp only [bind, Except.bind] at f1
  simp only [f1]

/-! ### two by two pixels, Canon -/

theorem block420_ok (h : SubCtx .canonFour F T bug pred pt data d bw bh p) {t1 t2 t3 : HuffTable} (r1 : ReadsT bug (T 0) t1)
    (r2 : ReadsT bug (T 1) t2) (r3 : ReadsT bug (T 2) t3) {R C : Nat} (hR : R < bh) (hC : C < bw) (st : List Nat × PumpJPEG)
    (rest : List Bool) (hb : Blocks .canonFour p F.width F.height R C st.1)
    (hr : SRep st (Sub.canonFour.code T bug (baseN F pt) p R C ++ rest)) :
    ∃ st', block420 t1 t2 t3 (2 * R) (6 * C) (3 * F.width)
      (before (baseN F pt) R C (p.y (2 * (R - 1)) 0) (p.y (2 * R + 1) (2 * C - 1)) : Nat)
      (before (baseN F pt) R C (p.cb (R - 1) 0) (p.cb R (C - 1)) : Nat) (before (baseN F pt) R C (p.cr (R - 1) 0) (p.cr R (C - 1)) : Nat)
      st = .ok st' ∧ Blocks .canonFour p F.width F.height R (C + 1) st'.1 ∧ SRep st' rest := by
  obtain ⟨out, pump⟩ := st
  have hh := h.h
  simp only [Sub.rows] at hh
  have hf := h.fits R C hR hC
  simp only [Sub.samples, List.cons_append, List.nil_append, List.forall_mem_cons] at hf
  obtain ⟨⟨a1, a2, a3, a4⟩, ⟨b1, b2, b3, b4⟩, ⟨x1, x2, x3, x4⟩, ⟨y1, y2, y3, y4⟩, ⟨c1, c2, c3, c4⟩, ⟨d1, d2, d3, d4⟩, _⟩ := hf
  simp only [SRep, Sub.code, Sub.samples, List.cons_append, List.nil_append, List.flatMap_cons, List.flatMap_nil, List.append_nil,
    List.append_assoc] at hr
  obtain ⟨p1, e1, q1⟩ := addHuff_ok r1 a1 a2 a3 a4 hr
  obtain ⟨p2, e2, q2⟩ := addHuff_ok r1 b1 b2 b3 b4 q1
  obtain ⟨px, ex, qx⟩ := addHuff_ok r1 x1 x2 x3 x4 q2
  obtain ⟨py, ey, qy⟩ := addHuff_ok r1 y1 y2 y3 y4 qx
  obtain ⟨p3, e3, q3⟩ := addHuff_ok r2 c1 c2 c3 c4 qy
  obtain ⟨p4, e4, q4⟩ := addHuff_ok r3 d1 d2 d3 d4 q3
  obtain ⟨out', e5, q5⟩ := yuv420_ok (s := .canonFour) rfl (h := F.height) h.w (by omega) hC hb (by
    intro i j hi hj
    match i, j with
    | 0, 0 => exact a1
    | 0, 1 => exact b1
    | 1, 0 => exact x1
    | 1, 1 => exact y1
    | i + 2, _ => omega
    | _, j + 2 => omega) c1 d1
  refine ⟨(out', p4), ?_, q5, q4⟩
  simp only [block420, e1, e2, ex, ey, e3, e4, e5, bind, Except.bind]

theorem step420_ok (h : SubCtx .canonFour F T bug pred pt data d bw bh p) {t1 t2 t3 : HuffTable} (r1 : ReadsT bug (T 0) t1)
    (r2 : ReadsT bug (T 1) t2) (r3 : ReadsT bug (T 2) t3) {R C : Nat} (hR : R < bh) (hC : C < bw) (hne : ¬ (R = 0 ∧ C = 0))
    (st : List Nat × PumpJPEG) (rest : List Bool) (hb : Blocks .canonFour p F.width F.height R C st.1)
    (hr : SRep st (Sub.canonFour.code T bug (baseN F pt) p R C ++ rest)) :
    ∃ st', (do
      let pos ← pos420 (2 * R) (6 * C) (3 * F.width)
      let (py, pcb, pcr) ← triple st.1 pos
      block420 t1 t2 t3 (2 * R) (6 * C) (3 * F.width) py pcb pcr st) = .ok st' ∧ Blocks .canonFour p F.width F.height R (C + 1) st'.1 ∧
      SRep st' rest := by
  obtain ⟨st', e, q⟩ := block420_ok h r1 r2 r3 hR hC st rest hb hr
  refine ⟨st', ?_, q⟩
  have hw := h.w
  have hh := h.h
  simp only [Sub.rows] at hh
  by_cases hC0 : C = 0
  · subst hC0
    have hat := hb.done (2 * (R - 1)) 0 (by omega) (by omega) (Or.inl (by simp only [Sub.rows]; omega))
    simp only [Sub.rows, show 2 * (R - 1) / 2 = R - 1 by omega, Nat.zero_div, Nat.add_zero] at hat
    have ht := triple_ok hat
    have hpos : pos420 (2 * R) (6 * 0) (3 * F.width) = .ok (3 * (2 * (R - 1) * F.width)) := by
      rw [pos420, if_pos (by omega), usub, if_pos (by omega)]
      simp only [bind, Except.bind]
      congr 1
      rw [show 2 * R - 2 = 2 * (R - 1) by omega]
      ring
    simp only [before, if_true, if_neg (show ¬ R = 0 by omega)] at e
    simp only [hpos, ht, bind, Except.bind]
    exact e
  · have hat := hb.done (2 * R + 1) (2 * C - 1) (by omega) (by omega) (Or.inr (by simp only [Sub.rows]; omega))
    simp only [Sub.rows, show (2 * R + 1) / 2 = R by omega, show (2 * C - 1) / 2 = C - 1 by omega] at hat
    have ht := triple_ok hat
    have hpos : pos420 (2 * R) (6 * C) (3 * F.width) = .ok (3 * ((2 * R + 1) * F.width + (2 * C - 1))) := by
      rw [pos420, if_neg (by omega), usub, if_pos (by omega)]
      congr 1
      rw [show (2 * R + 1) * (3 * F.width) = 3 * ((2 * R + 1) * F.width) by ring]
      omega
    simp only [before, if_neg hC0] at e
    simp only [hpos, ht, bind, Except.bind]
    exact e

theorem SubCtx.decode420 (h : SubCtx .canonFour F T bug pred pt data d bw bh p) (hb : IsBytes data) (he : ProperEnd data) (rest : List Bool)
    (hdata : bitsOf data = Sub.canonFour.scan T bug bw bh (baseN F pt) p ++ rest) (out0 : List Nat)
    (hl : out0.length = 3 * (F.width * F.height)) :
    ∃ out, decode420 d out0 (3 * F.width) F.height = .ok out ∧ Blocks .canonFour p F.width F.height bh 0 out := by
  have hw := h.w
  have hh := h.h
  simp only [Sub.rows] at hh
  have hw1 := h.frame.w.1
  have hh1 := h.frame.h.1
  have hpt := h.pt_lt
  obtain ⟨t1, t2, t3, e3, r1, r2, r3⟩ := h.tables
  have hrep := PumpJPEG.rep_new data hb he
  rw [show bytesMSB (unstuff data) = _ from hdata, Sub.scan_split _ _ _ _ _ _ _ (by omega) (by omega), List.append_assoc] at hrep
  obtain ⟨st0, f0, g0, q0⟩ := block420_ok h r1 r2 r3 (R := 0) (C := 0) (by omega) (by omega) (out0, PumpJPEG.new data) _
    ⟨hl, by intro r c _ _ hd; rcases hd with hd | ⟨_, hd⟩ <;> exact absurd hd (Nat.not_lt_zero _)⟩ hrep
  simp only [before, if_true] at f0
  obtain ⟨st1, f1, g1⟩ := blocks_loop .canonFour T bug (baseN F pt) p F.width F.height bw bh hw (by omega)
    (fun row col st => do
      let pos ← pos420 (2 * row) col (3 * F.width)
      let (py, pcb, pcr) ← triple st.1 pos
      block420 t1 t2 t3 (2 * row) col (3 * F.width) py pcb pcr st)
    (fun R C hR hC hne st rest hb hr => step420_ok h r1 r2 r3 hR hC hne st rest hb hr) st0 rest g0 q0 (by omega)
  refine ⟨st1.1, ?_, g1⟩
  rw [Ljpeg.decode420, if_neg (by rw [h.dec.width, h.dec.height]; omega), assert', if_pos (decide_eq_true (by omega))]
  simp only [e3, bind, Except.bind]
  rw [if_neg (by rw [h.dec.prec, h.dec.pt]; omega)]
  simp only [h.dec.prec, h.dec.pt, h.dec.buffer, Nat.one_shiftLeft]
  simp only [f0, show (F.height + 1) / 2 = bh by omega]
  simp only [bind, Except.bind] at f1
  have h2 : ∀ R : Nat, (2 * R = 0) = (R = 0) := fun R => by simp
  simp only [h2, f1]

/-! ### two by two pixels, Sony -/

theorem blockSony_ok (h : SubCtx .sonyFour F T bug pred pt data d bw bh p) {t1 t2 t3 : HuffTable} (r1 : ReadsT bug (T 0) t1)
    (r2 : ReadsT bug (T 1) t2) (r3 : ReadsT bug (T 2) t3) {R C : Nat} (hR : R < bh) (hC : C < bw) (st : List Nat × PumpJPEG)
    (rest : List Bool) (hb : Blocks .sonyFour p F.width F.height R C st.1)
    (hr : SRep st (Sub.sonyFour.code T bug (baseN F pt) p R C ++ rest)) :
    ∃ st', blockSony t1 t2 t3 (2 * R) (6 * C) (3 * F.width)
      (before (baseN F pt) R C (p.y (2 * (R - 1)) 0) (p.y (2 * R) (2 * C - 1)) : Nat)
      (if C = 0 then none else some ((p.y (2 * R + 1) (2 * C - 1) : Nat) : Int))
      (before (baseN F pt) R C (p.cb (R - 1) 0) (p.cb R (C - 1)) : Nat) (before (baseN F pt) R C (p.cr (R - 1) 0) (p.cr R (C - 1)) : Nat)
      st = .ok st' ∧ Blocks .sonyFour p F.width F.height R (C + 1) st'.1 ∧ SRep st' rest := by
  obtain ⟨out, pump⟩ := st
  have hh := h.h
  simp only [Sub.rows] at hh
  have hf := h.fits R C hR hC
  simp only [Sub.samples, List.cons_append, List.nil_append, List.forall_mem_cons] at hf
  obtain ⟨⟨a1, a2, a3, a4⟩, ⟨b1, b2, b3, b4⟩, ⟨x1, x2, x3, x4⟩, ⟨y1, y2, y3, y4⟩, ⟨c1, c2, c3, c4⟩, ⟨d1, d2, d3, d4⟩, _⟩ := hf
  simp only [SRep, Sub.code, Sub.samples, List.cons_append, List.nil_append, List.flatMap_cons, List.flatMap_nil, List.append_nil,
    List.append_assoc] at hr
  obtain ⟨p1, e1, q1⟩ := addHuff_ok r1 a1 a2 a3 a4 hr
  obtain ⟨p2, e2, q2⟩ := addHuff_ok r1 b1 b2 b3 b4 q1
  obtain ⟨px, ex, qx⟩ := addHuff_ok r1 x1 x2 x3 x4 q2
  obtain ⟨py, ey, qy⟩ := addHuff_ok r1 y1 y2 y3 y4 qx
  obtain ⟨p3, e3, q3⟩ := addHuff_ok r2 c1 c2 c3 c4 qy
  obtain ⟨p4, e4, q4⟩ := addHuff_ok r3 d1 d2 d3 d4 q3
  obtain ⟨out', e5, q5⟩ := yuv420_ok (s := .sonyFour) rfl (h := F.height) h.w (by omega) hC hb (by
    intro i j hi hj
    match i, j with
    | 0, 0 => exact a1
    | 0, 1 => exact b1
    | 1, 0 => exact x1
    | 1, 1 => exact y1
    | i + 2, _ => omega
    | _, j + 2 => omega) c1 d1
  refine ⟨(out', p4), ?_, q5, q4⟩
  have hy3 : (if C = 0 then none else some ((p.y (2 * R + 1) (2 * C - 1) : Nat) : Int)).getD ((p.y (2 * R) (2 * C) : Nat) : Int) =
      ((if C = 0 then p.y (2 * R) 0 else p.y (2 * R + 1) (2 * C - 1) : Nat) : Int) := by
    by_cases hC0 : C = 0
    · simp [hC0]
    · simp [hC0]
  simp only [blockSony, e1, e2, bind, Except.bind]
  rw [hy3]
  simp only [ex, ey, e3, e4, e5]

theorem stepSony_ok (h : SubCtx .sonyFour F T bug pred pt data d bw bh p) {t1 t2 t3 : HuffTable} (r1 : ReadsT bug (T 0) t1)
    (r2 : ReadsT bug (T 1) t2) (r3 : ReadsT bug (T 2) t3) {R C : Nat} (hR : R < bh) (hC : C < bw) (hne : ¬ (R = 0 ∧ C = 0))
    (st : List Nat × PumpJPEG) (rest : List Bool) (hb : Blocks .sonyFour p F.width F.height R C st.1)
    (hr : SRep st (Sub.sonyFour.code T bug (baseN F pt) p R C ++ rest)) :
    ∃ st', (do
      let (py1, py3, pcb, pcr) ← priorSony st.1 (2 * R) (6 * C) (3 * F.width)
      blockSony t1 t2 t3 (2 * R) (6 * C) (3 * F.width) py1 py3 pcb pcr st) = .ok st' ∧
        Blocks .sonyFour p F.width F.height R (C + 1) st'.1 ∧ SRep st' rest := by
  obtain ⟨st', e, q⟩ := blockSony_ok h r1 r2 r3 hR hC st rest hb hr
  refine ⟨st', ?_, q⟩
  have hw := h.w
  have hh := h.h
  simp only [Sub.rows] at hh
  by_cases hC0 : C = 0
  · subst hC0
    have hat := hb.done (2 * (R - 1)) 0 (by omega) (by omega) (Or.inl (by simp only [Sub.rows]; omega))
    simp only [Sub.rows, show 2 * (R - 1) / 2 = R - 1 by omega, Nat.zero_div, Nat.add_zero] at hat
    have ht := triple_ok hat
    have hpos : priorSony st.1 (2 * R) (6 * 0) (3 * F.width) = .ok (((p.y (2 * (R - 1)) 0 : Nat) : Int), none,
        ((p.cb (R - 1) 0 : Nat) : Int), ((p.cr (R - 1) 0 : Nat) : Int)) := by
      rw [priorSony, if_pos (by omega), usub, if_pos (by omega)]
      simp only [bind, Except.bind]
      rw [show (2 * R - 2) * (3 * F.width) = 3 * (2 * (R - 1) * F.width) by
        rw [show 2 * R - 2 = 2 * (R - 1) by omega]; ring, ht]
    simp only [before, if_true, if_neg (show ¬ R = 0 by omega)] at e
    simp only [hpos, bind, Except.bind]
    exact e
  · have hat := hb.done (2 * R) (2 * C - 1) (by omega) (by omega) (Or.inr (by simp only [Sub.rows]; omega))
    simp only [Sub.rows, show (2 * R) / 2 = R by omega, show (2 * C - 1) / 2 = C - 1 by omega] at hat
    have ht := triple_ok hat
    have hat3 := hb.done (2 * R + 1) (2 * C - 1) (by omega) (by omega) (Or.inr (by simp only [Sub.rows]; omega))
    have hpos : priorSony st.1 (2 * R) (6 * C) (3 * F.width) = .ok (((p.y (2 * R) (2 * C - 1) : Nat) : Int),
        some ((p.y (2 * R + 1) (2 * C - 1) : Nat) : Int), ((p.cb R (C - 1) : Nat) : Int), ((p.cr R (C - 1) : Nat) : Int)) := by
      rw [priorSony, if_neg (by omega), usub, if_pos (by omega), usub, if_pos (by omega)]
      simp only [bind, Except.bind]
      rw [show 2 * R * (3 * F.width) + 6 * C - 3 = 3 * (2 * R * F.width + (2 * C - 1)) by
        rw [show 2 * R * (3 * F.width) = 3 * (2 * R * F.width) by ring]; omega, ht]
      simp only
      rw [show (2 * R + 1) * (3 * F.width) + 6 * C - 3 = 3 * ((2 * R + 1) * F.width + (2 * C - 1)) by
        rw [show (2 * R + 1) * (3 * F.width) = 3 * ((2 * R + 1) * F.width) by ring]; omega, idx, hat3.1]
    simp only [before, if_neg hC0] at e
    simp only [hpos, bind, Except.bind]
    exact e

theorem SubCtx.decodeSony420 (h : SubCtx .sonyFour F T bug pred pt data d bw bh p) (hb : IsBytes data) (he : ProperEnd data) (rest : List Bool)
    (hdata : bitsOf data = Sub.sonyFour.scan T bug bw bh (baseN F pt) p ++ rest) (out0 : List Nat)
    (hl : out0.length = 3 * (F.width * F.height)) :
    ∃ out, decodeSony420 d out0 (3 * F.width) F.height = .ok out ∧ Blocks .sonyFour p F.width F.height bh 0 out := by
  have hw := h.w
  have hh := h.h
  simp only [Sub.rows] at hh
  have hw1 := h.frame.w.1
  have hh1 := h.frame.h.1
  have hpt := h.pt_lt
  obtain ⟨t1, t2, t3, e3, r1, r2, r3⟩ := h.tables
  have hrep := PumpJPEG.rep_new data hb he
  rw [show bytesMSB (unstuff data) = _ from hdata, Sub.scan_split _ _ _ _ _ _ _ (by omega) (by omega), List.append_assoc] at hrep
  obtain ⟨st0, f0, g0, q0⟩ := blockSony_ok h r1 r2 r3 (R := 0) (C := 0) (by omega) (by omega) (out0, PumpJPEG.new data) _
    ⟨hl, by intro r c _ _ hd; rcases hd with hd | ⟨_, hd⟩ <;> exact absurd hd (Nat.not_lt_zero _)⟩ hrep
  simp only [before, if_true] at f0
  obtain ⟨st1, f1, g1⟩ := blocks_loop .sonyFour T bug (baseN F pt) p F.width F.height bw bh hw (by omega)
    (fun row col st => do
      let (py1, py3, pcb, pcr) ← priorSony st.1 (2 * row) col (3 * F.width)
      blockSony t1 t2 t3 (2 * row) col (3 * F.width) py1 py3 pcb pcr st)
    (fun R C hR hC hne st rest hb hr => stepSony_ok h r1 r2 r3 hR hC hne st rest hb hr) st0 rest g0 q0 (by omega)
  refine ⟨st1.1, ?_, g1⟩
  rw [Ljpeg.decodeSony420, if_neg (by rw [h.dec.width, h.dec.height]; omega), assert', if_pos (decide_eq_true (by omega))]
  simp only [e3, bind, Except.bind]
  rw [if_neg (by rw [h.dec.prec, h.dec.pt]; omega)]
  simp only [h.dec.prec, h.dec.pt, h.dec.buffer, Nat.one_shiftLeft]
  simp only [f0, show (F.height + 1) / 2 = bh by omega]
  simp only [bind, Except.bind] at f1
  have h2 : ∀ R : Nat, (2 * R = 0) = (R = 0) := fun R => by simp
  simp only [h2, f1]

end

end Verif.Ljpeg
