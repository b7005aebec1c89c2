import Verif.Proofs.Jpeg
import Mathlib.Tactic.Ring
/-! # Lossless JPEG files of any writer: the scan -/

namespace Verif.Ljpeg
open Verif Verif.Pumps Verif.Spec Verif.Spec.Jpeg

/-- A loop that reads one code after the other. -/
theorem forN_read {σ : Type} (f : Nat → σ → R σ) (c : Nat → List Bool) (I : Nat → σ → Prop) (rep : σ → List Bool → Prop)
    (n : Nat) (hstep : ∀ k s rest, k < n → I k s → rep s (c k ++ rest) → ∃ s', f k s = .ok s' ∧ I (k + 1) s' ∧ rep s' rest)
    (s : σ) (rest : List Bool) (h0 : I 0 s) (hr : rep s ((List.range n).flatMap c ++ rest)) :
    ∃ s', forN n f s = .ok s' ∧ I n s' ∧ rep s' rest := by
  obtain ⟨s', e, i, r⟩ := forN_inv n f (fun k s => I k s ∧ rep s ((List.range' k (n - k)).flatMap c ++ rest)) s
    ⟨h0, by rw [Nat.sub_zero, ← List.range_eq_range']; exact hr⟩ (by
      rintro k s hk ⟨i, r⟩
      rw [show n - k = (n - (k + 1)) + 1 by omega, List.range'_succ, List.flatMap_cons, List.append_assoc] at r
      obtain ⟨s', e, i', r'⟩ := hstep k s _ hk i r
      exact ⟨s', e, i', r'⟩)
  rw [Nat.sub_self] at r
  exact ⟨s', e, i, by simpa using r⟩

theorem asU16_diff16 (x : Nat) (p : Int) (h : x < 65536) : asU16 (p + diff16 (x - p)) = x := by
  unfold asU16 diff16; omega

theorem diff16_range (a : Int) : -32768 ≤ diff16 a ∧ diff16 a ≤ 32767 := by unfold diff16; omega

/-- The window the samples are written to: `w` columns of `n` samples, from column `x` of lines of `sw` samples. -/
structure Win where
  n : Nat
  w : Nat
  h : Nat
  x : Nat
  sw : Nat

namespace Win
/-- Samples in a line of the window. -/
def W (v : Win) : Nat := v.w * v.n
/-- Where sample `i` of the window goes. -/
def pos (v : Win) (i : Nat) : Nat := i / v.W * v.sw + v.x + i % v.W
/-- The value of sample `i` of the window. -/
def X (v : Win) (px : Nat → Nat → Nat → Nat) (i : Nat) : Nat := px (i / v.W) (i % v.W / v.n) (i % v.W % v.n)

theorem pos_raster (v : Win) {r i : Nat} (hi : i < v.W) : v.pos (r * v.W + i) = r * v.sw + v.x + i := by
  have hr : (r * v.W + i) / v.W = r ∧ (r * v.W + i) % v.W = i := by
    rw [Nat.mul_comm]
    exact ⟨by rw [Nat.mul_add_div (by omega), Nat.div_eq_of_lt hi]; rfl, by rw [Nat.mul_add_mod, Nat.mod_eq_of_lt hi]⟩
  rw [pos, hr.1, hr.2]

theorem X_raster (v : Win) (px : Nat → Nat → Nat → Nat) {r q k : Nat} (hq : q < v.w) (hk : k < v.n) :
    v.X px (r * v.W + (q * v.n + k)) = px r q k := by
  have hi : q * v.n + k < v.W := by
    have : (q + 1) * v.n ≤ v.w * v.n := Nat.mul_le_mul_right _ hq
    rw [Nat.add_mul, Nat.one_mul] at this
    simp only [W]; omega
  have hr : (r * v.W + (q * v.n + k)) / v.W = r ∧ (r * v.W + (q * v.n + k)) % v.W = q * v.n + k := by
    rw [Nat.mul_comm]
    exact ⟨by rw [Nat.mul_add_div (by omega), Nat.div_eq_of_lt hi]; rfl, by rw [Nat.mul_add_mod, Nat.mod_eq_of_lt hi]⟩
  have hs : (q * v.n + k) / v.n = q ∧ (q * v.n + k) % v.n = k := by
    rw [Nat.mul_comm]
    exact ⟨by rw [Nat.mul_add_div (by omega), Nat.div_eq_of_lt hk]; rfl, by rw [Nat.mul_add_mod, Nat.mod_eq_of_lt hk]⟩
  rw [X, hr.1, hr.2, hs.1, hs.2]
end Win

/-- The first `j` samples of the window are written, the rest of the buffer is as it was. -/
structure Done (v : Win) (px : Nat → Nat → Nat → Nat) (out0 : List Nat) (j : Nat) (out : List Nat) : Prop where
  len : out.length = out0.length
  done : ∀ i, i < j → out[v.pos i]? = some (v.X px i)
  rest : ∀ m, (∀ i, i < j → v.pos i ≠ m) → out[m]? = out0[m]?

theorem Done.step {v : Win} {px : Nat → Nat → Nat → Nat} {out0 out : List Nat} {j : Nat} (h : Done v px out0 j out)
    (hl : v.pos j < out0.length) (hinj : ∀ i, i < j → v.pos i ≠ v.pos j) :
    Done v px out0 (j + 1) (out.set (v.pos j) (v.X px j)) where
  len := by rw [List.length_set]; exact h.len
  done := by
    intro i hi
    rw [List.getElem?_set]
    by_cases hij : i = j
    · rw [hij, if_pos rfl, if_pos (by rw [h.len]; exact hl)]
    · rw [if_neg (fun he => hinj i (by omega) he.symm)]; exact h.done i (by omega)
  rest := by
    intro m hm
    rw [List.getElem?_set, if_neg (hm j (by omega))]
    exact h.rest m fun i hi => hm i (by omega)

/-- What is needed of the file, the window and the samples. -/
structure SCtx (F : Frame) (T : Nat → Table) (bug : Bool) (pred pt : Nat) (data : List Nat) (d : Dec) (v : Win)
    (px : Nat → Nat → Nat → Nat) (out0 : List Nat) : Prop where
  frame : F.Ok
  dec : DecFor F T bug pred pt data d
  n : v.n = F.comps.length
  p1 : 1 ≤ pred
  p7 : pred ≤ 7
  pt_lt : pt < F.prec
  w1 : 1 ≤ v.w
  w2 : v.w ≤ F.width
  h1 : 1 ≤ v.h
  h2 : v.h ≤ F.height
  sw : v.x + v.W ≤ v.sw
  room : (v.h - 1) * v.sw + v.x + v.W ≤ out0.length
  u16 : ∀ r c k, r < v.h → c < v.w → k < v.n → px r c k < 65536
  cat : ∀ r c k, r < v.h → c < F.width → k < v.n → catOf (delta pred (2 ^ (F.prec - pt - 1) : Nat) px r c k) ∈ (T k).vals

section
variable {F : Frame} {T : Nat → Table} {bug : Bool} {pred pt : Nat} {data : List Nat} {d : Dec} {v : Win}
  {px : Nat → Nat → Nat → Nat} {out0 : List Nat}

/-- The base value. -/
abbrev baseOf (F : Frame) (pt : Nat) : Int := ((2 ^ (F.prec - pt - 1) : Nat) : Int)

theorem SCtx.n1 (h : SCtx F T bug pred pt data d v px out0) : 1 ≤ v.n := by rw [h.n]; exact h.frame.n.1

theorem SCtx.comps (h : SCtx F T bug pred pt data d v px out0) : d.sof.components.length = v.n := by
  rw [h.dec.comps, List.length_map, h.n]

theorem SCtx.col (h : SCtx F T bug pred pt data d v px out0) {q k : Nat} (hq : q < v.w) (hk : k < v.n) : q * v.n + k < v.W := by
  have : (q + 1) * v.n ≤ v.w * v.n := Nat.mul_le_mul_right _ hq
  rw [Nat.add_mul, Nat.one_mul] at this
  simp only [Win.W]; omega

/-- Window positions stay in the buffer and do not meet. -/
theorem SCtx.pos_lt (h : SCtx F T bug pred pt data d v px out0) {r i : Nat} (hr : r < v.h) (hi : i < v.W) :
    v.pos (r * v.W + i) < out0.length := by
  rw [v.pos_raster hi]
  have h1 : r * v.sw ≤ (v.h - 1) * v.sw := Nat.mul_le_mul_right _ (by omega)
  have := h.room
  omega

theorem SCtx.pos_lt_pos (h : SCtx F T bug pred pt data d v px out0) {i j : Nat} (hij : i < j) : v.pos i < v.pos j := by
  have hn := h.n1
  have hW : 0 < v.W := Nat.mul_pos (by have := h.w1; omega) (by omega)
  have hs := h.sw
  have d1 := Nat.div_add_mod i v.W
  have d2 := Nat.div_add_mod j v.W
  have m1 := Nat.mod_lt i hW
  have m2 := Nat.mod_lt j hW
  have hle : i / v.W ≤ j / v.W := Nat.div_le_div_right (by omega)
  simp only [Win.pos]
  by_cases he : i / v.W = j / v.W
  · rw [he] at d1 ⊢; omega
  · have : (i / v.W + 1) * v.sw ≤ j / v.W * v.sw := Nat.mul_le_mul_right _ (by omega)
    rw [Nat.add_mul, Nat.one_mul] at this
    omega

theorem SCtx.decode (h : SCtx F T bug pred pt data d v px out0) {r c k : Nat} (hr : r < v.h) (hc : c < F.width) (hk : k < v.n)
    {p : PumpJPEG} {rest : List Bool} (hp : p.Rep ((T k).code bug (delta pred (baseOf F pt) px r c k) ++ rest)) :
    ∃ t p', d.htable k = .ok t ∧ huffDecode t p = .ok (delta pred (baseOf F pt) px r c k, p') ∧ p'.Rep rest := by
  obtain ⟨t, t1, t2⟩ := h.dec.tabs k (by rw [← h.n]; exact hk)
  have hd := diff16_range (px r c k - expected pred (baseOf F pt) px r c k)
  obtain ⟨p', e, q⟩ := t2.decode hd.1 hd.2 (h.cat r c k hr hc hk) hp
  exact ⟨t, p', t1, e, q⟩

theorem SCtx.predict (h : SCtx F T bug pred pt data d v px out0) {row q k : Nat} (hr : row < v.h) (hq : q < v.w) (hk : k < v.n)
    (hne : ¬ (row = 0 ∧ q = 0)) {out : List Nat} (hd : Done v px out0 (row * v.W + (q * v.n + k)) out) :
    decPredict pred v.n v.x v.sw out row (v.x + q * v.n) k = .ok (expected pred (baseOf F pt) px row q k) := by
  have hn := h.n1
  have hp1 := h.p1
  have hp7 := h.p7
  have hi := h.col hq hk
  have hat : ∀ r c, c < v.w → r * v.W + (c * v.n + k) < row * v.W + (q * v.n + k) →
      idx out (r * v.sw + (v.x + c * v.n + k)) = .ok (px r c k) := by
    intro r c hc hlt
    have := hd.done _ hlt
    rw [v.pos_raster (h.col hc hk), v.X_raster px hc hk] at this
    rw [idx, show r * v.sw + (v.x + c * v.n + k) = r * v.sw + v.x + (c * v.n + k) by omega, this]
  have hprev : ∀ c, c < v.w → 0 < row → (row - 1) * v.W + (c * v.n + k) < row * v.W + (q * v.n + k) := by
    intro c hc hr
    have h1 : (row - 1) * v.W + v.W = row * v.W := by
      rw [← Nat.add_one_mul]; congr 1; omega
    have := h.col hc hk
    omega
  have hneq : pred = 1 ∨ pred = 2 ∨ pred = 3 ∨ pred = 4 ∨ pred = 5 ∨ pred = 6 ∨ pred = 7 := by omega
  unfold decPredict
  by_cases hq0 : q = 0
  · subst hq0
    have hr0 : row ≠ 0 := fun h => hne ⟨h, rfl⟩
    have := hat (row - 1) 0 hq (hprev 0 hq (by omega))
    simp only [Nat.zero_mul, Nat.add_zero] at this ⊢
    rw [if_pos trivial, if_neg hr0]
    simp only [this, bind, Except.bind, expected]
    rw [if_pos trivial, if_neg hr0]
  · have hqn : v.n ≤ q * v.n := Nat.le_mul_of_pos_left _ (by omega)
    have hq1 : q * v.n - v.n = (q - 1) * v.n := by rw [Nat.sub_mul, Nat.one_mul]
    have hleft : idx out (row * v.sw + (v.x + q * v.n - v.n + k)) = .ok (px row (q - 1) k) := by
      rw [show v.x + q * v.n - v.n = v.x + (q - 1) * v.n by omega]
      exact hat row (q - 1) (by omega) (by omega)
    rw [if_neg (by omega), if_neg (by omega)]
    by_cases hr0 : row = 0
    · rw [if_pos (Or.inl hr0)]
      simp only [hleft]
      subst hr0
      simp only [bind, Except.bind, expected]
      rw [if_neg hq0, if_pos trivial]
    · have hup := hat (row - 1) q hq (hprev q hq (by omega))
      have hul : idx out ((row - 1) * v.sw + (v.x + q * v.n - v.n + k)) = .ok (px (row - 1) (q - 1) k) := by
        rw [show v.x + q * v.n - v.n = v.x + (q - 1) * v.n by omega]
        exact hat (row - 1) (q - 1) (by omega) (hprev (q - 1) (by omega) (by omega))
      simp only [bind, Except.bind, hleft, hup, hul, expected, if_neg hr0, if_neg hq0]
      rcases hneq with hp | hp | hp | hp | hp | hp | hp <;> simp [hp, predictor, hr0]

/-- The bits of one column of a row. -/
abbrev colBits (F : Frame) (T : Nat → Table) (bug : Bool) (pred pt n : Nat) (px : Nat → Nat → Nat → Nat) (r c : Nat) : List Bool :=
  (List.range n).flatMap fun k => (T k).code bug (delta pred (baseOf F pt) px r c k)

/-- The bits of a row from a column on. -/
abbrev rowBits (F : Frame) (T : Nat → Table) (bug : Bool) (pred pt n : Nat) (px : Nat → Nat → Nat → Nat) (r q0 : Nat) : List Bool :=
  (List.range' q0 (F.width - q0)).flatMap (colBits F T bug pred pt n px r)

/-- The samples below `j` are written, and these bits are left. -/
def SRep (st : List Nat × PumpJPEG) (bits : List Bool) : Prop := st.2.Rep bits

theorem SCtx.sample (h : SCtx F T bug pred pt data d v px out0) {row q k : Nat} (hr : row < v.h) (hq : q < v.w) (hk : k < v.n)
    (hne : ¬ (row = 0 ∧ q = 0)) (st : List Nat × PumpJPEG) (rest : List Bool)
    (hd : Done v px out0 (row * v.W + (q * v.n + k)) st.1)
    (hp : SRep st ((T k).code bug (delta pred (baseOf F pt) px row q k) ++ rest)) :
    ∃ st', decSample d v.x v.sw row (v.x + q * v.n) k st = .ok st' ∧ Done v px out0 (row * v.W + (q * v.n + k) + 1) st'.1 ∧
      SRep st' rest := by
  obtain ⟨out, pump⟩ := st
  have hi := h.col hq hk
  obtain ⟨t, p', e1, e2, r2⟩ := h.decode hr (Nat.lt_of_lt_of_le hq h.w2) hk hp
  have hpred := h.predict hr hq hk hne hd
  have hlt := h.pos_lt hr hi
  have hpos := v.pos_raster (r := row) hi
  refine ⟨(out.set (v.pos (row * v.W + (q * v.n + k))) (v.X px (row * v.W + (q * v.n + k))), p'), ?_, ?_, r2⟩
  · simp only [decSample, h.dec.pred, h.comps, hpred, bind, Except.bind, e1, e2]
    rw [show row * v.sw + (v.x + q * v.n) + k = v.pos (row * v.W + (q * v.n + k)) by rw [hpos]; omega,
      upd_lt _ _ _ (by have := hd.len; simp only at this; omega)]
    simp only [delta]
    rw [asU16_diff16 _ _ (h.u16 _ _ _ hr hq hk), v.X_raster px hq hk]
  · exact hd.step hlt fun i hi => Nat.ne_of_lt (h.pos_lt_pos hi)

theorem SCtx.row (h : SCtx F T bug pred pt data d v px out0) {row : Nat} (hr : row < v.h) (q0 : Nat)
    (hq0 : q0 = if row = 0 then 1 else 0) (st : List Nat × PumpJPEG) (rest : List Bool)
    (hd : Done v px out0 (row * v.W + q0 * v.n) st.1) (hp : SRep st (rowBits F T bug pred pt v.n px row q0 ++ rest)) :
    ∃ st', decRow d v.x v.sw v.W row st = .ok st' ∧ Done v px out0 ((row + 1) * v.W) st'.1 ∧ SRep st' rest := by
  have hn := h.n1
  have hw1 := h.w1
  have hw2 := h.w2
  have hq0w : q0 ≤ v.w := by rw [hq0]; split <;> omega
  have hstart : (if row = 0 then v.x + v.n else v.x) = v.x + q0 * v.n := by
    rw [hq0]; split <;> simp
  have hcols : (v.W + v.x - (v.x + q0 * v.n) + (v.n - 1)) / v.n = v.w - q0 := by
    have : v.W + v.x - (v.x + q0 * v.n) = (v.w - q0) * v.n := by rw [Nat.sub_mul, Win.W]; omega
    rw [this, Nat.mul_comm, Nat.mul_add_div (by omega), Nat.div_eq_of_lt (by omega)]; rfl
  -- the bits of the columns wanted, and of the others
  have hsplit : rowBits F T bug pred pt v.n px row q0 =
      (List.range (v.w - q0)).flatMap (fun k => colBits F T bug pred pt v.n px row (q0 + k)) ++
      (List.range (F.width - v.w)).flatMap (fun k => colBits F T bug pred pt v.n px row (v.w + k)) := by
    rw [rowBits, show F.width - q0 = (v.w - q0) + (F.width - v.w) by omega, ← List.range'_append, List.flatMap_append,
      List.range'_eq_map_range, List.range'_eq_map_range, List.flatMap_map, List.flatMap_map,
      show q0 + 1 * (v.w - q0) = v.w by omega]
  rw [hsplit, List.append_assoc] at hp
  obtain ⟨st1, f1, g1, r1⟩ := forN_read
    (fun k st => forN v.n (fun c st => decSample d v.x v.sw row (v.x + q0 * v.n + k * v.n) c st) st)
    (fun k => colBits F T bug pred pt v.n px row (q0 + k))
    (fun k st => Done v px out0 (row * v.W + (q0 + k) * v.n) st.1) SRep (v.w - q0) (by
      intro k s rest' hk hs hrep
      have hcol : v.x + q0 * v.n + k * v.n = v.x + (q0 + k) * v.n := by ring
      obtain ⟨s', f2, g2, r2⟩ := forN_read (fun c st => decSample d v.x v.sw row (v.x + q0 * v.n + k * v.n) c st)
        (fun c => (T c).code bug (delta pred (baseOf F pt) px row (q0 + k) c))
        (fun c st => Done v px out0 (row * v.W + ((q0 + k) * v.n + c)) st.1) SRep v.n (by
          intro c s2 rest2 hc hs2 hr2
          rw [hcol]
          exact h.sample hr (by omega) hc (by
            rintro ⟨h0, h1⟩
            rw [hq0, if_pos h0] at h1; omega) s2 rest2 hs2 hr2) s rest' hs hrep
      refine ⟨s', f2, ?_, r2⟩
      have : row * v.W + (q0 + (k + 1)) * v.n = row * v.W + ((q0 + k) * v.n + v.n) := by ring
      rw [this]; exact g2) st _ (by simpa using hd) hp
  obtain ⟨st2, f3, g3, r3⟩ := forN_read
    (fun _ st => forN v.n (fun c st => decSkip d c st) st)
    (fun k => colBits F T bug pred pt v.n px row (v.w + k))
    (fun _ st => Done v px out0 ((row + 1) * v.W) st.1) SRep (F.width - v.w) (by
      intro k s rest' hk hs hrep
      exact forN_read (fun c st => decSkip d c st)
        (fun c => (T c).code bug (delta pred (baseOf F pt) px row (v.w + k) c))
        (fun c st => Done v px out0 ((row + 1) * v.W) st.1) SRep v.n (by
          rintro c ⟨out, pump⟩ rest2 hc hs2 hr2
          obtain ⟨t, p', e1, e2, q2⟩ := h.decode hr (by omega) hc hr2
          refine ⟨(out, p'), ?_, hs2, q2⟩
          simp only [decSkip, e1, e2, bind, Except.bind]) s rest' hs hrep) st1 rest (by
      have : row * v.W + (q0 + (v.w - q0)) * v.n = (row + 1) * v.W := by
        rw [show q0 + (v.w - q0) = v.w by omega, Nat.add_mul, Nat.one_mul]; rfl
      rw [← this]; exact g1) r1
  have hskip : usub d.sof.width (v.W / v.n) = .ok (F.width - v.w) := by
    rw [h.dec.width, show v.W / v.n = v.w from Nat.mul_div_cancel _ (by omega), usub, if_pos hw2]
  refine ⟨st2, ?_, g3, r3⟩
  simp only [decRow, h.comps, hstart, hcols, f1, bind, Except.bind, hskip, f3]

/-- The plain decoder writes the samples of the window. -/
theorem SCtx.scan (h : SCtx F T bug pred pt data d v px out0) (hb : IsBytes data) (he : ProperEnd data) (rest : List Bool)
    (hdata : bitsOf data = Verif.Spec.Jpeg.scan T bug v.n F.width v.h pred (baseOf F pt) px ++ rest) :
    ∃ out, decodeLjpeg d out0 v.x v.sw v.W v.h = .ok out ∧ Done v px out0 (v.h * v.W) out := by
  have hn := h.n1
  have hw1 := h.w1
  have hw2 := h.w2
  have hh1 := h.h1
  have hh2 := h.h2
  have hpt := h.pt_lt
  have hrep := PumpJPEG.rep_new data hb he
  rw [show bytesMSB (unstuff data) = _ from hdata] at hrep
  -- row by row, the first column of the first row apart
  obtain ⟨rowsBits, hrows⟩ : ∃ l, l = fun r => rowBits F T bug pred pt v.n px r (if r = 0 then 1 else 0) := ⟨_, rfl⟩
  have hbits : Verif.Spec.Jpeg.scan T bug v.n F.width v.h pred (baseOf F pt) px =
      colBits F T bug pred pt v.n px 0 0 ++ (List.range v.h).flatMap rowsBits := by
    obtain ⟨m, hm⟩ : ∃ m, v.h = m + 1 := ⟨v.h - 1, by omega⟩
    obtain ⟨w', hw'⟩ : ∃ w', F.width = w' + 1 := ⟨F.width - 1, by omega⟩
    rw [Verif.Spec.Jpeg.scan, hm, List.range_succ_eq_map, List.flatMap_cons, List.flatMap_cons, ← List.append_assoc]
    congr 1
    · rw [hrows]
      simp only [rowBits, hw', if_pos]
      rw [show List.range (w' + 1) = 0 :: List.range' 1 w' by rw [List.range_eq_range', List.range'_succ], List.flatMap_cons]
      rfl
    · rw [List.flatMap_map, List.flatMap_map, hrows]
      simp only [Nat.succ_ne_zero, if_false, rowBits, Nat.sub_zero, ← List.range_eq_range']
  rw [hbits, List.append_assoc] at hrep
  have hnW : v.n ≤ v.W := Nat.le_mul_of_pos_left _ hw1
  obtain ⟨st0, f0, g0, r0⟩ := forN_read (fun c (st : List Nat × PumpJPEG) => do
      let (out, pump) := st
      let t ← d.htable c
      let (diff, pump) ← huffDecode t pump
      let out ← upd out (v.x + c) (asU16 (baseOf F pt + diff))
      (.ok (out, pump) : R (List Nat × PumpJPEG)))
    (fun k => (T k).code bug (delta pred (baseOf F pt) px 0 0 k)) (fun c st => Done v px out0 c st.1) SRep v.n (by
      rintro c ⟨out, pump⟩ rest' hc hd hr
      obtain ⟨t, p', e1, e2, q2⟩ := h.decode (r := 0) (c := 0) (by omega) (by omega) hc hr
      have hX := v.X_raster px (r := 0) (q := 0) (k := c) (by omega) hc
      have hP := v.pos_raster (r := 0) (i := c) (by omega)
      have hL := h.pos_lt (r := 0) (i := c) (by omega) (by omega)
      simp only [Nat.zero_mul, Nat.zero_add] at hX hP hL
      refine ⟨(out.set (v.pos c) (v.X px c), p'), ?_, hd.step hL fun i hi => Nat.ne_of_lt (h.pos_lt_pos hi), q2⟩
      simp only [e1, bind, Except.bind, e2]
      rw [← hP, upd_lt _ _ _ (by have := hd.len; simp only at this; omega), hX]
      simp only [delta, expected, if_true]
      rw [asU16_diff16 _ _ (h.u16 _ _ _ (by omega) (by omega) hc)]) (out0, PumpJPEG.new data)
      ((List.range v.h).flatMap rowsBits ++ rest) ⟨rfl, by omega, by simp⟩ hrep
  obtain ⟨st1, f1, g1, _⟩ := forN_read (fun row st => decRow d v.x v.sw v.W row st) rowsBits
    (fun r st => Done v px out0 (r * v.W + (if r = 0 then 1 else 0) * v.n) st.1) SRep v.h (by
      intro row s rest' hrow hd hr
      rw [hrows] at hr
      obtain ⟨s', f, g, r⟩ := h.row hrow _ rfl s rest' hd hr
      exact ⟨s', f, by rw [if_neg (by omega)]; simpa using g, r⟩) st0 rest (by simpa using g0) r0
  rw [if_neg (by omega)] at g1
  refine ⟨st1.1, ?_, by simpa using g1⟩
  rw [decodeLjpeg]
  simp only [h.comps]
  rw [if_neg (by omega), if_neg (by
    rw [h.dec.width, h.dec.height]
    have := Nat.mul_le_mul_right v.n hw2
    simp only [Win.W]; omega), if_neg (by rw [h.dec.prec, h.dec.pt]; omega)]
  rw [h.dec.prec, h.dec.pt, h.dec.buffer, Nat.one_shiftLeft, f0]
  simp only [bind, Except.bind, f1]

end

end Verif.Ljpeg
