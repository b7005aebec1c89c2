import Verif.Proofs.LjpegHeader
/-! # Decoding what was encoded -/

namespace Verif.Ljpeg
open Verif Verif.Pumps Verif.Spec

/-- Sample with raster index `k` (after the point transform). -/
def Enc.X' (e : Enc) (k : Nat) : Nat := e.X (k / e.W) (k % e.W)

/-- The number of samples. -/
abbrev Enc.N (e : Enc) : Nat := e.height * e.W

/-- Bits of the differences from raster index `j` on. -/
def Enc.B (e : Enc) (tables : List (List Code)) (pad : Nat) (j : Nat) : List Bool :=
  (List.range' j (e.N - j)).flatMap (e.bitsAt tables) ++ List.replicate pad false

theorem Enc.B_step (e : Enc) (tables : List (List Code)) (pad j : Nat) (h : j < e.N) :
    e.B tables pad j = e.bitsAt tables j ++ e.B tables pad (j + 1) := by
  rw [Enc.B, show e.N - j = (e.N - (j + 1)) + 1 by omega, List.range'_succ, List.flatMap_cons, List.append_assoc]
  rfl

/-- The decoder has produced the samples below `j`. -/
structure St (e : Enc) (tables : List (List Code)) (pad : Nat) (j : Nat) (st : List Nat × PumpJPEG) : Prop where
  len : st.1.length = e.N
  done : ∀ k, k < j → st.1[k]? = some (e.X' k)
  pump : PumpJPEG.Rep st.2 (e.B tables pad j)

/-- Everything known after the header. -/
structure Ctx (e : Enc) (tables : List (List Code)) (S : List Nat) (d : Dec) : Prop where
  ok : e.OK
  dec : DecInv e tables S d
  tab : ∀ c, c < e.components → TabOK e c (tables.getD c [])

theorem Enc.X_lt {e : Enc} (h : e.OK) (r i : Nat) : e.X r i < 65536 := by
  unfold Enc.X
  rw [Nat.shiftRight_eq_div_pow]
  refine Nat.lt_of_le_of_lt (Nat.div_le_self _ _) ?_
  rw [List.getD_eq_getElem?_getD]
  by_cases hk : r * ((e.width + e.padding) * e.components) + i < e.image.length
  · rw [List.getElem?_eq_getElem hk]; exact h.u16 _ (List.getElem_mem hk)
  · rw [List.getElem?_eq_none (by omega)]; simp

theorem decode_one {e tables S d pad} (h : Ctx e tables S d) (j : Nat) (hj : j < e.N) (pump : PumpJPEG)
    (hp : pump.Rep (e.B tables pad j)) :
    ∃ t p', d.htable (j % e.components) = .ok t ∧ huffDecode t pump = .ok (e.D' j, p') ∧ p'.Rep (e.B tables pad (j + 1)) := by
  have hc : j % e.components < e.components := Nat.mod_lt _ h.ok.n1
  obtain ⟨t, pd, t1, t2, t3, t4⟩ := h.dec.tabs _ hc
  obtain ⟨vals, lens, hcan, hmem⟩ := h.tab _ hc
  have hv : dhtVals (tables.getD (j % e.components) []) = vals := dht_vals hcan
  rw [hv] at t3 t4
  obtain ⟨p', e1, r1⟩ := fast_ok PumpJPEG.lawful t3 t4 pump _ hp
  have hr := e.D_range (j / e.W) (j % e.W)
  have hdec := refDecode_diff hcan pd (e.D' j) hr.1 hr.2 (hmem j hj rfl) (e.B tables pad (j + 1))
  rw [e.B_step tables pad j hj, t2, Enc.bitsAt, hdec] at e1 r1
  refine ⟨t, p', t1, e1, ?_⟩
  rwa [List.drop_left] at r1

theorem asU16_wrap (x : Nat) (p : Int) (h : x < 65536) : asU16 (p + wrapI16 (x - p)) = x := by
  unfold asU16 wrapI16; omega

theorem raster {W r i : Nat} (hi : i < W) : (r * W + i) / W = r ∧ (r * W + i) % W = i := by
  rw [Nat.mul_comm]
  exact ⟨by rw [Nat.mul_add_div (by omega), Nat.div_eq_of_lt hi]; rfl, by rw [Nat.mul_add_mod, Nat.mod_eq_of_lt hi]⟩

theorem Enc.X'_raster (e : Enc) {r i : Nat} (hi : i < e.W) : e.X' (r * e.W + i) = e.X r i := by
  rw [Enc.X', (raster hi).1, (raster hi).2]

theorem Enc.D'_raster (e : Enc) {r i : Nat} (hi : i < e.W) : e.D' (r * e.W + i) = e.D r i := by
  rw [Enc.D', (raster hi).1, (raster hi).2]

theorem decPredict_ok (e : Enc) (h : e.OK) (out : List Nat) (row q c : Nat) (hq : q < e.width) (hc : c < e.components)
    (hne : ¬ (row = 0 ∧ q = 0)) (hdone : ∀ k, k < row * e.W + q * e.components + c → out[k]? = some (e.X' k)) :
    decPredict e.predictor e.components 0 e.W out row (q * e.components) c = .ok (e.P row (q * e.components + c)) := by
  have hn := h.n1
  have h1 := h.px1
  have h7 := h.px7
  obtain ⟨n, hnn⟩ : ∃ n, n = e.components := ⟨_, rfl⟩
  have hcol : (q + 1) * e.components ≤ e.W := Nat.mul_le_mul_right _ hq
  rw [Nat.add_mul, Nat.one_mul] at hcol
  -- reading an earlier sample
  have hat : ∀ r i, i < e.W → r * e.W + i < row * e.W + q * e.components + c →
      idx out (r * e.W + i) = .ok (e.X r i) := by
    intro r i hi hlt
    rw [idx, hdone _ hlt, e.X'_raster hi]
  have hprev : ∀ i, i < e.W → 0 < row → (row - 1) * e.W + i < row * e.W + q * e.components + c := by
    intro i hi hr
    have : (row - 1) * e.W + e.W = row * e.W := by
      rw [← Nat.add_one_mul]; congr 1; omega
    omega
  have hneq : e.predictor = 1 ∨ e.predictor = 2 ∨ e.predictor = 3 ∨ e.predictor = 4 ∨ e.predictor = 5 ∨ e.predictor = 6 ∨
    e.predictor = 7 := by omega
  unfold decPredict
  by_cases hq0 : q = 0
  · subst hq0
    have hr : row ≠ 0 := fun h => hne ⟨h, rfl⟩
    simp only [Nat.zero_mul, Nat.zero_add] at hat hprev hcol ⊢
    rw [if_pos trivial, if_neg hr, hat _ c (by omega) (hprev c (by omega) (by omega))]
    simp only [bind, Except.bind, Enc.P]
    rw [if_neg hr, if_pos hc]
  · have hqn : e.components ≤ q * e.components := Nat.le_mul_of_pos_left _ (by omega)
    rw [if_neg (by omega), if_neg (by omega)]
    have e1 : q * e.components - e.components + c = q * e.components + c - e.components := by omega
    have hleft : idx out (row * e.W + (q * e.components - e.components + c)) =
        .ok (e.X row (q * e.components + c - e.components)) := by
      rw [e1]; exact hat _ _ (by omega) (by omega)
    by_cases hr : row = 0
    · rw [if_pos (Or.inl hr)]
      simp only [hleft]
      subst hr
      simp only [bind, Except.bind, Enc.P]
      rw [if_pos trivial, if_neg (by omega)]
    · have hup : idx out ((row - 1) * e.W + (q * e.components + c)) = .ok (e.X (row - 1) (q * e.components + c)) :=
        hat _ _ (by omega) (hprev _ (by omega) (by omega))
      have hul : idx out ((row - 1) * e.W + (q * e.components - e.components + c)) =
          .ok (e.X (row - 1) (q * e.components + c - e.components)) := by
        rw [e1]; exact hat _ _ (by omega) (hprev _ (by omega) (by omega))
      simp only [bind, Except.bind, hleft, hup, hul, Enc.P, if_neg hr,
        if_neg (show ¬ (q * e.components + c < e.components) by omega), false_or]
      rcases hneq with hp | hp | hp | hp | hp | hp | hp <;> simp [hp, predict, hr]

theorem decSample_ok {e tables S d pad} (h : Ctx e tables S d) (row q c : Nat) (hr : row < e.height) (hq : q < e.width)
    (hc : c < e.components) (hne : ¬ (row = 0 ∧ q = 0)) (st : List Nat × PumpJPEG)
    (hst : St e tables pad (row * e.W + q * e.components + c) st) :
    ∃ st', decSample d 0 e.W row (q * e.components) c st = .ok st' ∧
      St e tables pad (row * e.W + q * e.components + c + 1) st' := by
  obtain ⟨out, pump⟩ := st
  have hcol : (q + 1) * e.components ≤ e.W := Nat.mul_le_mul_right _ hq
  rw [Nat.add_mul, Nat.one_mul] at hcol
  have hrow : (row + 1) * e.W ≤ e.N := Nat.mul_le_mul_right _ hr
  rw [Nat.add_mul, Nat.one_mul] at hrow
  have hj : row * e.W + q * e.components + c < e.N := by omega
  have hmod : (row * e.W + q * e.components + c) % e.components = c := by
    rw [show row * e.W + q * e.components + c = e.components * (row * e.width + q) + c by
      rw [show e.W = e.width * e.components from rfl]; ring, Nat.mul_add_mod, Nat.mod_eq_of_lt hc]
  obtain ⟨t, p', e1, e2, r2⟩ := decode_one h _ hj pump hst.pump
  rw [hmod] at e1
  have hpred := decPredict_ok e h.ok out row q c hq hc hne hst.done
  have hlen : d.sof.components.length = e.components := by rw [h.dec.comps]; simp
  have hraster : row * e.W + q * e.components + c = row * e.W + (q * e.components + c) := by omega
  have hD : e.D' (row * e.W + q * e.components + c) = e.D row (q * e.components + c) := by
    rw [hraster]; exact e.D'_raster (by omega)
  have hX : e.X' (row * e.W + q * e.components + c) = e.X row (q * e.components + c) := by
    rw [hraster]; exact e.X'_raster (by omega)
  refine ⟨(out.set (row * e.W + q * e.components + c) (e.X' (row * e.W + q * e.components + c)), p'), ?_, ?_⟩
  · simp only [decSample, h.dec.pred, hlen, hpred, bind, Except.bind, e1, e2]
    rw [upd_lt _ _ _ (by have := hst.len; simp only at this; omega)]
    simp only [hD, hX, Enc.D, asU16_wrap _ _ (Enc.X_lt h.ok _ _)]
  · refine ⟨by simpa using hst.len, ?_, r2⟩
    intro k hk
    simp only
    rw [List.getElem?_set]
    by_cases hkj : row * e.W + q * e.components + c = k
    · rw [if_pos hkj, if_pos (by have := hst.len; simp only at this; omega), hkj]
    · rw [if_neg hkj]; exact hst.done k (by omega)

theorem decRow_ok {e tables S d pad} (h : Ctx e tables S d) (row : Nat) (hr : row < e.height) (st : List Nat × PumpJPEG)
    (hst : St e tables pad (if row = 0 then e.components else row * e.W) st) :
    ∃ st', decRow d 0 e.W e.W row st = .ok st' ∧ St e tables pad ((row + 1) * e.W) st' := by
  have hn := h.ok.n1
  have hw := h.ok.w1
  have hlen : d.sof.components.length = e.components := by rw [h.dec.comps]; simp
  obtain ⟨q0, hq0⟩ : ∃ q0, q0 = if row = 0 then 1 else 0 := ⟨_, rfl⟩
  have hq0w : q0 ≤ e.width := by rw [hq0]; split <;> omega
  have hstart : (if row = 0 then 0 + e.components else 0) = q0 * e.components := by
    rw [hq0]; split <;> simp
  have hst0 : (if row = 0 then e.components else row * e.W) = row * e.W + q0 * e.components := by
    rw [hq0]; split
    · rename_i h0; subst h0; simp
    · simp
  have hcols : (e.W + 0 - q0 * e.components + (e.components - 1)) / e.components = e.width - q0 := by
    have : e.W + 0 - q0 * e.components = (e.width - q0) * e.components := by rw [Nat.sub_mul]; rfl
    rw [this, Nat.mul_comm, Nat.mul_add_div (by omega), Nat.div_eq_of_lt (by omega)]; rfl
  obtain ⟨st1, f1, g1⟩ := forN_inv (e.width - q0)
    (fun k st => forN e.components (fun c st => decSample d 0 e.W row (q0 * e.components + k * e.components) c st) st)
    (fun k st => St e tables pad (row * e.W + (q0 + k) * e.components) st) st (by rw [hst0] at hst; exact hst) (by
      intro k s hk hs
      have hcol : q0 * e.components + k * e.components = (q0 + k) * e.components := by rw [Nat.add_mul]
      obtain ⟨s', f2, g2⟩ := forN_inv e.components
        (fun c st => decSample d 0 e.W row (q0 * e.components + k * e.components) c st)
        (fun c st => St e tables pad (row * e.W + (q0 + k) * e.components + c) st) s hs (by
          intro c s2 hc hs2
          rw [hcol]
          exact decSample_ok h row (q0 + k) c hr (by omega) hc (by
            rintro ⟨h0, h1⟩
            rw [hq0, if_pos h0] at h1; omega) s2 hs2)
      refine ⟨s', f2, ?_⟩
      have : row * e.W + (q0 + (k + 1)) * e.components = row * e.W + (q0 + k) * e.components + e.components := by ring
      rw [this]; exact g2)
  have hskip : usub d.sof.width (e.W / e.components) = .ok 0 := by
    rw [h.dec.width, show e.W / e.components = e.width from Nat.mul_div_cancel _ (by omega), usub, if_pos (Nat.le_refl _),
      Nat.sub_self]
  refine ⟨st1, ?_, ?_⟩
  · simp only [decRow, hlen, hstart, hcols, f1, bind, Except.bind, hskip, forN_zero]
  · have : row * e.W + (q0 + (e.width - q0)) * e.components = (row + 1) * e.W := by
      rw [show q0 + (e.width - q0) = e.width by omega, Nat.add_mul, Nat.one_mul]
    rw [← this]; exact g1

theorem decode_ok {e tables S d pad} (h : Ctx e tables S d) (hpump : (PumpJPEG.new S).Rep (e.B tables pad 0)) :
    d.decode (List.replicate (d.width * d.sof.height) 0) 0 d.width d.width d.sof.height =
      .ok ((List.range e.N).map e.X') := by
  have hn := h.ok.n1
  have hw := h.ok.w1
  have hpt := h.ok.pt
  have hlen : d.sof.components.length = e.components := by rw [h.dec.comps]; simp
  have hdw : d.width = e.W := by rw [Dec.width, h.dec.width, h.dec.cps]
  have hnW : e.components ≤ e.W := Nat.le_mul_of_pos_left _ hw
  have hWN : e.W ≤ e.N := Nat.le_mul_of_pos_left _ h.ok.h1
  rw [hdw, h.dec.height]
  have hdec : ∀ out, d.decode out 0 e.W e.W e.height = decodeLjpeg d out 0 e.W e.W e.height := by
    intro out
    rw [Dec.decode, h.dec.comps]
    obtain ⟨m, hm⟩ : ∃ m, e.components = m + 1 := ⟨e.components - 1, by omega⟩
    rw [hm, List.range_succ_eq_map]
    simp only [List.map_cons]
    rw [if_neg (by omega), if_neg (by omega), if_pos ⟨trivial, trivial⟩, Dec.decodePlain,
      if_pos (by rw [h.dec.pred]; exact ⟨h.ok.px1, h.ok.px7⟩)]
  rw [hdec, decodeLjpeg]
  simp only [hlen]
  rw [if_neg (by omega), if_neg (by rw [h.dec.width, h.dec.height]; simp), if_neg (by rw [h.dec.prec, h.dec.pt]; omega)]
  rw [h.dec.prec, h.dec.pt, h.dec.buffer, Nat.one_shiftLeft]
  obtain ⟨st0, f0, g0⟩ := forN_inv e.components (fun c (st : List Nat × PumpJPEG) => do
    let (out, pump) := st
    let t ← d.htable c
    let (diff, pump) ← huffDecode t pump
    let out ← upd out (0 + c) (asU16 (((2 ^ (e.bitdepth - e.pt - 1) : Nat) : Int) + diff))
    (.ok (out, pump) : R (List Nat × PumpJPEG))) (fun c st => St e tables pad c st)
    (List.replicate (e.W * e.height) 0, PumpJPEG.new S)
    ⟨by simp [Enc.N, Nat.mul_comm], by omega, hpump⟩ (by
      rintro c ⟨out, pump⟩ hc hst
      obtain ⟨t, p', e1, e2, r2⟩ := decode_one h c (by omega) pump hst.pump
      rw [Nat.mod_eq_of_lt hc] at e1
      have hraster := e.D'_raster (r := 0) (i := c) (by omega)
      rw [Nat.zero_mul, Nat.zero_add] at hraster
      have hX := e.X'_raster (r := 0) (i := c) (by omega)
      rw [Nat.zero_mul, Nat.zero_add] at hX
      have hP : e.P 0 c = ((2 ^ (e.bitdepth - e.pt - 1) : Nat) : Int) := by rw [Enc.P, if_pos rfl, if_pos hc]
      have hl := hst.len
      simp only at hl
      refine ⟨(out.set c (e.X' c), p'), ?_, ⟨by simpa using hl, ?_, r2⟩⟩
      · simp only [e1, bind, Except.bind, e2, Nat.zero_add]
        rw [upd_lt _ _ _ (by omega), hraster, hX, Enc.D, hP, asU16_wrap _ _ (Enc.X_lt h.ok _ _)]
      · intro k hk
        simp only
        rw [List.getElem?_set]
        by_cases hkj : c = k
        · rw [if_pos hkj, if_pos (by omega), hkj]
        · rw [if_neg hkj]; exact hst.done k (by omega))
  rw [f0]
  obtain ⟨st1, f1, g1⟩ := forN_inv e.height (fun row st => decRow d 0 e.W e.W row st)
    (fun r st => St e tables pad (if r = 0 then e.components else r * e.W) st) st0 (by simpa using g0) (by
      intro row s hrow hs
      obtain ⟨s', f, g⟩ := decRow_ok h row hrow s hs
      exact ⟨s', f, by rw [if_neg (by omega)]; exact g⟩)
  simp only [bind, Except.bind, f1]
  rw [if_neg (by have := h.ok.h1; omega)] at g1
  congr 1
  apply List.ext_getElem?
  intro k
  by_cases hk : k < e.N
  · rw [g1.done k hk, List.getElem?_map, List.getElem?_range hk]; rfl
  · rw [List.getElem?_eq_none (by rw [g1.len]; omega), List.getElem?_eq_none (by simp; omega)]

/-- The encoder succeeds and the decoder returns the (point transformed) samples. -/
theorem encode_decode (e : Enc) (h : e.OK) (h10 : 10 ≤ e.bitdepth) :
    ∃ bytes, e.encode = .ok bytes ∧ decodeAll bytes = .ok ((List.range e.N).map e.X') := by
  obtain ⟨tables, t1, t2, t3⟩ := tables_ok e h
  obtain ⟨hdr, h1, h2⟩ := header_ok e h tables t2 (fun c hc => by
    obtain ⟨vals, lens, hcan, _⟩ := t3 c (by omega)
    exact ⟨vals, lens, hcan⟩) h10
  obtain ⟨ds, pad, d1, d2, d3⟩ := writeBody_ok e h tables t2 t3 hdr
  obtain ⟨d, k1, k2⟩ := h2 (stuff ds ++ [0xff, 0xd9])
  refine ⟨hdr ++ stuff ds ++ [0xff, 0xd9], ?_, ?_⟩
  · simp only [Enc.encode, scan_ok e h, bind, Except.bind, t1, h1, d2]
  · rw [decodeAll, List.append_assoc, k1]
    simp only [bind, Except.bind]
    apply decode_ok (tables := tables) (pad := pad) ⟨h, k2, t3⟩
    have := PumpJPEG.rep_new (stuff ds ++ [0xff, 0xd9]) (by
      intro b hb
      rcases List.mem_append.1 hb with hb | hb
      · exact isBytes_stuff d1 b hb
      · simp at hb; omega) (by rw [properEnd_stuff]; exact properEnd_ff_ne (by omega))
    rw [unstuff_stuff, unstuff_ff_ne _ (by omega), List.append_nil, d3] at this
    rw [Enc.B, Nat.sub_zero, ← List.range_eq_range']
    exact this

end Verif.Ljpeg
