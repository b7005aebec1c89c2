import Verif.Proofs.FujiMove
/-! # Fuji: a strip -/

namespace Verif.Fuji
open Verif Verif.Pumps Verif.Spec.Fuji
open Verif.Orf (ok_bind)

theorem maxDiff_eq (b e : Nat) : maxDiff (steps b e) = ((fresh b e).1 : Int) := by
  unfold maxDiff fresh
  simp only
  omega

theorem fresh_ok {b : Nat} (hb : b = 12 ∨ b = 14 ∨ b = 16) (e : Nat) : StatOk (fresh b e) := by
  have h2 := pow_bits hb
  have h1 : steps b e ≤ 2 ^ b := by
    have h3 : 2 * e * 1 ≤ 2 * e * (2 ^ b - 1) := Nat.mul_le_mul_left _ (by omega)
    have h4 : (2 ^ b - 1 + 2 * e) / (2 * e + 1) ≤ 2 ^ b - 1 := Nat.div_le_of_le_mul (by rw [Nat.add_mul]; omega)
    unfold steps
    omega
  unfold fresh StatOk
  simp only
  omega

/-! ## Gradients -/

/-- The gradients of the tables after the first. -/
def GRepX (s : Nat → Nat → Nat → Stat) (gs : List (List (List Grad))) : Prop :=
  gs.length = 3 ∧ ∀ g, g < 3 → ∃ gl, gs[g]? = some gl ∧ gl.length = 4 ∧ ∀ t, 0 < t → t < 4 → ∃ gt, gl[t]? = some gt ∧ gt.length = ctxs t ∧
    ∀ k, k < ctxs t → gt[k]? = some (toGrad (s g t k))

theorem GRep.x {s : Nat → Nat → Nat → Stat} {gs : List (List (List Grad))} (h : GRep 4 s gs) : GRepX s gs :=
  ⟨h.1, fun g hg => by
    obtain ⟨gl, e1, e2, e3⟩ := h.2 g hg
    exact ⟨gl, e1, e2, fun t _ ht => e3 t ht⟩⟩

theorem reset_ok (b q : Nat) (s : Nat → Nat → Nat → Stat) (gs : List (List (List Grad))) (h : GRepX s gs) :
    GRep 4 (fun g t k => if t = 0 then fresh b q else s g t k) (resetMain (steps b q) gs) := by
  refine ⟨by rw [resetMain, List.length_map]; exact h.1, ?_⟩
  intro g hg
  obtain ⟨gl, e1, e2, e3⟩ := h.2 g hg
  refine ⟨gl.set 0 (List.replicate 41 (maxDiff (steps b q), 1)), ?_, by rw [List.length_set]; exact e2, ?_⟩
  · rw [resetMain, List.getElem?_map, e1]
    rfl
  · intro t ht
    by_cases h0 : t = 0
    · subst h0
      refine ⟨_, List.getElem?_set_self (by omega), by rw [List.length_replicate]; rfl, ?_⟩
      intro k hk
      have hk' : k < 41 := hk
      rw [List.getElem?_replicate, if_pos hk', maxDiff_eq]
      rfl
    · obtain ⟨gt, f1, f2, f3⟩ := e3 t (by omega) ht
      refine ⟨gt, ?_, f2, ?_⟩
      · rw [List.getElem?_set_ne (fun h => h0 h.symm)]
        exact f1
      · intro k hk
        rw [show (fun g t k => if t = 0 then fresh b q else s g t k) g t k = s g t k from if_neg h0]
        exact f3 k hk

theorem restart_rep (S : Strip) (t : Nat) (s : Stats) (o : Nat) (gs : List (List (List Grad))) (h : t = 0 ∨ S.q t ≠ S.q (t - 1))
    (hg : GRepX (fun g t k => s g o t k) gs) : GRep 4 (fun g t' k => S.restart t s g o t' k) (resetMain (steps S.b (S.q t)) gs) := by
  have e : (fun g t' k => S.restart t s g o t' k) = fun g t' k => if t' = 0 then fresh S.b (S.q t) else s g o t' k := by
    funext g t' k
    unfold Strip.restart
    rw [if_pos h]
    split <;> rfl
  rw [e]
  exact reset_ok S.b (S.q t) _ _ hg

/-! ## Parameters -/

/-- The parameters of a lossy file before the first block. -/
structure PrFirst (b W : Nat) (pr : Params) : Prop where
  qt : ∃ d, pr.qtables = [d, tab b 0 3 5, tab b 1 3 6, tab b 2 3 7]
  mb : pr.maxBits = 4 * b
  mn : pr.minValue = 64
  mx : pr.maxValue = 2 ^ b - 1
  w : pr.width = W

theorem log2ceil_pow {b : Nat} (hb : b = 12 ∨ b = 14 ∨ b = 16) : log2ceil (((2 : Int) ^ b - 1).toNat + 1) = b := by
  rcases hb with rfl | rfl | rfl <;> decide +kernel

theorem paramsNew_ok (h : Header) {b : Nat} (hb : b = 12 ∨ b = 14 ∨ b = 16) (hrb : h.rawBits = b) (xtrans : Bool) (hty : h.rawType = if xtrans then 16 else 0)
    (hbs : h.blockSize = 768) (lossless : Bool) (hll : h.lossless = if lossless then 1 else 0) :
    ∃ pr, Params.new h = .ok pr ∧ (lossless = true → PrOk b true 0 (if xtrans then 512 else 384) pr) ∧
      (lossless = false → PrFirst b (if xtrans then 512 else 384) pr) := by
  unfold Params.new
  rw [hbs, if_neg (by omega), hrb]
  refine ⟨_, rfl, ?_, ?_⟩
  · intro hl
    subst hl
    refine ⟨?_, ?_, rfl, rfl, ?_⟩
    · simp only
      rw [if_pos (by rw [hll]; rfl)]
      have := mainQTable_eq b 0 hb (by omega)
      simp only [Nat.cast_zero] at this
      rw [this]
      rfl
    · simp only
      rw [log2ceil_pow hb]
    · simp only
      rw [hty]
      cases xtrans <;> rfl
  · intro hl
    subst hl
    refine ⟨?_, ?_, rfl, rfl, ?_⟩
    · simp only
      rw [if_neg (by rw [hll]; simp)]
      have t0 := lossyQTable_eq b 0 5 hb (by omega) ((2 : Int) ^ b - 1 + 1) (by simp)
      have t1 := lossyQTable_eq b 1 6 hb (by omega) (((2 : Int) ^ b - 1 + 2) / 3 + 1) (by simp)
      have t2 := lossyQTable_eq b 2 7 hb (by omega) (((2 : Int) ^ b - 1 + 4) / 5 + 1) (by simp)
      refine ⟨{ qBase := -1, table := [], maxGrad := 0, multi := 0, rawBits := 0, total := 0 }, ?_⟩
      rw [← t0, ← t1, ← t2]
      rfl
    · simp only
      rw [log2ceil_pow hb]
    · simp only
      rw [hty]
      cases xtrans <;> rfl

/-! ## What a strip is assumed to be -/

structure StripOk (S : Strip) (lossless : Bool) (m : Nat) : Prop where
  b : S.b = 12 ∨ S.b = 14 ∨ S.b = 16
  layout : Layout S.xtrans S.cfa
  q : ∀ t, t < m → S.q t < 256
  ll : lossless = true → ∀ t, S.q t = 0
  px : ∀ r c, r < 6 * m → S.px r c < 2 ^ S.b

theorem x_lt (S : Strip) (m t c o j : Nat) (ht : t < m) (ho : o < lineCount c) (hpx : ∀ r c, r < 6 * m → S.px r c < 2 ^ S.b) :
    S.x c (lineCount c * t + o) j < 2 ^ S.b := by
  unfold Strip.x
  cases hp : S.pixelAt c (lineCount c * t + o) j with
  | none => exact Nat.two_pow_pos _
  | some p =>
    refine hpx _ _ ?_
    have hm := List.mem_of_find?_eq_some hp
    unfold candidates at hm
    rw [List.mem_flatMap] at hm
    obtain ⟨r, hr, hm⟩ := hm
    rw [List.mem_map] at hm
    obtain ⟨col, -, rfl⟩ := hm
    simp only
    unfold lineCount at *
    split_ifs at * with h1
    · simp only [List.mem_singleton] at hr
      omega
    · simp only [List.mem_cons, List.not_mem_nil, or_false] at hr
      omega

theorem StripOk.setup {S : Strip} {lossless : Bool} {m : Nat} (h : StripOk S lossless m) {t : Nat} (ht : t < m) {pr : Params}
    (hpr : PrOk S.b lossless (S.q t) S.W pr) : Setup S lossless t pr :=
  ⟨h.b, hpr, h.q t ht, fun hl => h.ll hl t, fun c o j _ ho => x_lt S m t c o j ht ho h.px⟩

/-! ## The start of a block -/

/-- The allowed errors as the reader has them. -/
def QOk (S : Strip) (lossless : Bool) (m : Nat) (qb : Option (List Nat)) : Prop :=
  if lossless then qb = none else ∃ qs, qb = some qs ∧ ∀ t, t < m → qs[t]? = some (S.q t)

def Start (S : Strip) (lossless : Bool) (hd : Header) (qb : Option (List Nat)) (t : Nat) (s : Stats) (rest : List Bool) (pr : Params) (st : St) : Prop :=
  ∃ pr' st', setQ hd qb t pr st = .ok (pr', st') ∧ PrOk S.b lossless (S.q t) S.W pr' ∧
    Inv S lossless t (S.restart t s) (Upto S.W (before 0)) rest st'

theorem restart_same (S : Strip) (t : Nat) (s : Stats) (ht : 0 < t) (h : S.q t = S.q (t - 1)) : S.restart t s = s := by
  unfold Strip.restart
  rw [if_neg (by omega)]

theorem restart_ok {S : Strip} {t : Nat} {s : Stats} (hb : S.b = 12 ∨ S.b = 14 ∨ S.b = 16) (h : AllOk s) : AllOk (S.restart t s) := by
  unfold Strip.restart
  split
  · intro g o k c
    simp only
    split
    · exact fresh_ok hb _
    · exact h g o k c
  · exact h

theorem start_next {S : Strip} {lossless : Bool} {m : Nat} (h : StripOk S lossless m) (hd : Header) (hll : hd.lossless = if lossless then 1 else 0)
    (hrb : hd.rawBits = S.b) (qb : Option (List Nat)) (hqb : QOk S lossless m qb) {t : Nat} (h0 : 0 < t) (ht : t < m) (s : Stats) (rest : List Bool)
    (pr : Params) (st : St) (hpr : PrOk S.b lossless (S.q (t - 1)) S.W pr) (hi : Inv S lossless t s (Upto S.W (before 0)) rest st) :
    Start S lossless hd qb t s rest pr st := by
  cases lossless with
  | true =>
    have hq : qb = none := by simpa [QOk] using hqb
    subst hq
    have e1 := h.ll rfl t
    have e2 := h.ll rfl (t - 1)
    refine ⟨pr, st, ?_, by rw [e1, ← e2]; exact hpr, by rw [restart_same S t s h0 (by omega)]; exact hi⟩
    unfold setQ
    rw [hll]
    rfl
  | false =>
    obtain ⟨qs, rfl, hqs⟩ : ∃ qs, qb = some qs ∧ ∀ t, t < m → qs[t]? = some (S.q t) := by simpa [QOk] using hqb
    have hset : setQ hd (some qs) t pr st = (do
        if t = 0 ∨ (S.q t : Int) ≠ (S.q (t - 1) : Int) then do
          let qts ← upd pr.qtables 0 (mainQTable S.b (2 ^ S.b - 1) (S.q t))
          .ok ({ pr with qtables := qts }, { st with ge := resetMain (mainQTable S.b (2 ^ S.b - 1) (S.q t)).total st.ge,
                                                     go := resetMain (mainQTable S.b (2 ^ S.b - 1) (S.q t)).total st.go })
        else .ok (pr, st) : R (Params × St)) := by
      unfold setQ
      rw [hll, hpr.qt, hrb]
      simp only [idx, hqs t ht]
      rfl
    unfold Start
    rw [hset]
    by_cases hq : S.q t = S.q (t - 1)
    · rw [if_neg (by omega)]
      refine ⟨pr, st, rfl, by rw [hq]; exact hpr, by rw [restart_same S t s h0 hq]; exact hi⟩
    · rw [if_pos (by omega), hpr.qt, mainQTable_eq S.b _ h.b (h.q t ht)]
      refine ⟨_, _, rfl, ⟨rfl, hpr.mb, hpr.mn, hpr.mx, hpr.w⟩, restart_ok h.b hi.ok, ⟨?_, ?_⟩, hi.known, hi.rep⟩
      · exact restart_rep S t s 0 _ (Or.inr hq) (GRep.x hi.grads.1)
      · exact restart_rep S t s 1 _ (Or.inr hq) (GRep.x hi.grads.2)

/-! ## The first block -/

theorem known_first (S : Strip) : Known S.W (V S 0) (Upto S.W (before 0)) (List.replicate 18 (List.replicate (S.W + 2) 0)) := by
  refine ⟨List.length_replicate, ?_, ?_⟩
  · intro l row hl
    rw [List.getElem?_replicate] at hl
    split at hl
    · cases hl
      exact List.length_replicate
    · cases hl
  · intro l i hl hi hK
    refine ⟨List.replicate (S.W + 2) 0, by rw [List.getElem?_replicate, if_pos hl], ?_⟩
    rw [List.getElem?_replicate, if_pos hi]
    congr 1
    have hn := num_lt l hl
    have hb : before 0 (colOf l) = 0 := by unfold before; split_ifs <;> omega
    have hz : ∀ k i, k < 2 → V S 0 (base (colOf l) + k) i = 0 := by
      intro k i hk
      rw [V_eq S 0 _ _ _ hn.2.1 (by omega), Nat.mul_zero, Nat.zero_add, plane_zero S _ _ _ hk]
    have hl2 : 2 ≤ lineCount (colOf l) := by unfold lineCount; split_ifs <;> omega
    rw [← hn.2.2]
    unfold Upto at hK
    rw [hb] at hK
    rcases hK with hK | ⟨h1, h2⟩
    · rw [hz _ _ hK]
    · rw [h1]
      rcases h2 with rfl | rfl
      · rw [V_left S 0 _ 0 hn.2.1 (by omega), hz _ _ (by omega)]
      · rw [V_right S 0 _ 0 hn.2.1 (by omega), hz _ _ (by omega)]

theorem start_first {S : Strip} {lossless : Bool} {m : Nat} (h : StripOk S lossless m) (hd : Header) (hll : hd.lossless = if lossless then 1 else 0)
    (hrb : hd.rawBits = S.b) (qb : Option (List Nat)) (hqb : QOk S lossless m qb) (hm : 0 < m) (rest : List Bool)
    (pr : Params) (hp1 : lossless = true → PrOk S.b true 0 S.W pr) (hp2 : lossless = false → PrFirst S.b S.W pr) (p : PumpMSB) (hrep : p.Rep rest) :
    ∃ gs, grads0 (hd.lossless == 1) pr = .ok gs ∧
      Start S lossless hd qb 0 S.stats0 rest pr ⟨List.replicate 18 (List.replicate (pr.width + 2) 0), gs, gs, p⟩ := by
  have hall : AllOk (S.restart 0 S.stats0) := by
    unfold Strip.restart
    rw [if_pos (Or.inl rfl)]
    intro g o k c
    simp only
    split
    · exact fresh_ok h.b _
    · exact fresh_ok h.b _
  cases lossless with
  | true =>
    have hpr := hp1 rfl
    have hq : qb = none := by simpa [QOk] using hqb
    subst hq
    have e1 := h.ll rfl 0
    have hgr : ∀ o, GRep 1 (fun g t k => S.restart 0 S.stats0 g o t k) (List.replicate 3 [List.replicate 41 (maxDiff (steps S.b 0), 1), List.replicate 5 (0, 0), List.replicate 5 (0, 0), List.replicate 5 (0, 0)]) := by
      intro o
      refine ⟨rfl, ?_⟩
      intro g hg
      refine ⟨_, by rw [List.getElem?_replicate, if_pos hg], rfl, ?_⟩
      intro t ht
      obtain rfl : t = 0 := by omega
      refine ⟨_, rfl, List.length_replicate, ?_⟩
      intro k hk
      have hk' : k < 41 := hk
      rw [List.getElem?_replicate, if_pos hk', maxDiff_eq]
      unfold Strip.restart
      simp only [true_or, if_true]
      rw [e1]
      rfl
    refine ⟨List.replicate 3 [List.replicate 41 (maxDiff (steps S.b 0), 1), List.replicate 5 (0, 0), List.replicate 5 (0, 0), List.replicate 5 (0, 0)], ?_, pr, ⟨List.replicate 18 (List.replicate (pr.width + 2) 0), List.replicate 3 [List.replicate 41 (maxDiff (steps S.b 0), 1), List.replicate 5 (0, 0), List.replicate 5 (0, 0), List.replicate 5 (0, 0)], List.replicate 3 [List.replicate 41 (maxDiff (steps S.b 0), 1), List.replicate 5 (0, 0), List.replicate 5 (0, 0), List.replicate 5 (0, 0)], p⟩, ?_, by rw [e1]; exact hpr, hall, ⟨hgr 0, hgr 1⟩, ?_, hrep⟩
    · unfold grads0
      rw [hll, hpr.qt]
      rfl
    · unfold setQ
      rw [hll]
      rfl
    · simp only
      rw [hpr.w]
      exact known_first S
  | false =>
    have hpr := hp2 rfl
    obtain ⟨d, hqt⟩ := hpr.qt
    obtain ⟨qs, rfl, hqs⟩ : ∃ qs, qb = some qs ∧ ∀ t, t < m → qs[t]? = some (S.q t) := by simpa [QOk] using hqb
    have hgr : ∀ o, GRepX (fun g t k => S.stats0 g o t k) (List.replicate 3 [List.replicate 41 (0, 0), List.replicate 5 (maxDiff (steps S.b 0), 1), List.replicate 5 (maxDiff (steps S.b 1), 1),
        List.replicate 5 (maxDiff (steps S.b 2), 1)]) := by
      intro o
      refine ⟨rfl, ?_⟩
      intro g hg
      refine ⟨_, by rw [List.getElem?_replicate, if_pos hg], rfl, ?_⟩
      intro t h0 ht
      have ht' : t = 1 ∨ t = 2 ∨ t = 3 := by omega
      rcases ht' with rfl | rfl | rfl
      all_goals
        refine ⟨_, rfl, List.length_replicate, ?_⟩
        intro k hk
        have hk' : k < 5 := hk
        rw [List.getElem?_replicate, if_pos hk', maxDiff_eq]
        rfl
    refine ⟨List.replicate 3 [List.replicate 41 (0, 0), List.replicate 5 (maxDiff (steps S.b 0), 1), List.replicate 5 (maxDiff (steps S.b 1), 1),
        List.replicate 5 (maxDiff (steps S.b 2), 1)], ?_, ?_⟩
    · unfold grads0
      rw [hll, hqt]
      rfl
    · have hset : ∀ st, setQ hd (some qs) 0 pr st = .ok ({ pr with qtables := tabs S.b false (S.q 0) },
          { st with ge := resetMain (steps S.b (S.q 0)) st.ge, go := resetMain (steps S.b (S.q 0)) st.go }) := by
        intro st
        have hmq := mainQTable_eq S.b _ h.b (h.q 0 hm)
        unfold setQ
        rw [hll, hqt, hrb, show assert' (((if false = true then 1 else 0) == 1) == (some qs).isNone) = .ok () from rfl, ok_bind]
        have i1 : idx qs 0 = .ok (S.q 0) := by rw [idx, hqs 0 hm]
        have i2 : idx [d, tab S.b 0 3 5, tab S.b 1 3 6, tab S.b 2 3 7] 0 = .ok d := rfl
        simp only
        rw [i1, ok_bind, i2, ok_bind, if_pos (Or.inl trivial), hmq]
        rfl
      refine ⟨_, _, hset _, ⟨rfl, hpr.mb, hpr.mn, hpr.mx, hpr.w⟩, hall, ⟨?_, ?_⟩, ?_, hrep⟩
      · exact restart_rep S 0 _ 0 _ (Or.inl rfl) (hgr 0)
      · exact restart_rep S 0 _ 1 _ (Or.inl rfl) (hgr 1)
      · simp only
        rw [hpr.w]
        exact known_first S

/-! ## The strip -/

theorem strip_ok {S : Strip} {lossless : Bool} {m : Nat} (h : StripOk S lossless m) (hd : Header) (hll : hd.lossless = if lossless then 1 else 0)
    (hrb : hd.rawBits = S.b) (hty : hd.rawType = if S.xtrans then 16 else 0) (hbs : hd.blockSize = 768) (htl : hd.totalLines = m) (w : Nat)
    (hw : hd.rawWidth = w) (n : Nat) (hn : n < hd.blocksInRow) (hnb : hd.blocksInRow = (w + 767) / 768)
    (qb : Option (List Nat)) (hqb : QOk S lossless m qb) (hm : 0 < m) (pr : Params) (hp1 : lossless = true → PrOk S.b true 0 S.W pr)
    (hp2 : lossless = false → PrFirst S.b S.W pr) (px : Nat → Nat → Nat) (hpx : ∀ r c, c < 768 → px r (768 * n + c) = out S r c)
    (src : List Nat) (offset size : Nat) (data : List Nat)
    (hdata : (if offset + size = src.length then slice src offset src.length else slice src offset (offset + size + 16)) = .ok data)
    (hbytes : IsBytes data) (pad : List Bool) (hpad : 30 ≤ pad.length) (hbits : bytesMSB data = S.blocks m 0 S.stats0 ++ pad)
    (D : Nat → Nat → Prop) (o : List Nat) (hf : Verif.Srw.Filled w (6 * m) px D o) :
    ∃ o', decompressStrip src hd pr S.cfa qb offset size n o = .ok o' ∧ Verif.Srw.Filled w (6 * m) px (fun r c => D r c ∨ c / 768 = n) o' := by
  have hx16 : (hd.rawType == 16) = S.xtrans := by rw [hty]; cases S.xtrans <;> rfl
  have hrep : (PumpMSB.new data).Rep (S.blocks m 0 S.stats0 ++ pad) := hbits ▸ PumpMSB.rep_new data hbytes
  obtain ⟨gs, eg, hstart⟩ := start_first h hd hll hrb qb hqb hm _ pr hp1 hp2 _ hrep
  unfold decompressStrip
  rw [eg, ok_bind, hdata, ok_bind, htl, hx16]
  obtain ⟨⟨pr', st', o'⟩, e1, f1, -⟩ := forN_inv m (fun line (x : Params × St × List Nat) => match x with
      | (pr, st, out) => do
        let (pr, st) ← setQ hd qb line pr st
        let st ← decodeBlock pr S.xtrans st
        let lb ← moveLines st.lb
        let out ← copyLine hd S.cfa S.xtrans n line lb out
        let lb ← clearLines pr.width lb
        .ok (pr, { st with lb := lb }, out))
    (fun t x => Verif.Srw.Filled w (6 * m) px (fun r c => D r c ∨ (r < 6 * t ∧ c / 768 = n)) x.2.2 ∧
      (t < m → ∃ s, Start S lossless hd qb t s (S.blocks (m - t) t s ++ pad) x.1 x.2.1))
    (pr, ⟨List.replicate 18 (List.replicate (pr.width + 2) 0), gs, gs, PumpMSB.new data⟩, o)
    ⟨hf.mono fun r c _ _ hh => by
        rcases hh with hh | hh
        · exact hh
        · omega,
      fun _ => ⟨S.stats0, hstart⟩⟩
    (by
      rintro t ⟨pr, st, o⟩ ht ⟨hfo, hst⟩
      obtain ⟨s, pr1, st1, e1, hpr1, hi1⟩ := hst ht
      obtain ⟨k, hk⟩ : ∃ k, m - t = k + 1 := ⟨m - t - 1, by omega⟩
      rw [hk, Strip.blocks, List.append_assoc] at hi1
      obtain ⟨st2, e2, hi2⟩ := decodeBlock_ok (h.setup ht hpr1) h.layout _ _ (by rw [List.length_append]; omega) st1 hi1
      obtain ⟨lb3, e3, h3⟩ := moveLines_ok S t st2.lb (hi2.known.mono fun l i hl _ _ => ⟨by
        have := num_lt l hl
        have hb : before 6 (colOf l) = lineCount (colOf l) := by
          have : ∀ l < 18, before 6 (colOf l) = lineCount (colOf l) := by decide
          exact this l hl
        exact .inl (by rw [hb]; exact this.1), rfl⟩)
      obtain ⟨o4, e4, h4⟩ := copyLine_ok S t n w (6 * m) hd h.layout hw hbs hn hnb (by omega) px hpx lb3 h3 _ o hfo
      obtain ⟨lb5, e5, h5⟩ := clearLines_ok S (t + 1) lb3 (h3.mono fun l i _ _ hh => ⟨trivial, by rw [if_pos hh]⟩)
      refine ⟨(pr1, { st2 with lb := lb5 }, o4), ?_, ?_, ?_⟩
      · simp only
        rw [e1, ok_bind]
        simp only
        rw [e2, ok_bind, e3, ok_bind, e4, ok_bind, hpr1.w, e5, ok_bind]
      · refine h4.mono ?_
        intro r c _ _ hh
        rcases hh with hh | hh
        · exact .inl (.inl hh)
        · by_cases hr : r < 6 * t
          · exact .inl (.inr ⟨hr, hh.2⟩)
          · exact .inr ⟨by omega, by omega, hh.2⟩
      · intro ht1
        refine ⟨S.run (S.restart t s) (block S.W t), ?_⟩
        rw [show m - (t + 1) = k by omega]
        exact start_next h hd hll hrb qb hqb (by omega) ht1 _ _ _ _ (by rw [Nat.add_sub_cancel]; exact hpr1) ⟨hi2.ok, hi2.grads, h5, hi2.rep⟩)
  refine ⟨o', ?_, f1.mono ?_⟩
  · exact (congrArg (· >>= _) e1).trans rfl
  · intro r c hr _ hh
    rcases hh with hh | hh
    · exact .inl hh
    · exact .inr ⟨hr, hh⟩

end Verif.Fuji
