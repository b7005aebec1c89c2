import Verif.Proofs.CrxBand

/-! Bands that do not refer to the line above: decoding undoes the specified coding. -/

namespace Verif.Crx
open CrxSpec

/-- The base with the first entries of the `k` line replaced. -/
def bK (base : Band) (kpre : List Nat) : Band := { base with lineK := kpre ++ base.lineK.drop kpre.length }

variable (base : Band)

theorem putK_B (pre junk : List Int) (kpre : List Nat) (x k s : Nat) (bits : List Bool) (h : kpre.length + 1 = pre.length)
    (hl : kpre.length < base.lineK.length) :
    putK (B (bK base kpre) pre junk k s bits) x = .ok (B (bK base (kpre ++ [x])) pre junk k s bits) := by
  rw [putK, show (B (bK base kpre) pre junk k s bits).pos = pre.length from rfl, usub, if_pos (by omega)]
  simp only [bind, Except.bind]
  have e : upd (B (bK base kpre) pre junk k s bits).lineK (pre.length - 1) x = .ok (kpre ++ [x] ++ base.lineK.drop (kpre.length + 1)) := by
    show upd (kpre ++ base.lineK.drop kpre.length) (pre.length - 1) x = _
    rw [upd_lt _ _ _ (by simp; omega), show pre.length - 1 = kpre.length by omega]
    rw [List.set_append_right _ _ (by omega), Nat.sub_self, List.drop_eq_getElem_cons hl, List.set_cons_zero, List.append_assoc]
    rfl
  rw [e]
  simp [B, bK]

theorem advanceK_B (pre junk : List Int) (v : Int) (kpre : List Nat) (k s : Nat) (bits : List Bool) (h : kpre.length + 1 = pre.length)
    (hl : kpre.length < base.lineK.length) :
    advanceK (B (bK base kpre) pre (v :: junk) k s bits) = .ok (B (bK base (kpre ++ [k])) (pre ++ [v]) junk k s bits) := by
  rw [advanceK, show (B (bK base kpre) pre (v :: junk) k s bits).k = k from rfl, putK_B base _ _ _ _ _ _ _ h hl]
  simp only [bind, Except.bind]
  simp [B]

/-- Coefficients are limited to 21 bit signed numbers. -/
def Coeff (v : Int) : Prop := -1048576 ≤ v ∧ v < 1048576

theorem zigzag_coeff (v : Int) (h : Coeff v) : zigzag v < 2 ^ 21 := by
  have := zigzag_lt v 1048576 h.1 h.2
  omega

theorem directSymbol_B (pre junk : List Int) (j v : Int) (kpre : List Nat) (c plus k s : Nat) (rest : List Bool)
    (h : kpre.length + 1 = pre.length) (hl : kpre.length < base.lineK.length) (hk : k ≤ 15) (hv : Coeff v) (hc : c + plus = zigzag v) :
    directSymbol (B (bK base kpre) pre (j :: junk) k s (riceCode k c ++ rest)) plus =
      .ok (B (bK base (kpre ++ [adapt15 k c])) (pre ++ [v]) junk (adapt15 k c) s rest) := by
  have hz := zigzag_coeff v hv
  rw [directSymbol, riceAdapt_B _ _ _ _ _ _ _ hk (by omega)]
  simp only [bind, Except.bind]
  rw [assert', if_pos (by simp; omega)]
  simp only
  rw [put_B, hc, errSigned_zigzag]
  simp only
  exact advanceK_B base pre junk v kpre _ s rest h hl

theorem steeredSymbol_B (pre junk : List Int) (j v : Int) (kpre : List Nat) (c plus k s q : Nat) (rest : List Bool)
    (h : kpre.length + 1 = pre.length) (hl : kpre.length < base.lineK.length) (hk : k ≤ 15) (hv : Coeff v) (hc : c + plus = zigzag v)
    (hq : idx base.lineK pre.length = .ok q) :
    steeredSymbol (B (bK base kpre) pre (j :: junk) k s (riceCode k c ++ rest)) plus =
      .ok (B (bK base (kpre ++ [steer (adapt k c) q])) (pre ++ [v]) junk (steer (adapt k c) q) s rest) := by
  have hz := zigzag_coeff v hv
  have hra : riceAdapt (B (bK base kpre) pre (j :: junk) k s (riceCode k c ++ rest)) 0 =
      .ok (c, B (bK base kpre) pre (j :: junk) (adapt k c) s rest) := by
    rw [riceAdapt, rice_B _ _ _ _ _ _ _ (by omega) (by omega)]
    simp only [bind, Except.bind, updateK]
    rw [show (B (bK base kpre) pre (j :: junk) k s rest).k = k from rfl, predictK_adapt _ _ (by omega)]
    rfl
  rw [steeredSymbol, hra]
  simp only [bind, Except.bind]
  rw [assert', if_pos (by simp; omega)]
  simp only
  rw [put_B, hc, errSigned_zigzag]
  simp only
  have hst : steerK (B (bK base kpre) pre (v :: junk) (adapt k c) s rest) =
      .ok (B (bK base kpre) pre (v :: junk) (steer (adapt k c) q) s rest) := by
    have hi : idx (B (bK base kpre) pre (v :: junk) (adapt k c) s rest).lineK
        (B (bK base kpre) pre (v :: junk) (adapt k c) s rest).pos = .ok q := by
      rw [← hq]
      show idx (kpre ++ base.lineK.drop kpre.length) pre.length = _
      unfold idx
      have e : (kpre ++ base.lineK.drop kpre.length)[pre.length]? = base.lineK[pre.length]? := by
        rw [List.getElem?_append_right (by omega), List.getElem?_drop]
        congr 1; omega
      rw [e]
    rw [steerK, hi]
    simp only [bind, Except.bind]
    unfold steer
    rw [show (B (bK base kpre) pre (v :: junk) (adapt k c) s rest).k = adapt k c from rfl]
    by_cases h1 : q ≤ adapt k c + 1
    · rw [if_pos (by omega), if_pos h1]
      by_cases h2 : 15 ≤ adapt k c
      · rw [if_pos h2, Nat.min_eq_right h2]; rfl
      · rw [if_neg h2, Nat.min_eq_left (by omega)]
    · rw [if_neg (by omega), if_neg h1]; rfl
  rw [show ({ B (bK base kpre) pre (v :: junk) (adapt k c) s rest with pos := pre.length } : Band) =
    B (bK base kpre) pre (v :: junk) (adapt k c) s rest from rfl, hst]
  simp only
  exact advanceK_B base pre junk v kpre _ s rest h hl

theorem fillZero_B : ∀ (n : Nat) (pre junk : List Int) (kpre : List Nat) (k s : Nat) (bits : List Bool), n ≤ junk.length →
    kpre.length + 1 = pre.length → kpre.length + n ≤ base.lineK.length →
    fillZero n (B (bK base kpre) pre junk k s bits) =
      .ok (B (bK base (kpre ++ List.replicate n 0)) (pre ++ List.replicate n 0) (junk.drop n) k s bits)
  | 0, pre, junk, kpre, k, s, bits, _, _, _ => by simp [fillZero]
  | n + 1, pre, [], kpre, k, s, bits, h, _, _ => by simp at h
  | n + 1, pre, j :: junk, kpre, k, s, bits, h, hk, hl => by
    rw [fillZero, put_B]
    simp only [bind, Except.bind]
    rw [show ({ B (bK base kpre) pre (0 :: junk) k s bits with pos := pre.length } : Band) = B (bK base kpre) pre (0 :: junk) k s bits from rfl,
      putK_B base _ _ _ _ _ _ _ hk (by omega)]
    simp only
    rw [adv_B, fillZero_B n (pre ++ [0]) junk (kpre ++ [0]) k s bits (by simpa using h) (by simp; omega) (by simp; omega)]
    simp [List.replicate_succ]

theorem runZero_B (pre junk : List Int) (kpre : List Nat) (k s n rem : Nat) (rest : List Bool) (hr : 1 < rem) (hn : n ≤ rem)
    (hj : rem ≤ junk.length) (hs : s ≤ 31) (hk : kpre.length + 1 = pre.length) (hl : kpre.length + rem ≤ base.lineK.length) :
    runZero (B (bK base kpre) pre junk k s ((runBits rem n s).1 ++ rest)) rem =
      .ok (B (bK base (kpre ++ List.replicate n 0)) (pre ++ List.replicate n 0) (junk.drop n) k (runBits rem n s).2 rest, rem - n) := by
  unfold runBits
  by_cases h0 : n = 0
  · subst h0
    simp only [if_true]
    rw [runZero, takeBit_false _ rest rfl]
    simp [bind, Except.bind, B]
  · simp only [if_neg h0]
    rw [runZero, takeBit_true _ ((runCode (n + 1) rem n 1 s).1 ++ rest) rfl]
    simp only [bind, Except.bind, if_true]
    rw [runCount_ok _ rem n rest (by omega) hn hr (by simpa [B] using hs) rfl]
    simp only
    have f := fillZero_B base n pre junk kpre k (runCode (n + 1) rem n 1 s).2 rest (by omega) hk (by omega)
    have e : ({ B (bK base kpre) pre junk k s (true :: (runCode (n + 1) rem n 1 s).1 ++ rest) with
        s := (runCode (n + 1) rem n 1 s).2, bits := rest } : Band) =
        B (bK base kpre) pre junk k (runCode (n + 1) rem n 1 s).2 rest := rfl
    rw [← e] at f
    simp only [B] at f ⊢
    rw [f]

/-! ## Top line -/

def topNoRefRun (fuel rem : Nat) (p : Band) : R Band := do
  let (p, r) ← topNoRefLoop fuel rem p
  noRefLast p r

theorem topNoRefRun_step (fuel rem : Nat) (p : Band) (h : 1 < rem) : topNoRefRun (fuel + 1) rem p = (do
    let a ← coeffA p
    if a ≠ 0 then do
      let p ← directSymbol p 0
      topNoRefRun fuel (rem - 1) p
    else do
      let (p, remaining) ← runZero p rem
      if remaining = 0 then noRefLast p remaining
      else do
        let p ← directSymbol p 1
        topNoRefRun fuel (remaining - 1) p) := by
  simp only [topNoRefRun, topNoRefLoop, if_pos h, bind, Except.bind]
  cases coeffA p with
  | error e => rfl
  | ok a =>
    simp only
    by_cases h0 : a ≠ 0
    · simp only [if_pos h0]
      cases directSymbol p 0 <;> rfl
    · simp only [if_neg h0]
      cases runZero p rem with
      | error e => rfl
      | ok q =>
        obtain ⟨p, r⟩ := q
        simp only
        by_cases h1 : r = 0
        · simp only [if_pos h1]
        · simp only [if_neg h1]
          cases directSymbol p 1 <;> rfl

theorem topNoRefRun_ok : ∀ (fuel : Nat) (todo pre junk : List Int) (kpre : List Nat) (a : Int) (k s : Nat) (rest : List Bool),
    todo.length ≤ fuel → todo.length + 1 = junk.length → k ≤ 15 → s ≤ 31 → (∀ v ∈ todo, Coeff v) →
    kpre.length = pre.length → kpre.length + todo.length ≤ base.lineK.length →
    topNoRefRun fuel todo.length (B (bK base kpre) (pre ++ [a]) junk k s ((encTopNoRef fuel a todo k s).1 ++ rest)) =
      .ok (B (bK base (kpre ++ (encTopNoRef fuel a todo k s).2.1)) ((pre ++ [a]) ++ todo) (junk.drop todo.length)
        (encTopNoRef fuel a todo k s).2.2.1 (encTopNoRef fuel a todo k s).2.2.2 rest) ∧
    (encTopNoRef fuel a todo k s).2.2.1 ≤ 15 ∧ (encTopNoRef fuel a todo k s).2.2.2 ≤ 31 ∧
    (encTopNoRef fuel a todo k s).2.1.length = todo.length ∧ ∀ q ∈ (encTopNoRef fuel a todo k s).2.1, q ≤ 15
  | 0, todo, pre, junk, kpre, a, k, s, rest, hf, hj, hk, hs, hsm, hkp, hkl => by
    have : todo = [] := by cases todo <;> simp_all
    subst this
    simp [topNoRefRun, topNoRefLoop, noRefLast, encTopNoRef, hk, hs, bind, Except.bind]
  | fuel + 1, [], pre, junk, kpre, a, k, s, rest, hf, hj, hk, hs, hsm, hkp, hkl => by
    simp [topNoRefRun, topNoRefLoop, noRefLast, encTopNoRef, hk, hs, bind, Except.bind]
  | fuel + 1, [v], pre, [], kpre, a, k, s, rest, hf, hj, hk, hs, hsm, hkp, hkl => by simp at hj
  | fuel + 1, [v], pre, j :: junk, kpre, a, k, s, rest, hf, hj, hk, hs, hsm, hkp, hkl => by
    refine ⟨?_, adapt15_le _ _, hs, rfl, by simp [encTopNoRef, adapt15_le]⟩
    simp only [List.length_singleton] at hkl
    simp only [topNoRefRun, topNoRefLoop, noRefLast, encTopNoRef, bind, Except.bind, List.length_singleton, Nat.lt_irrefl, if_false, if_true]
    rw [directSymbol_B base (pre ++ [a]) junk j v kpre (zigzag v) 0 k s rest (by simp [hkp]) (by omega) hk (hsm v (by simp)) rfl]
    simp
  | fuel + 1, v :: w :: todo, pre, [], kpre, a, k, s, rest, hf, hj, hk, hs, hsm, hkp, hkl => by simp at hj
  | fuel + 1, v :: w :: todo, pre, j :: junk, kpre, a, k, s, rest, hf, hj, hk, hs, hsm, hkp, hkl => by
    have hv := hsm v (by simp)
    simp only [List.length_cons] at hf hj hkl
    rw [topNoRefRun_step _ _ _ (by simp)]
    unfold encTopNoRef
    by_cases h0 : a ≠ 0
    · simp only [if_pos h0, bind, Except.bind]
      rw [coeffA_B]
      simp only [if_pos h0]
      rw [List.append_assoc (riceCode _ _), directSymbol_B base (pre ++ [a]) junk j v kpre (zigzag v) 0 k s _ (by simp [hkp]) (by omega) hk hv rfl]
      have ih := topNoRefRun_ok fuel (w :: todo) (pre ++ [a]) junk (kpre ++ [adapt15 k (zigzag v)]) v (adapt15 k (zigzag v)) s rest
        (by simp; omega) (by simp; omega) (adapt15_le _ _) hs (fun x hx => hsm x (by simp [hx])) (by simp [hkp]) (by simp; omega)
      simp only [List.length_cons, Nat.add_sub_cancel] at ih ⊢
      refine ⟨?_, ih.2.1, ih.2.2.1, by rw [ih.2.2.2.1], ?_⟩
      · rw [ih.1]; simp
      · intro q hq
        rcases List.mem_cons.mp hq with h | h
        · rw [h]; exact adapt15_le _ _
        · exact ih.2.2.2.2 q h
    · simp only [if_neg h0]
      have ha0 : a = 0 := by omega
      subst ha0
      have hle := runLength_le 0 (v :: w :: todo)
      have hsplit := runLength_split 0 (v :: w :: todo)
      have hnz := fun x rest => runLength_drop_head 0 x (v :: w :: todo) rest
      generalize hn : runLength 0 (v :: w :: todo) = n at *
      have hs' := runBits_s (todo.length + 2) n s hs
      have hrun : ∀ r, runZero (B (bK base kpre) (pre ++ [0]) (j :: junk) k s ((runBits (todo.length + 2) n s).1 ++ r)) (todo.length + 2) = _ :=
        fun r => runZero_B base (pre ++ [0]) (j :: junk) kpre k s n (todo.length + 2) r (by omega) hle (by simp; omega) hs (by simp [hkp]) (by omega)
      cases hd : (v :: w :: todo).drop n with
      | nil =>
        have hlen := congrArg List.length hd
        simp at hlen hle
        have hn' : n = todo.length + 2 := by omega
        simp only [bind, Except.bind]
        refine ⟨?_, hk, hs', by simp [hn'], fun q hq => by rw [List.eq_of_mem_replicate hq]; omega⟩
        rw [coeffA_B]
        simp only [ne_eq, not_true, if_false]
        rw [show (v :: w :: todo).length = todo.length + 2 from rfl, hrun]
        simp only
        rw [if_pos (by omega)]
        simp only [noRefLast]
        rw [if_neg (by omega)]
        rw [hd] at hsplit
        rw [hsplit]
        simp [hn']
      | cons x rest' =>
        have hlen := congrArg List.length hd
        simp at hlen
        have hmem : ∀ y ∈ x :: rest', Coeff y := fun y hy => hsm y (List.mem_of_mem_drop (by rw [hd]; exact hy))
        have hx0 := zigzag_pos x (hnz x rest' hd)
        simp only [bind, Except.bind]
        rw [coeffA_B]
        simp only [ne_eq, not_true, if_false]
        rw [show (v :: w :: todo).length = todo.length + 2 from rfl, List.append_assoc, List.append_assoc, hrun]
        simp only
        rw [if_neg (by omega)]
        obtain ⟨j', junk', hjd⟩ : ∃ j' junk', (j :: junk).drop n = j' :: junk' := by
          cases hq : (j :: junk).drop n with
          | nil => have := congrArg List.length hq; simp at this; omega
          | cons a b => exact ⟨a, b, rfl⟩
        have hjl := congrArg List.length hjd
        simp at hjl
        rw [hjd]
        rw [directSymbol_B base ((pre ++ [0]) ++ List.replicate n 0) junk' j' x (kpre ++ List.replicate n 0) (zigzag x - 1) 1 k
          (runBits (todo.length + 2) n s).2 _ (by simp; omega) (by simp; omega) hk (hmem x (by simp)) (by omega)]
        have ih := topNoRefRun_ok fuel rest' ((pre ++ [0]) ++ List.replicate n 0) junk' (kpre ++ List.replicate n 0 ++ [adapt15 k (zigzag x - 1)]) x
          (adapt15 k (zigzag x - 1)) (runBits (todo.length + 2) n s).2 rest
          (by omega) (by omega) (adapt15_le _ _) hs' (fun y hy => hmem y (by simp [hy])) (by simp; omega) (by simp; omega)
        simp only
        refine ⟨?_, ih.2.1, ih.2.2.1, ?_, ?_⟩
        · rw [show todo.length + 2 - n - 1 = rest'.length by omega, ih.1]
          have e1 : (pre ++ [0]) ++ (v :: w :: todo) = (((pre ++ [0]) ++ List.replicate n 0) ++ [x]) ++ rest' := by
            rw [hd] at hsplit
            conv => lhs; rw [hsplit]
            simp
          rw [e1]
          have e2 : (j :: junk).drop (todo.length + 2) = junk'.drop rest'.length := by
            rw [show todo.length + 2 = n + (rest'.length + 1) by omega, ← List.drop_drop, hjd, List.drop_succ_cons]
          rw [e2]
          congr 2
          simp
        · simp only [List.length_append, List.length_replicate, List.length_cons, ih.2.2.2.1]; omega
        · intro q hq
          rcases List.mem_append.mp hq with h | h
          · rw [List.eq_of_mem_replicate h]; omega
          · rcases List.mem_cons.mp h with h | h
            · rw [h]; exact adapt15_le _ _
            · exact ih.2.2.2.2 q h

/-! ## Other lines -/

theorem steer_le (k q : Nat) (hq : q ≤ 15) : steer k q ≤ 15 := by unfold steer; split <;> omega

def nontopNoRefRun (fuel rem : Nat) (p : Band) : R Band := do
  let (p, r) ← nontopNoRefLoop fuel rem p
  noRefLast p r

theorem nontopNoRefRun_step (fuel rem : Nat) (p : Band) (h : 1 < rem) : nontopNoRefRun (fuel + 1) rem p = (do
    let f ← busy p
    if f then do
      let p ← steeredSymbol p 0
      nontopNoRefRun fuel (rem - 1) p
    else do
      let (p, remaining) ← runZero p rem
      if remaining = 1 then directSymbol p 1
      else if remaining = 0 then .ok p
      else do
        let p ← steeredSymbol p 1
        nontopNoRefRun fuel (remaining - 1) p) := by
  simp only [nontopNoRefRun, nontopNoRefLoop, if_pos h, bind, Except.bind]
  cases busy p with
  | error e => rfl
  | ok a =>
    cases a with
    | true =>
      simp only [if_true]
      cases steeredSymbol p 0 <;> rfl
    | false =>
      simp only [Bool.false_eq_true, if_false]
      cases runZero p rem with
      | error e => rfl
      | ok q =>
        obtain ⟨p, r⟩ := q
        simp only
        by_cases h1 : r = 1
        · simp only [if_pos h1]
          cases directSymbol p 1 <;> simp [noRefLast]
        · simp only [if_neg h1]
          by_cases h0 : r = 0
          · simp [h0, noRefLast]
          · simp only [if_neg h0]
            cases steeredSymbol p 1 <;> rfl

theorem busy_B (up : Nat → Int) (pre junk : List Int) (a : Int) (k s bits)
    (hb : idx base.line0 (pre.length + 1) = .ok (up (pre.length + 1)))
    (hd : idx base.line0 (pre.length + 2) = .ok (up (pre.length + 2))) :
    busy (B base (pre ++ [a]) junk k s bits) = .ok (decide (a ≠ 0 ∨ up (pre.length + 1) ≠ 0 ∨ up (pre.length + 2) ≠ 0)) := by
  rw [busy, coeffD_B base up _ _ _ _ _ (by simpa using hd)]
  simp only [bind, Except.bind]
  rw [coeffB_B base up _ _ _ _ _ (by simpa using hb)]
  simp only
  rw [coeffA_B]
  simp only [List.length_append, List.length_singleton]
  congr 1
  rw [decide_eq_decide]
  constructor
  · rintro (h | h | h)
    · exact Or.inr (Or.inr h)
    · exact Or.inr (Or.inl h)
    · exact Or.inl h
  · rintro (h | h | h)
    · exact Or.inr (Or.inr h)
    · exact Or.inr (Or.inl h)
    · exact Or.inl h

theorem nontopNoRefRun_ok (up : Nat → Int) (kUp : Nat → Nat) (hline : ∀ i, i + 1 < base.line0.length → idx base.line0 i = .ok (up i))
    (hkup : ∀ i, i + 2 < base.line0.length → idx base.lineK i = .ok (kUp i)) (hkl : base.lineK.length = base.line0.length)
    (hk15 : ∀ i, kUp i ≤ 15) :
    ∀ (fuel : Nat) (todo pre junk : List Int) (kpre : List Nat) (a : Int) (k s : Nat) (rest : List Bool),
    todo.length ≤ fuel → todo.length + 1 = junk.length → base.line0.length = pre.length + 1 + junk.length → k ≤ 15 → s ≤ 31 → (∀ v ∈ todo, Coeff v) →
    kpre.length = pre.length →
    nontopNoRefRun fuel todo.length (B (bK base kpre) (pre ++ [a]) junk k s ((encNontopNoRef up kUp fuel (pre.length + 1) a todo k s).1 ++ rest)) =
      .ok (B (bK base (kpre ++ (encNontopNoRef up kUp fuel (pre.length + 1) a todo k s).2.1)) ((pre ++ [a]) ++ todo) (junk.drop todo.length)
        (encNontopNoRef up kUp fuel (pre.length + 1) a todo k s).2.2.1 (encNontopNoRef up kUp fuel (pre.length + 1) a todo k s).2.2.2 rest) ∧
    (encNontopNoRef up kUp fuel (pre.length + 1) a todo k s).2.2.1 ≤ 15 ∧ (encNontopNoRef up kUp fuel (pre.length + 1) a todo k s).2.2.2 ≤ 31 ∧
    (encNontopNoRef up kUp fuel (pre.length + 1) a todo k s).2.1.length = todo.length ∧
    ∀ q ∈ (encNontopNoRef up kUp fuel (pre.length + 1) a todo k s).2.1, q ≤ 15
  | 0, todo, pre, junk, kpre, a, k, s, rest, hf, hj, hl, hk, hs, hsm, hkp => by
    have : todo = [] := by cases todo <;> simp_all
    subst this
    simp [nontopNoRefRun, nontopNoRefLoop, noRefLast, encNontopNoRef, hk, hs, bind, Except.bind]
  | fuel + 1, [], pre, junk, kpre, a, k, s, rest, hf, hj, hl, hk, hs, hsm, hkp => by
    simp [nontopNoRefRun, nontopNoRefLoop, noRefLast, encNontopNoRef, hk, hs, bind, Except.bind]
  | fuel + 1, [v], pre, [], kpre, a, k, s, rest, hf, hj, hl, hk, hs, hsm, hkp => by simp at hj
  | fuel + 1, [v], pre, j :: junk, kpre, a, k, s, rest, hf, hj, hl, hk, hs, hsm, hkp => by
    refine ⟨?_, adapt15_le _ _, hs, rfl, by simp [encNontopNoRef, adapt15_le]⟩
    simp only [List.length_cons] at hl
    simp only [nontopNoRefRun, nontopNoRefLoop, noRefLast, encNontopNoRef, bind, Except.bind, List.length_singleton, Nat.lt_irrefl, if_false, if_true]
    rw [directSymbol_B base (pre ++ [a]) junk j v kpre (zigzag v) 0 k s rest (by simp [hkp]) (by omega) hk (hsm v (by simp)) rfl]
    simp
  | fuel + 1, v :: w :: todo, pre, [], kpre, a, k, s, rest, hf, hj, hl, hk, hs, hsm, hkp => by simp at hj
  | fuel + 1, v :: w :: todo, pre, j :: junk, kpre, a, k, s, rest, hf, hj, hl, hk, hs, hsm, hkp => by
    have hv := hsm v (by simp)
    simp only [List.length_cons] at hf hj hl
    rw [nontopNoRefRun_step _ _ _ (by simp)]
    unfold encNontopNoRef
    have hbusy : ∀ bits, busy (B (bK base kpre) (pre ++ [a]) (j :: junk) k s bits) = _ :=
      fun bits => busy_B (bK base kpre) up pre (j :: junk) a k s bits (hline _ (by omega)) (hline _ (by omega))
    by_cases h0 : a ≠ 0 ∨ up (pre.length + 1) ≠ 0 ∨ up (pre.length + 1 + 1) ≠ 0
    · simp only [if_pos h0, bind, Except.bind]
      rw [hbusy]
      simp only [decide_eq_true_eq]
      rw [if_pos h0]
      have hq := hkup (pre.length + 1) (by omega)
      rw [List.append_assoc (riceCode _ _), steeredSymbol_B base (pre ++ [a]) junk j v kpre (zigzag v) 0 k s (kUp (pre.length + 1)) _
        (by simp [hkp]) (by omega) hk hv rfl (by simpa using hq)]
      have hsl := steer_le (adapt k (zigzag v)) (kUp (pre.length + 1)) (hk15 _)
      generalize steer (adapt k (zigzag v)) (kUp (pre.length + 1)) = k' at *
      have ih := nontopNoRefRun_ok up kUp hline hkup hkl hk15 fuel (w :: todo) (pre ++ [a]) junk (kpre ++ [k']) v k' s rest
        (by simp; omega) (by simp; omega) (by simp; omega) hsl hs (fun x hx => hsm x (by simp [hx])) (by simp [hkp])
      simp only [List.length_cons, Nat.add_sub_cancel, List.length_append, List.length_nil, Nat.zero_add] at ih ⊢
      refine ⟨?_, ih.2.1, ih.2.2.1, by rw [ih.2.2.2.1], ?_⟩
      · rw [ih.1]; simp
      · intro q hq
        rcases List.mem_cons.mp hq with h | h
        · rw [h]; exact hsl
        · exact ih.2.2.2.2 q h
    · simp only [if_neg h0]
      have hle := runLength_le 0 (v :: w :: todo)
      have hsplit := runLength_split 0 (v :: w :: todo)
      have hnz := fun x rest => runLength_drop_head 0 x (v :: w :: todo) rest
      generalize hn : runLength 0 (v :: w :: todo) = n at *
      have hs' := runBits_s (todo.length + 2) n s hs
      have hrun : ∀ r, runZero (B (bK base kpre) (pre ++ [a]) (j :: junk) k s ((runBits (todo.length + 2) n s).1 ++ r)) (todo.length + 2) = _ :=
        fun r => runZero_B base (pre ++ [a]) (j :: junk) kpre k s n (todo.length + 2) r (by omega) hle (by simp; omega) hs (by simp [hkp]) (by omega)
      cases hd : (v :: w :: todo).drop n with
      | nil =>
        have hlen := congrArg List.length hd
        simp at hlen hle
        have hn' : n = todo.length + 2 := by omega
        simp only [bind, Except.bind]
        refine ⟨?_, hk, hs', by simp [hn'], fun q hq => by rw [List.eq_of_mem_replicate hq]; omega⟩
        rw [hbusy]
        simp only [decide_eq_true_eq]
        rw [if_neg h0]
        rw [show (v :: w :: todo).length = todo.length + 2 from rfl, hrun]
        simp only
        rw [if_neg (by omega), if_pos (by omega)]
        rw [hd] at hsplit
        rw [hsplit]
        simp [hn']
      | cons x rest' =>
        have hlen := congrArg List.length hd
        simp at hlen
        have hmem : ∀ y ∈ x :: rest', Coeff y := fun y hy => hsm y (List.mem_of_mem_drop (by rw [hd]; exact hy))
        have hx0 := zigzag_pos x (hnz x rest' hd)
        obtain ⟨j', junk', hjd⟩ : ∃ j' junk', (j :: junk).drop n = j' :: junk' := by
          cases hq : (j :: junk).drop n with
          | nil => have := congrArg List.length hq; simp at this; omega
          | cons a b => exact ⟨a, b, rfl⟩
        have hjl := congrArg List.length hjd
        simp at hjl
        have e1 : (pre ++ [a]) ++ (v :: w :: todo) = (((pre ++ [a]) ++ List.replicate n 0) ++ [x]) ++ rest' := by
          rw [hd] at hsplit
          conv => lhs; rw [hsplit]
          simp
        have e2 : (j :: junk).drop (todo.length + 2) = junk'.drop rest'.length := by
          rw [show todo.length + 2 = n + (rest'.length + 1) by omega, ← List.drop_drop, hjd, List.drop_succ_cons]
        have hpl : (pre ++ [a] ++ List.replicate n 0).length = pre.length + 1 + n := by simp; omega
        cases rest' with
        | nil =>
          simp only [bind, Except.bind]
          refine ⟨?_, adapt15_le _ _, hs', ?_, ?_⟩
          · rw [hbusy]
            simp only [decide_eq_true_eq]
            rw [if_neg h0, show (v :: w :: todo).length = todo.length + 2 from rfl, List.append_assoc, hrun]
            simp only
            simp at hlen
            rw [if_pos (by omega), hjd]
            rw [directSymbol_B base ((pre ++ [a]) ++ List.replicate n 0) junk' j' x (kpre ++ List.replicate n 0) (zigzag x - 1) 1 k
              (runBits (todo.length + 2) n s).2 _ (by simp; omega) (by simp; omega) hk (hmem x (by simp)) (by omega)]
            rw [e1, e2]
            simp
          · simp at hlen ⊢; omega
          · intro q hq
            rcases List.mem_append.mp hq with h | h
            · rw [List.eq_of_mem_replicate h]; omega
            · rw [List.mem_singleton.mp h]; exact adapt15_le _ _
        | cons y rest' =>
          simp only [List.length_cons] at hlen
          have hq := hkup (pre.length + 1 + n) (by omega)
          have hsl := steer_le (adapt k (zigzag x - 1)) (kUp (pre.length + 1 + n)) (hk15 _)
          have hsym := fun r => steeredSymbol_B base ((pre ++ [a]) ++ List.replicate n 0) junk' j' x (kpre ++ List.replicate n 0) (zigzag x - 1) 1 k
              (runBits (todo.length + 2) n s).2 (kUp (pre.length + 1 + n)) r (by simp; omega) (by simp; omega) hk (hmem x (by simp)) (by omega)
              (by rw [hpl]; exact hq)
          dsimp only
          generalize steer (adapt k (zigzag x - 1)) (kUp (pre.length + 1 + n)) = k' at *
          have ih := nontopNoRefRun_ok up kUp hline hkup hkl hk15 fuel (y :: rest') ((pre ++ [a]) ++ List.replicate n 0) junk' (kpre ++ List.replicate n 0 ++ [k']) x
            k' (runBits (todo.length + 2) n s).2 rest (by simp; omega) (by simp; omega) (by rw [hpl]; omega) hsl hs'
            (fun z hz => hmem z (List.mem_cons_of_mem _ hz)) (by simp; omega)
          rw [hpl] at ih
          refine ⟨?_, ih.2.1, ih.2.2.1, ?_, ?_⟩
          · simp only [bind, Except.bind]
            rw [hbusy]
            simp only [decide_eq_true_eq]
            rw [if_neg h0, show (v :: w :: todo).length = todo.length + 2 from rfl, List.append_assoc, List.append_assoc, hrun]
            simp only
            rw [if_neg (by omega), if_neg (by omega), hjd, hsym]
            simp only
            rw [show todo.length + 2 - n - 1 = (y :: rest').length by simp; omega, ih.1, e1, e2]
            congr 2
            simp
          · simp only [List.length_append, List.length_replicate, List.length_cons, ih.2.2.2.1]; omega
          · intro q hq
            rcases List.mem_append.mp hq with h | h
            · rw [List.eq_of_mem_replicate h]; omega
            · rcases List.mem_cons.mp h with h | h
              · rw [h]; exact hsl
              · exact ih.2.2.2.2 q h

/-! ## Bands -/

theorem topNoRefLine_ok (p : Band) (line : List Int) (rest : List Bool) (hw : p.width = line.length) (hp : p.pos = 1)
    (hl : p.line1.length = line.length + 2) (hl0 : p.line0.length = line.length + 2) (hlk : p.lineK.length = line.length + 2)
    (hk : p.k = 0) (hs : p.s = 0) (hsm : ∀ v ∈ line, Coeff v)
    (hb : p.bits = (encTopNoRef line.length 0 line 0 0).1 ++ rest) :
    ∃ q, topNoRefLine p = .ok q ∧ Done q 0 line ∧ (∃ t, q.line0 = 0 :: t) ∧ q.line0.length = line.length + 2 ∧ q.width = p.width ∧ q.height = p.height ∧
      q.curLine = p.curLine ∧ q.supportsPartial = p.supportsPartial ∧
      (∃ t, q.lineK = (encTopNoRef line.length 0 line 0 0).2.1 ++ t ∧ t.length = 2) ∧ (encTopNoRef line.length 0 line 0 0).2.1.length = line.length ∧
      (∀ x ∈ (encTopNoRef line.length 0 line 0 0).2.1, x ≤ 15) ∧
      q.k = (encTopNoRef line.length 0 line 0 0).2.2.1 ∧ q.s = (encTopNoRef line.length 0 line 0 0).2.2.2 ∧ q.bits = rest ∧
      q.k ≤ 15 ∧ q.s ≤ 31 := by
  obtain ⟨x, junk, hx⟩ : ∃ x junk, p.line1 = x :: junk := by
    cases h : p.line1 with
    | nil => rw [h] at hl; simp at hl
    | cons a b => exact ⟨a, b, rfl⟩
  obtain ⟨y, junk0, hy⟩ : ∃ x junk, p.line0 = x :: junk := by
    cases h : p.line0 with
    | nil => rw [h] at hl0; simp at hl0
    | cons a b => exact ⟨a, b, rfl⟩
  have hjl : line.length + 1 = junk.length := by rw [hx] at hl; simp at hl; omega
  have hjl0 : line.length + 1 = junk0.length := by rw [hy] at hl0; simp at hl0; omega
  have hpB : { p with line0 := 0 :: junk0, line1 := 0 :: junk } =
      B (bK { p with line0 := 0 :: junk0 } []) ([] ++ [0]) junk 0 0 ((encTopNoRef line.length 0 line 0 0).1 ++ rest) := by
    cases p; simp_all [B, bK]
  have h := topNoRefRun_ok { p with line0 := 0 :: junk0 } line.length line [] junk [] 0 0 0 rest (by omega) hjl (by omega) (by omega) hsm rfl
    (by simp [hlk])
  rw [topNoRefLine, assert', if_pos (by simpa using hp)]
  simp only [bind, Except.bind]
  rw [hx, hy, upd_lt _ _ _ (by simp), upd_lt _ _ _ (by simp)]
  simp only [List.set_cons_zero]
  have e1 : topNoRefLoop p.width p.width { p with line0 := 0 :: junk0, line1 := 0 :: junk } = topNoRefLoop line.length line.length
      (B (bK { p with line0 := 0 :: junk0 } []) ([] ++ [0]) junk 0 0 ((encTopNoRef line.length 0 line 0 0).1 ++ rest)) := by
    rw [← hpB, hw]
  rw [e1]
  have h1 := h.1
  simp only [topNoRefRun, bind, Except.bind] at h1
  cases hL : topNoRefLoop line.length line.length (B (bK { p with line0 := 0 :: junk0 } []) ([] ++ [0]) junk 0 0 ((encTopNoRef line.length 0 line 0 0).1 ++ rest)) with
  | error e => rw [hL] at h1; simp at h1
  | ok q =>
    rw [hL] at h1
    simp only at h1 ⊢
    rw [h1]
    obtain ⟨j, hj⟩ := drop_len_one junk line.length hjl
    rw [hj]
    simp only [List.nil_append]
    rw [assert', if_pos (by simp [B])]
    simp only
    rw [put_B]
    refine ⟨_, rfl, ⟨0, rfl⟩, ⟨junk0, rfl⟩, by simp [B, bK]; omega, rfl, rfl, rfl, rfl,
      ⟨p.lineK.drop (encTopNoRef line.length 0 line 0 0).2.1.length, rfl, ?_⟩, h.2.2.2.1, h.2.2.2.2, rfl, rfl, rfl, h.2.1, h.2.2.1⟩
    rw [h.2.2.2.1, List.length_drop, hlk]; omega

theorem nontopNoRefLine_ok (p : Band) (e : Int) (above line t : List Int) (ks tk : List Nat) (rest : List Bool) (hw : p.width = line.length) (hp : p.pos = 1)
    (hal : above.length = line.length) (h0 : p.line0 = 0 :: above ++ [e]) (h1 : p.line1 = 0 :: t)
    (hl : p.line1.length = line.length + 2) (hlk : p.lineK = ks ++ tk) (htk : tk.length = 2) (hks : ks.length = line.length) (hk15 : ∀ x ∈ ks, x ≤ 15)
    (hk : p.k ≤ 15) (hs : p.s ≤ 31) (hsm : ∀ v ∈ line, Coeff v) :
    let up := fun i => if i = 0 then 0 else above.getD (i - 1) 0
    let enc := encNontopNoRef up (fun i => ks.getD i 0) line.length 1 0 line p.k p.s
    p.bits = enc.1 ++ rest →
    ∃ q, nontopNoRefLine p = .ok q ∧ Done q 0 line ∧ q.line0 = p.line0 ∧ q.width = p.width ∧ q.height = p.height ∧
      q.curLine = p.curLine ∧ q.supportsPartial = p.supportsPartial ∧
      (∃ t, q.lineK = enc.2.1 ++ t ∧ t.length = 2) ∧ enc.2.1.length = line.length ∧ (∀ x ∈ enc.2.1, x ≤ 15) ∧
      q.k = enc.2.2.1 ∧ q.s = enc.2.2.2 ∧ q.bits = rest ∧ q.k ≤ 15 ∧ q.s ≤ 31 := by
  intro up enc hb
  have hline : ∀ i, i + 1 < p.line0.length → idx p.line0 i = .ok (up i) := by
    intro i hi
    rw [h0] at hi ⊢
    simp only [List.length_append, List.length_cons, List.length_nil] at hi
    rw [idx_lt _ _ (by simp; omega)]
    congr 1
    cases i with
    | zero => rfl
    | succ i =>
      have e1 : up (i + 1) = above[i] := by
        show (if i + 1 = 0 then (0 : Int) else above.getD (i + 1 - 1) 0) = _
        rw [if_neg (by omega), Nat.add_sub_cancel, List.getD_eq_getElem?_getD, List.getElem?_eq_getElem (by omega)]
        rfl
      rw [e1]
      simp [List.getElem_append_left (show i < above.length by omega)]
  have hlen0 : p.line0.length = line.length + 2 := by rw [h0]; simp [hal]
  have hkup : ∀ i, i + 2 < p.line0.length → idx p.lineK i = .ok (ks.getD i 0) := by
    intro i hi
    rw [hlk, idx_lt _ _ (by simp; omega), List.getElem_append_left (by omega), List.getD_eq_getElem?_getD, List.getElem?_eq_getElem (by omega)]
    rfl
  have hkb : ∀ i, ks.getD i 0 ≤ 15 := by
    intro i
    rw [List.getD_eq_getElem?_getD]
    cases hq : ks[i]? with
    | none => simp
    | some v => exact hk15 v (List.mem_of_getElem? hq)
  have hjl : line.length + 1 = t.length := by rw [h1] at hl; simp at hl; omega
  have hpB : p = B (bK p []) ([] ++ [0]) t p.k p.s (enc.1 ++ rest) := by
    rw [← hb]; cases p; simp_all [B, bK]
  have h := nontopNoRefRun_ok p up (fun i => ks.getD i 0) hline hkup (by rw [hlk, hlen0]; simp; omega) hkb line.length line [] t [] 0 p.k p.s rest
    (by omega) hjl (by simp; omega) hk hs hsm rfl
  rw [nontopNoRefLine, assert', if_pos (by simpa using hp)]
  simp only [bind, Except.bind]
  have h1' := h.1
  simp only [nontopNoRefRun, bind, Except.bind, List.length_nil, Nat.zero_add] at h1'
  have e1 : nontopNoRefLoop p.width p.width p = nontopNoRefLoop line.length line.length (B (bK p []) ([] ++ [0]) t p.k p.s (enc.1 ++ rest)) := by
    rw [← hpB, hw]
  rw [e1]
  cases hL : nontopNoRefLoop line.length line.length (B (bK p []) ([] ++ [0]) t p.k p.s (enc.1 ++ rest)) with
  | error e => simp only [enc] at hL; rw [hL] at h1'; simp at h1'
  | ok q =>
    simp only [enc] at hL
    rw [hL] at h1'
    simp only at h1' ⊢
    rw [h1']
    obtain ⟨j, hj⟩ := drop_len_one t line.length hjl
    rw [hj]
    simp only [List.nil_append]
    rw [assert', if_pos (by simp [B])]
    simp only
    refine ⟨_, rfl, ⟨j, rfl⟩, rfl, rfl, rfl, rfl, rfl,
      ⟨p.lineK.drop enc.2.1.length, rfl, ?_⟩, h.2.2.2.1, h.2.2.2.2, rfl, rfl, rfl, h.2.1, h.2.2.1⟩
    have : enc.2.1.length = line.length := h.2.2.2.1
    rw [this, List.length_drop, hlk]
    simp; omega

theorem decodeLine_firstNoRef (p q : Band) (hc : p.curLine < p.height) (h0 : p.curLine = 0) (hsp : p.supportsPartial = false)
    (hq : topNoRefLine { p with pos := 1, s := 0, k := 0 } = .ok q) : decodeLine p = .ok { q with curLine := q.curLine + 1 } := by
  have : lineAny p = .ok q := by
    rw [lineAny, if_pos h0, firstLine]
    simp only [hsp, Bool.false_eq_true, if_false]
    rw [hsp] at hq
    exact hq
  rw [decodeLine, assert', if_pos (by simpa using hc), this]
  rfl

theorem decodeLine_laterNoRef (p q : Band) (hc : p.curLine < p.height) (h0 : p.curLine ≠ 0) (hsp : p.supportsPartial = false)
    (hq : nontopNoRefLine { p with pos := 1, line0 := p.line1, line1 := p.line0 } = .ok q) :
    decodeLine p = .ok { q with curLine := q.curLine + 1 } := by
  have : lineAny p = .ok q := by
    rw [lineAny, if_neg h0, laterLine]
    simp only [hsp, Bool.not_false, if_true]
    rw [hsp] at hq
    exact hq
  rw [decodeLine, assert', if_pos (by simpa using hc), this]
  rfl

theorem restNoRef_ok : ∀ (lines : List (List Int)) (p : Band) (above t : List Int) (ks tk : List Nat) (rest : List Bool) (w : Nat),
    Done p 0 above → above.length = w → p.width = w → p.line0 = 0 :: t → p.line0.length = w + 2 → 0 < p.curLine → p.curLine + lines.length ≤ p.height →
    p.supportsPartial = false → p.lineK = ks ++ tk → tk.length = 2 → ks.length = w → (∀ x ∈ ks, x ≤ 15) → p.k ≤ 15 → p.s ≤ 31 →
    (∀ l ∈ lines, l.length = w ∧ ∀ v ∈ l, Coeff v) → p.bits = encRestNoRef above ks lines p.k p.s ++ rest →
    decodeLines lines.length p = .ok lines
  | [], _, _, _, _, _, _, _, _, _, _, _, _, _, _, _, _, _, _, _, _, _, _, _ => rfl
  | line :: lines, p, above, t, ks, tk, rest, w, hd, ha, hw, ht, hl0, hc, hh, hsp, hlk, htk, hks, hk15, hk, hs, hlines, hb => by
    obtain ⟨e, he⟩ := hd
    have hl := hlines line (by simp)
    rw [encRestNoRef] at hb
    dsimp only at hb
    rw [List.append_assoc] at hb
    obtain ⟨q, hq, hdone, q0, q1, q2, q4, q5, ⟨t', qk, qkl⟩, qks, qk15, q6, q7, q8, q9, q10⟩ := nontopNoRefLine_ok
      { p with pos := 1, line0 := p.line1, line1 := p.line0 } e above line t ks tk _ (by simp [hw, hl.1]) rfl
      (by rw [ha, hl.1]) he ht (by simp [hl0, hl.1]) hlk htk (by rw [hks, hl.1]) hk15 hk hs hl.2 hb
    simp only [List.length_cons] at hh
    have hdec : decodeLine p = .ok { q with curLine := p.curLine + 1 } := by
      rw [decodeLine_laterNoRef p q (by omega) (by omega) hsp hq]
      simp only [q4]
    rw [List.length_cons, decodeLines, hdec]
    simp only [bind, Except.bind]
    rw [decodedBuf_done { q with curLine := p.curLine + 1 } _ line hdone (by show q.width = _; rw [q1]; simp [hw, hl.1])]
    simp only
    rw [restNoRef_ok lines { q with curLine := p.curLine + 1 } line (above ++ [e]) _ t' rest w hdone hl.1 (by simpa [hw] using q1)
      (by simp only [q0]; rw [he]; rfl) (by simp only [q0]; rw [he]; simp [ha]) (by simp) (by simp only [q2]; omega) (by simpa [hsp] using q5)
      qk qkl (by rw [qks, hl.1]) qk15 q9 q10 (fun l hl => hlines l (by simp [hl])) (by simp only [q8, q6, q7])]

theorem bandNoRef_ok (lines : List (List Int)) (w : Nat) (rest : List Bool)
    (hlines : ∀ l ∈ lines, l.length = w ∧ ∀ v ∈ l, Coeff v) :
    decodeLines lines.length (newBand w lines.length false (encBandNoRef lines ++ rest)) = .ok lines := by
  cases lines with
  | nil => rfl
  | cons line lines =>
    have hl := hlines line (by simp)
    have hb : (newBand w (line :: lines).length false (encBandNoRef (line :: lines) ++ rest)).bits =
        (encTopNoRef line.length 0 line 0 0).1 ++ (encRestNoRef line (encTopNoRef line.length 0 line 0 0).2.1 lines
          (encTopNoRef line.length 0 line 0 0).2.2.1 (encTopNoRef line.length 0 line 0 0).2.2.2 ++ rest) := by
      simp [newBand, encBandNoRef]
    obtain ⟨q, hq, hdone, ⟨t, qt⟩, q0, q1, q2, q4, q5, ⟨t', qk, qkl⟩, qks, qk15, q6, q7, q8, q9, q10⟩ := topNoRefLine_ok
      { newBand w (line :: lines).length false (encBandNoRef (line :: lines) ++ rest) with pos := 1, s := 0, k := 0 } line _
      (by simp [newBand, hl.1]) rfl (by simp [newBand, hl.1]) (by simp [newBand, hl.1]) (by simp [newBand, hl.1]) rfl rfl hl.2 hb
    have hdec : decodeLine (newBand w (line :: lines).length false (encBandNoRef (line :: lines) ++ rest)) = .ok { q with curLine := 1 } := by
      rw [decodeLine_firstNoRef _ q (by simp [newBand]) rfl rfl hq]
      simp only [q4]
      rfl
    rw [List.length_cons, decodeLines, ← List.length_cons (a := line), hdec]
    simp only [bind, Except.bind]
    rw [decodedBuf_done { q with curLine := 1 } _ line hdone (by show q.width = _; rw [q1]; simp [newBand, hl.1])]
    simp only
    rw [restNoRef_ok lines { q with curLine := 1 } line t _ t' rest w hdone hl.1 (by simp only [q1]; rfl)
      qt (by simp only [q0]; rw [hl.1]) (by simp) (by simp only [q2]; simp [newBand]; omega) (by simp only [q5]; rfl)
      qk qkl (by rw [qks, hl.1]) qk15 q9 q10 (fun l hl => hlines l (by simp [hl])) (by simp only [q8, q6, q7])]

end Verif.Crx
