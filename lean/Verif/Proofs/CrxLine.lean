import Verif.Proofs.CrxCode

/-! Lines of a band that refers to the line above: decoding undoes the specified coding. -/

namespace Verif.Crx
open CrxSpec

/-- A band state in the middle of a line: `pre` is what has been written (with the left border). -/
def B (base : Band) (pre junk : List Int) (k s : Nat) (bits : List Bool) : Band :=
  { base with line1 := pre ++ junk, pos := pre.length, k := k, s := s, bits := bits }

variable (base : Band)

theorem coeffA_B (pre junk : List Int) (a : Int) (k s bits) :
    coeffA (B base (pre ++ [a]) junk k s bits) = .ok a := by
  simp [coeffA, B, usub, bind, Except.bind, idx]

theorem put_B (pre junk : List Int) (j v : Int) (k s bits) :
    put (B base pre (j :: junk) k s bits) v = .ok { B base pre (v :: junk) k s bits with pos := pre.length } := by
  have h : upd (pre ++ j :: junk) pre.length v = .ok (pre ++ v :: junk) := by
    rw [upd_lt _ _ _ (by simp)]; simp
  rw [put]
  simp only [show (B base pre (j :: junk) k s bits).line1 = pre ++ j :: junk from rfl,
    show (B base pre (j :: junk) k s bits).pos = pre.length from rfl, h]
  rfl

theorem adv_B (pre junk : List Int) (v : Int) (k s bits) :
    { B base pre (v :: junk) k s bits with pos := (B base pre (v :: junk) k s bits).pos + 1 } = B base (pre ++ [v]) junk k s bits := by
  simp [B]

theorem fillA_B : ∀ (n : Nat) (pre junk : List Int) (a : Int) (k s : Nat) (bits : List Bool), n ≤ junk.length →
    fillA n (B base (pre ++ [a]) junk k s bits) =
      .ok (B base ((pre ++ [a]) ++ List.replicate n a) (junk.drop n) k s bits)
  | 0, pre, junk, a, k, s, bits, _ => by simp [fillA]
  | n + 1, pre, [], a, k, s, bits, h => by simp at h
  | n + 1, pre, j :: junk, a, k, s, bits, h => by
    rw [fillA, coeffA_B]
    simp only [bind, Except.bind]
    rw [put_B]
    simp only
    have e := fillA_B n (pre ++ [a]) junk a k s bits (by simpa using h)
    have e2 : { B base (pre ++ [a]) (a :: junk) k s bits with pos := (pre ++ [a]).length + 1 } =
        B base ((pre ++ [a]) ++ [a]) junk k s bits := by simp [B]
    rw [e2, e]
    simp [List.replicate_succ]

theorem runA_B (pre junk : List Int) (a : Int) (k s n rem : Nat) (rest : List Bool) (hr : 1 < rem) (hn : n ≤ rem)
    (hj : rem ≤ junk.length) (hs : s ≤ 31) :
    runA (B base (pre ++ [a]) junk k s ((runBits rem n s).1 ++ rest)) rem =
      .ok (B base ((pre ++ [a]) ++ List.replicate n a) (junk.drop n) k (runBits rem n s).2 rest, rem - n) := by
  unfold runBits
  by_cases h0 : n = 0
  · subst h0
    simp only [if_true]
    rw [runA, takeBit_false _ rest rfl]
    simp [bind, Except.bind, B]
  · simp only [if_neg h0]
    rw [runA, takeBit_true _ ((runCode (n + 1) rem n 1 s).1 ++ rest) rfl]
    simp only [bind, Except.bind, if_true]
    rw [runCount_ok _ rem n rest (by omega) hn hr (by simpa [B] using hs) rfl]
    simp only
    have e : { B base (pre ++ [a]) junk k s (true :: (runCode (n + 1) rem n 1 s).1 ++ rest) with
        s := (runCode (n + 1) rem n 1 s).2, bits := rest } =
        B base (pre ++ [a]) junk k (runCode (n + 1) rem n 1 s).2 rest := rfl
    have f := fillA_B base n pre junk a k (runCode (n + 1) rem n 1 s).2 rest (by omega)
    rw [← e] at f
    simp only [B] at f ⊢
    rw [f]

theorem rice_B (pre junk : List Int) (k s n : Nat) (rest : List Bool) (hk : k ≤ 17) (hn : n < 2 ^ 21) :
    rice (B base pre junk k s (riceCode k n ++ rest)) = .ok (n, B base pre junk k s rest) := by
  rw [rice]
  simp only [B]
  rw [riceDecode_ok k n rest hk hn]
  rfl

theorem riceAdapt_B (pre junk : List Int) (k s n : Nat) (rest : List Bool) (hk : k ≤ 15) (hn : n < 2 ^ 21) :
    riceAdapt (B base pre junk k s (riceCode k n ++ rest)) kMax = .ok (n, B base pre junk (adapt15 k n) s rest) := by
  rw [riceAdapt, rice_B base _ _ _ _ _ _ (by omega) hn]
  simp only [bind, Except.bind, updateK]
  rw [show (B base pre junk k s rest).k = k from rfl, predictK_15 _ _ (by omega)]
  rfl

/-- Sample values are limited to 18 bit signed numbers. -/
def Small (v : Int) : Prop := v.natAbs ≤ 131072

theorem zigzag_small (v x : Int) (hv : Small v) (hx : Small x) : zigzag (v - x) < 2 ^ 21 := by
  have := zigzag_lt (v - x) 524288 (by unfold Small at *; omega) (by unfold Small at *; omega)
  omega

theorem addSymbol_B (pre junk : List Int) (j v x : Int) (k s : Nat) (rest : List Bool) (hk : k ≤ 15)
    (hv : Small v) (hx : Small x) :
    addSymbol (B base pre (j :: junk) k s (riceCode k (zigzag (v - x)) ++ rest)) x =
      .ok (B base (pre ++ [v]) junk (adapt15 k (zigzag (v - x))) s rest) := by
  rw [addSymbol, riceAdapt_B base _ _ _ _ _ _ hk (zigzag_small v x hv hx)]
  simp only [bind, Except.bind]
  rw [errSigned_zigzag, show x + (v - x) = v by omega, i32_ok v (by unfold Small at hv; omega) (by unfold Small at hv; omega)]
  simp only
  rw [put_B]
  simp [B]

theorem runLength_le (a : Int) (l : List Int) : runLength a l ≤ l.length := by
  unfold runLength
  exact (List.takeWhile_prefix _).length_le

theorem runLength_cons (a v : Int) (l : List Int) : runLength a (v :: l) = if v = a then runLength a l + 1 else 0 := by
  unfold runLength
  by_cases h : v = a <;> simp [h]

theorem runLength_split (a : Int) : ∀ l : List Int, l = List.replicate (runLength a l) a ++ l.drop (runLength a l)
  | [] => by simp [runLength]
  | v :: l => by
    rw [runLength_cons]
    by_cases h : v = a
    · rw [if_pos h, List.replicate_succ, List.drop_succ_cons, List.cons_append, ← runLength_split a l, h]
    · rw [if_neg h]; rfl

theorem runLength_drop_head (a x : Int) : ∀ l rest : List Int, l.drop (runLength a l) = x :: rest → x ≠ a
  | [], rest, h => by simp at h
  | v :: l, rest, h => by
    rw [runLength_cons] at h
    by_cases hv : v = a
    · rw [if_pos hv, List.drop_succ_cons] at h
      exact runLength_drop_head a x l rest h
    · rw [if_neg hv] at h
      simp at h
      rw [← h.1]; exact hv

/-! ## Top line -/

/-- loop and last sample of the top line -/
def topRun (fuel rem : Nat) (p : Band) : R Band := do
  let (p, r) ← topLoop fuel rem p
  topLast p r

theorem topRun_ok : ∀ (fuel : Nat) (todo pre junk : List Int) (a : Int) (k s : Nat) (rest : List Bool),
    todo.length ≤ fuel → todo.length + 1 = junk.length → k ≤ 15 → s ≤ 31 → Small a → (∀ v ∈ todo, Small v) →
    topRun fuel todo.length (B base (pre ++ [a]) junk k s ((encTop fuel a todo k s).1 ++ rest)) =
      .ok (B base ((pre ++ [a]) ++ todo) (junk.drop todo.length) (encTop fuel a todo k s).2.1 (encTop fuel a todo k s).2.2 rest) ∧
    (encTop fuel a todo k s).2.1 ≤ 15 ∧ (encTop fuel a todo k s).2.2 ≤ 31
  | 0, todo, pre, junk, a, k, s, rest, hf, hj, hk, hs, ha, hsm => by
    have : todo = [] := by cases todo <;> simp_all
    subst this
    simp [topRun, topLoop, topLast, encTop, hk, hs, bind, Except.bind]
  | fuel + 1, [], pre, junk, a, k, s, rest, hf, hj, hk, hs, ha, hsm => by
    simp [topRun, topLoop, topLast, encTop, hk, hs, bind, Except.bind]
  | fuel + 1, [v], pre, [], a, k, s, rest, hf, hj, hk, hs, ha, hsm => by simp at hj
  | fuel + 1, [v], pre, j :: junk, a, k, s, rest, hf, hj, hk, hs, ha, hsm => by
    refine ⟨?_, adapt15_le _ _, hs⟩
    simp only [topRun, topLoop, topLast, encTop, bind, Except.bind, List.length_singleton, Nat.lt_irrefl, if_false, if_true]
    rw [coeffA_B]
    simp only
    rw [addSymbol_B base _ _ _ _ _ _ _ _ hk (hsm v (by simp)) ha]
    simp
  | fuel + 1, v :: w :: todo, pre, [], a, k, s, rest, hf, hj, hk, hs, ha, hsm => by simp at hj
  | fuel + 1, v :: w :: todo, pre, j :: junk, a, k, s, rest, hf, hj, hk, hs, ha, hsm => by
    have hv := hsm v (by simp)
    have hstep : ∀ p rem, 1 < rem → topRun (fuel + 1) rem p = (do
        let (p, remaining, x) ← topPredict p rem
        match x with
        | none => topLast p remaining
        | some x => do
          let p ← addSymbol p x
          topRun fuel (remaining - 1) p) := by
      intro p rem h
      simp only [topRun, topLoop, if_pos h, bind, Except.bind]
      cases topPredict p rem with
      | error e => rfl
      | ok q =>
        obtain ⟨p, r, x⟩ := q
        cases x with
        | none => rfl
        | some x =>
          simp only
          cases addSymbol p x <;> rfl
    rw [hstep _ _ (by simp)]
    unfold encTop
    by_cases h0 : a ≠ 0
    · simp only [if_pos h0, topPredict, bind, Except.bind]
      rw [coeffA_B]
      simp only [if_pos h0]
      rw [List.append_assoc (riceCode _ _), addSymbol_B base _ _ _ _ _ _ _ _ hk hv ha]
      have ih := topRun_ok fuel (w :: todo) (pre ++ [a]) junk v (adapt15 k (zigzag (v - a))) s rest
        (by simp at hf ⊢; omega) (by simp at hj ⊢; omega) (adapt15_le _ _) hs hv (fun x hx => hsm x (by simp [hx]))
      simp only [List.length_cons, Nat.add_sub_cancel] at ih ⊢
      refine ⟨?_, ih.2⟩
      rw [ih.1]
      simp
    · simp only [if_neg h0]
      have ha0 : a = 0 := by omega
      subst ha0
      have hle := runLength_le 0 (v :: w :: todo)
      have hsplit := runLength_split 0 (v :: w :: todo)
      generalize hn : runLength 0 (v :: w :: todo) = n at *
      have hs' := runBits_s (todo.length + 2) n s hs
      have hrun : ∀ r, runA (B base (pre ++ [0]) (j :: junk) k s ((runBits (todo.length + 2) n s).1 ++ r)) (todo.length + 2) = _ :=
        fun r => runA_B base pre (j :: junk) 0 k s n (todo.length + 2) r (by omega) hle (by simp at hj ⊢; omega) hs
      cases hd : (v :: w :: todo).drop n with
      | nil =>
        have hlen := congrArg List.length hd
        simp at hlen
        have hn' : n = todo.length + 2 := by simp at hle; omega
        simp only [topPredict, bind, Except.bind]
        refine ⟨?_, hk, hs'⟩
        rw [coeffA_B]
        simp only [ne_eq, not_true, if_false]
        rw [show (v :: w :: todo).length = todo.length + 2 from rfl, hrun]
        simp only
        rw [if_pos (by omega)]
        simp only [topLast]
        rw [if_neg (by omega)]
        rw [hd] at hsplit
        rw [hsplit]
        simp [hn']
      | cons x rest' =>
        have hlen := congrArg List.length hd
        simp at hlen
        have hmem : ∀ y ∈ x :: rest', Small y := fun y hy => hsm y (List.mem_of_mem_drop (by rw [hd]; exact hy))
        simp only [topPredict, bind, Except.bind]
        rw [coeffA_B]
        simp only [ne_eq, not_true, if_false]
        rw [show (v :: w :: todo).length = todo.length + 2 from rfl, List.append_assoc, List.append_assoc, hrun]
        simp only
        rw [if_neg (by omega)]
        simp only
        obtain ⟨j', junk', hjd⟩ : ∃ j' junk', (j :: junk).drop n = j' :: junk' := by
          cases hq : (j :: junk).drop n with
          | nil => have := congrArg List.length hq; simp at this hj; omega
          | cons a b => exact ⟨a, b, rfl⟩
        have hjl := congrArg List.length hjd
        simp at hjl hj
        rw [hjd]
        have hsym := addSymbol_B base ((pre ++ [0]) ++ List.replicate n 0) junk' j' x 0 k (runBits (todo.length + 2) n s).2
          ((encTop fuel x rest' (adapt15 k (zigzag x)) (runBits (todo.length + 2) n s).2).1 ++ rest) hk (hmem x (by simp)) (by simp [Small])
        rw [Int.sub_zero] at hsym
        rw [hsym]
        have ih := topRun_ok fuel rest' ((pre ++ [0]) ++ List.replicate n 0) junk' x (adapt15 k (zigzag x)) (runBits (todo.length + 2) n s).2 rest
          (by simp at hf; omega) (by omega) (adapt15_le _ _) hs' (hmem x (by simp)) (fun y hy => hmem y (by simp [hy]))
        simp only
        refine ⟨?_, ih.2⟩
        rw [show todo.length + 2 - n - 1 = rest'.length by omega, ih.1]
        congr 1
        have e1 : (pre ++ [0]) ++ (v :: w :: todo) = (((pre ++ [0]) ++ List.replicate n 0) ++ [x]) ++ rest' := by
          rw [hd] at hsplit
          conv => lhs; rw [hsplit]
          simp
        rw [e1]
        have e2 : (j :: junk).drop (todo.length + 2) = junk'.drop rest'.length := by
          rw [show todo.length + 2 = n + (rest'.length + 1) by omega, ← List.drop_drop, hjd, List.drop_succ_cons]
        rw [e2]

/-! ## Other lines -/

/-- loop and last sample of a nontop line -/
def nontopRun (fuel rem : Nat) (p : Band) : R Band := do
  let (p, r) ← nontopLoop fuel rem p
  nontopLast p r

theorem coeffB_B (up : Nat → Int) (pre junk : List Int) (k s bits)
    (h : idx base.line0 pre.length = .ok (up pre.length)) :
    coeffB (B base pre junk k s bits) = .ok (up pre.length) := h

theorem coeffD_B (up : Nat → Int) (pre junk : List Int) (k s bits)
    (h : idx base.line0 (pre.length + 1) = .ok (up (pre.length + 1))) :
    coeffD (B base pre junk k s bits) = .ok (up (pre.length + 1)) := h

theorem coeffC_B (up : Nat → Int) (pre junk : List Int) (k s bits) (h1 : 1 ≤ pre.length)
    (h : idx base.line0 (pre.length - 1) = .ok (up (pre.length - 1))) :
    coeffC (B base pre junk k s bits) = .ok (up (pre.length - 1)) := by
  rw [coeffC, show (B base pre junk k s bits).pos = pre.length from rfl, usub, if_pos h1]
  exact h

theorem nontopSymbol_B (up : Nat → Int) (pre junk : List Int) (j v x : Int) (k s rem : Nat) (rest : List Bool)
    (hk : k ≤ 15) (hv : Small v) (hx : Small x) (hr : 0 < rem)
    (hb : 1 < rem → idx base.line0 pre.length = .ok (up pre.length))
    (hd : 1 < rem → idx base.line0 (pre.length + 1) = .ok (up (pre.length + 1))) (hup : ∀ i, Small (up i)) :
    nontopSymbol (B base pre (j :: junk) k s (riceCode k (zigzag (v - x)) ++ rest)) rem x =
      .ok (B base (pre ++ [v]) junk (adapt15 k (lookAhead up pre.length (zigzag (v - x)) (rem = 1))) s rest) := by
  have hz := zigzag_small v x hv hx
  rw [nontopSymbol, if_pos hr, rice_B base _ _ _ _ _ _ (by omega) hz]
  simp only [bind, Except.bind]
  rw [errSigned_zigzag, show x + (v - x) = v by omega, i32_ok v (by unfold Small at hv; omega) (by unfold Small at hv; omega)]
  simp only
  rw [put_B]
  simp only
  have hn : nextCode (B base pre (v :: junk) k s rest) rem (zigzag (v - x)) =
      .ok (lookAhead up pre.length (zigzag (v - x)) (rem = 1)) := by
    unfold nextCode lookAhead
    by_cases h1 : 1 < rem
    · rw [if_pos h1, coeffD_B base up _ _ _ _ _ (hd h1), if_neg (by simp; omega)]
      simp only [bind, Except.bind]
      rw [coeffB_B base up _ _ _ _ _ (hb h1)]
      simp only
      have b1 := hup pre.length
      have b2 := hup (pre.length + 1)
      unfold Small at b1 b2
      rw [i32_ok _ (by omega) (by omega)]
      simp only
      rw [i32_ok _ (by omega) (by omega)]
      simp only
      rw [assert', if_pos (by simp; omega)]
      simp only
      rw [Nat.shiftRight_eq_div_pow]
      congr 2
      omega
    · rw [if_neg h1, if_pos (by simp; omega)]
  rw [show ({ B base pre (v :: junk) k s rest with pos := pre.length } : Band) = B base pre (v :: junk) k s rest from rfl, hn]
  simp only [updateK]
  rw [show (B base pre (v :: junk) k s rest).k = k from rfl, predictK_15 _ _ (by omega)]
  simp [bind, Except.bind, B]

theorem flat_B (up : Nat → Int) (pre junk : List Int) (a : Int) (k s bits)
    (hb : idx base.line0 (pre.length + 1) = .ok (up (pre.length + 1)))
    (hd : idx base.line0 (pre.length + 2) = .ok (up (pre.length + 2))) :
    flat (B base (pre ++ [a]) junk k s bits) = .ok (decide (a = up (pre.length + 1) ∧ a = up (pre.length + 2))) := by
  rw [flat, coeffA_B]
  simp only [bind, Except.bind]
  rw [coeffB_B base up _ _ _ _ _ (by simpa using hb)]
  simp only [List.length_append, List.length_singleton]
  by_cases h : a = up (pre.length + 1)
  · rw [if_pos h, coeffD_B base up _ _ _ _ _ (by simpa using hd)]
    simp [← h]
  · rw [if_neg h]; simp [h]

theorem nontopRun_ok (up : Nat → Int) (hup : ∀ i, Small (up i)) (hline : ∀ i, i + 1 < base.line0.length → idx base.line0 i = .ok (up i)) :
    ∀ (fuel : Nat) (todo pre junk : List Int) (a : Int) (k s : Nat) (rest : List Bool),
    todo.length ≤ fuel → todo.length + 1 = junk.length → base.line0.length = pre.length + 1 + junk.length →
    k ≤ 15 → s ≤ 31 → Small a → (∀ v ∈ todo, Small v) →
    nontopRun fuel todo.length (B base (pre ++ [a]) junk k s ((encNontop up fuel (pre.length + 1) a todo k s).1 ++ rest)) =
      .ok (B base ((pre ++ [a]) ++ todo) (junk.drop todo.length)
        (encNontop up fuel (pre.length + 1) a todo k s).2.1 (encNontop up fuel (pre.length + 1) a todo k s).2.2 rest) ∧
    (encNontop up fuel (pre.length + 1) a todo k s).2.1 ≤ 15 ∧ (encNontop up fuel (pre.length + 1) a todo k s).2.2 ≤ 31
  | 0, todo, pre, junk, a, k, s, rest, hf, hj, hl, hk, hs, ha, hsm => by
    have : todo = [] := by cases todo <;> simp_all
    subst this
    simp [nontopRun, nontopLoop, nontopLast, encNontop, hk, hs, bind, Except.bind]
  | fuel + 1, [], pre, junk, a, k, s, rest, hf, hj, hl, hk, hs, ha, hsm => by
    simp [nontopRun, nontopLoop, nontopLast, encNontop, hk, hs, bind, Except.bind]
  | fuel + 1, [v], pre, [], a, k, s, rest, hf, hj, hl, hk, hs, ha, hsm => by simp at hj
  | fuel + 1, [v], pre, j :: junk, a, k, s, rest, hf, hj, hl, hk, hs, ha, hsm => by
    refine ⟨?_, adapt15_le _ _, hs⟩
    simp only [nontopRun, nontopLoop, nontopLast, encNontop, bind, Except.bind, List.length_singleton, Nat.lt_irrefl, if_false, if_true]
    rw [coeffA_B]
    simp only
    simp only [List.length_cons, List.length_nil] at hl hj
    rw [coeffB_B base up _ _ _ _ _ (hline _ (by simp; omega))]
    simp only
    rw [coeffC_B base up _ _ _ _ _ (by simp) (hline _ (by simp; omega))]
    simp only [List.length_append, List.length_singleton]
    rw [med_ok _ _ _ ha (hup _) (hup _)]
    simp only
    rw [addSymbol_B base _ _ _ _ _ _ _ _ hk (hsm v (by simp)) (median_le _ _ _ _ ha (hup _))]
    simp
  | fuel + 1, v :: w :: todo, pre, [], a, k, s, rest, hf, hj, hl, hk, hs, ha, hsm => by simp at hj
  | fuel + 1, v :: w :: todo, pre, j :: junk, a, k, s, rest, hf, hj, hl, hk, hs, ha, hsm => by
    have hv := hsm v (by simp)
    simp only [List.length_cons] at hl hj hf
    have hstep : ∀ p rem, 1 < rem → nontopRun (fuel + 1) rem p = (do
        let (p, remaining, x) ← nontopPredict p rem
        let p ← nontopSymbol p remaining x
        nontopRun fuel (remaining - 1) p) := by
      intro p rem h
      simp only [nontopRun, nontopLoop, if_pos h, bind, Except.bind]
      cases nontopPredict p rem with
      | error e => rfl
      | ok q =>
        obtain ⟨p, r, x⟩ := q
        simp only
        cases nontopSymbol p r x <;> rfl
    rw [hstep _ _ (by simp)]
    unfold encNontop
    have hflat : ∀ bits, flat (B base (pre ++ [a]) (j :: junk) k s bits) = _ :=
      fun bits => flat_B base up pre (j :: junk) a k s bits (hline _ (by omega)) (hline _ (by omega))
    by_cases h0 : a = up (pre.length + 1) ∧ a = up (pre.length + 1 + 1)
    · simp only [if_pos h0]
      have hle := runLength_le a (v :: w :: todo)
      have hsplit := runLength_split a (v :: w :: todo)
      generalize hn : runLength a (v :: w :: todo) = n at *
      have hs' := runBits_s (todo.length + 2) n s hs
      have hrun : ∀ r, runA (B base (pre ++ [a]) (j :: junk) k s ((runBits (todo.length + 2) n s).1 ++ r)) (todo.length + 2) = _ :=
        fun r => runA_B base pre (j :: junk) a k s n (todo.length + 2) r (by omega) hle (by simp; omega) hs
      cases hd : (v :: w :: todo).drop n with
      | nil =>
        have hlen := congrArg List.length hd
        simp at hlen hle
        have hn' : n = todo.length + 2 := by omega
        simp only [nontopPredict, bind, Except.bind]
        refine ⟨?_, hk, hs'⟩
        rw [hflat]
        simp only [decide_eq_true_eq]
        rw [if_pos h0, show (v :: w :: todo).length = todo.length + 2 from rfl, hrun]
        simp only
        rw [if_neg (by omega)]
        simp only [nontopSymbol]
        rw [if_neg (by omega)]
        simp only
        rw [show todo.length + 2 - n - 1 = ([] : List Int).length by simp; omega]
        rw [hd] at hsplit
        have hz : ∀ p, nontopRun fuel 0 p = .ok p := by
          intro p
          cases fuel <;> simp [nontopRun, nontopLoop, nontopLast, bind, Except.bind]
        rw [List.length_nil, hz, hsplit]
        simp [hn']
      | cons x rest' =>
        have hlen := congrArg List.length hd
        simp at hlen
        have hmem : ∀ y ∈ x :: rest', Small y := fun y hy => hsm y (List.mem_of_mem_drop (by rw [hd]; exact hy))
        simp only [nontopPredict, bind, Except.bind]
        rw [hflat]
        simp only [decide_eq_true_eq]
        rw [if_pos h0, show (v :: w :: todo).length = todo.length + 2 from rfl, List.append_assoc, List.append_assoc, hrun]
        simp only
        rw [if_pos (by omega)]
        obtain ⟨j', junk', hjd⟩ : ∃ j' junk', (j :: junk).drop n = j' :: junk' := by
          cases hq : (j :: junk).drop n with
          | nil => have := congrArg List.length hq; simp at this; omega
          | cons a b => exact ⟨a, b, rfl⟩
        have hjl := congrArg List.length hjd
        simp at hjl
        rw [hjd]
        have hpl : (pre ++ [a] ++ List.replicate n a).length = pre.length + 1 + n := by simp; omega
        rw [coeffB_B base up _ _ _ _ _ (hline _ (by rw [hpl]; omega)), hpl]
        simp only
        have hsym := nontopSymbol_B base up ((pre ++ [a]) ++ List.replicate n a) junk' j' x (up (pre.length + 1 + n)) k
          (runBits (todo.length + 2) n s).2 (todo.length + 2 - n)
          ((encNontop up fuel (pre.length + 1 + n + 1) x rest' (adapt15 k (lookAhead up (pre.length + 1 + n)
            (zigzag (x - up (pre.length + 1 + n))) rest'.isEmpty)) (runBits (todo.length + 2) n s).2).1 ++ rest) hk (hmem x (by simp)) (hup _) (by omega)
          (fun h => hline _ (by rw [hpl]; omega)) (fun h => hline _ (by rw [hpl]; omega)) hup
        rw [hpl] at hsym
        have hlast : decide (todo.length + 2 - n = 1) = rest'.isEmpty := by
          cases rest' with
          | nil => simp at hlen; simp; omega
          | cons a b => simp at hlen; simp; omega
        rw [hlast] at hsym
        rw [hsym]
        have ih := nontopRun_ok up hup hline fuel rest' ((pre ++ [a]) ++ List.replicate n a) junk' x
          (adapt15 k (lookAhead up (pre.length + 1 + n) (zigzag (x - up (pre.length + 1 + n))) rest'.isEmpty)) (runBits (todo.length + 2) n s).2 rest
          (by omega) (by omega) (by rw [hpl]; omega) (adapt15_le _ _) hs' (hmem x (by simp)) (fun y hy => hmem y (by simp [hy]))
        rw [hpl] at ih
        simp only
        refine ⟨?_, ih.2⟩
        rw [show todo.length + 2 - n - 1 = rest'.length by omega, ih.1]
        congr 1
        have e1 : (pre ++ [a]) ++ (v :: w :: todo) = (((pre ++ [a]) ++ List.replicate n a) ++ [x]) ++ rest' := by
          rw [hd] at hsplit
          conv => lhs; rw [hsplit]
          simp
        rw [e1]
        have e2 : (j :: junk).drop (todo.length + 2) = junk'.drop rest'.length := by
          rw [show todo.length + 2 = n + (rest'.length + 1) by omega, ← List.drop_drop, hjd, List.drop_succ_cons]
        rw [e2]
    · simp only [if_neg h0, nontopPredict, bind, Except.bind]
      rw [hflat]
      simp only [decide_eq_true_eq]
      rw [if_neg h0, coeffA_B]
      simp only
      rw [coeffB_B base up _ _ _ _ _ (hline _ (by simp; omega))]
      simp only
      rw [coeffC_B base up _ _ _ _ _ (by simp) (hline _ (by simp; omega))]
      simp only [List.length_append, List.length_singleton]
      rw [med_ok _ _ _ ha (hup _) (hup _)]
      simp only
      rw [List.append_assoc (riceCode _ _)]
      have hsym := nontopSymbol_B base up (pre ++ [a]) junk j v (median a (up (pre.length + 1)) (up (pre.length + 1 - 1))) k s
        (v :: w :: todo).length
        ((encNontop up fuel (pre.length + 1 + 1) v (w :: todo) (adapt15 k (lookAhead up (pre.length + 1)
          (zigzag (v - median a (up (pre.length + 1)) (up (pre.length + 1 - 1)))) false)) s).1 ++ rest)
        hk hv (median_le _ _ _ _ ha (hup _)) (by simp) (fun h => hline _ (by simp; omega)) (fun h => hline _ (by simp; omega)) hup
      rw [show decide ((v :: w :: todo).length = 1) = false by simp] at hsym
      simp only [List.length_append, List.length_singleton] at hsym
      rw [hsym]
      have ih := nontopRun_ok up hup hline fuel (w :: todo) (pre ++ [a]) junk v (adapt15 k (lookAhead up (pre.length + 1)
          (zigzag (v - median a (up (pre.length + 1)) (up (pre.length + 1 - 1)))) false)) s rest
        (by simp; omega) (by simp; omega) (by simp; omega) (adapt15_le _ _) hs hv (fun x hx => hsm x (by simp [hx]))
      simp only [List.length_cons, List.length_append, List.length_nil, Nat.add_sub_cancel] at ih ⊢
      refine ⟨?_, ih.2⟩
      rw [ih.1]
      simp

end Verif.Crx
