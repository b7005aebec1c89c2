import Verif.Proofs.Srw
/-! # Samsung SRW: third generation -/

namespace Verif.Srw
open Verif Verif.Pumps Verif.Spec Verif.Spec.Srw

/-! ## Header and flags -/

theorem flags_ok (p : Params) (opt : Nat) (h : Flags p opt) :
    (opt &&& 1 ≠ 0 ↔ p.always = true) ∧ (opt &&& 2 ≠ 0 ↔ p.simple = true) ∧ (opt &&& 4 = 0 ↔ p.plain = false) := by
  obtain ⟨h1, h2, h3, h4⟩ := h
  have key : ∀ o : Fin 16, ∀ a b c : Bool, o.val % 2 = a.toNat → o.val / 2 % 2 = b.toNat → o.val / 4 % 2 = c.toNat →
      (o.val &&& 1 ≠ 0 ↔ a = true) ∧ (o.val &&& 2 ≠ 0 ↔ b = true) ∧ (o.val &&& 4 = 0 ↔ c = false) := by
    intro o a b c
    revert o
    cases a <;> cases b <;> cases c <;> decide
  exact key ⟨opt, h1⟩ _ _ _ h2 h3 h4

theorem split_at {α : Type} (x : List α) (a b : Nat) (h : x.length = a + b) : ∃ y z, x = y ++ z ∧ y.length = a ∧ z.length = b :=
  ⟨x.take a, x.drop a, (List.take_append_drop a x).symm, by simp; omega, by simp; omega⟩

theorem header3_ok (tail : List Nat) (L : Nat) (q : PumpMSB32) (p : Params) (opt : Nat) (x y z : List Bool) (hx : x.length = 20) (hy : y.length = 60)
    (hz : z.length = 26) (hd : 1 ≤ p.depth ∧ p.depth ≤ 16) (ho : opt < 16) (hi : p.init < 2 ^ 14) (rest : List Bool)
    (h : q.RepW tail L (headerBits p opt x y z ++ rest)) :
    ∃ q', header3 q = .ok (p.depth, opt, p.init, q') ∧ q'.RepW tail L rest := by
  obtain ⟨x1, x2, rfl, hx1, hx2⟩ := split_at x 16 4 hx
  obtain ⟨y1, y, rfl, hy1, hy⟩ := split_at y 4 56 hy
  obtain ⟨y2, y, rfl, hy2, hy⟩ := split_at y 4 52 hy
  obtain ⟨y3, y, rfl, hy3, hy⟩ := split_at y 16 36 hy
  obtain ⟨y4, y, rfl, hy4, hy⟩ := split_at y 16 20 hy
  obtain ⟨y5, y6, rfl, hy5, hy6⟩ := split_at y 16 4 hy
  obtain ⟨z1, z, rfl, hz1, hz⟩ := split_at z 8 18 hz
  obtain ⟨z2, z, rfl, hz2, hz⟩ := split_at z 8 10 hz
  obtain ⟨z3, z4, rfl, hz3, hz4⟩ := split_at z 8 2 hz
  rw [headerBits] at h
  simp only [List.append_assoc] at h
  obtain ⟨_, q, e1, h⟩ := PumpMSB32.get_skip tail L q 16 x1 _ h hx1 (by omega)
  rw [header3, e1, Verif.Orf.ok_bind]; simp only
  obtain ⟨_, q, e1, h⟩ := PumpMSB32.get_skip tail L q 4 x2 _ h hx2 (by omega)
  rw [e1, Verif.Orf.ok_bind]; simp only
  obtain ⟨q, e1, h⟩ := PumpMSB32.get_field tail L q 4 _ _ h (by omega) (by omega)
  rw [e1, Verif.Orf.ok_bind]; simp only
  obtain ⟨_, q, e1, h⟩ := PumpMSB32.get_skip tail L q 4 y1 _ h hy1 (by omega)
  rw [e1, Verif.Orf.ok_bind]; simp only
  obtain ⟨_, q, e1, h⟩ := PumpMSB32.get_skip tail L q 4 y2 _ h hy2 (by omega)
  rw [e1, Verif.Orf.ok_bind]; simp only
  obtain ⟨_, q, e1, h⟩ := PumpMSB32.get_skip tail L q 16 y3 _ h hy3 (by omega)
  rw [e1, Verif.Orf.ok_bind]; simp only
  obtain ⟨_, q, e1, h⟩ := PumpMSB32.get_skip tail L q 16 y4 _ h hy4 (by omega)
  rw [e1, Verif.Orf.ok_bind]; simp only
  obtain ⟨_, q, e1, h⟩ := PumpMSB32.get_skip tail L q 16 y5 _ h hy5 (by omega)
  rw [e1, Verif.Orf.ok_bind]; simp only
  obtain ⟨_, q, e1, h⟩ := PumpMSB32.get_skip tail L q 4 y6 _ h hy6 (by omega)
  rw [e1, Verif.Orf.ok_bind]; simp only
  obtain ⟨q, e1, h⟩ := PumpMSB32.get_field tail L q 4 _ _ h (by omega) (by omega)
  rw [e1, Verif.Orf.ok_bind]; simp only
  obtain ⟨_, q, e1, h⟩ := PumpMSB32.get_skip tail L q 8 z1 _ h hz1 (by omega)
  rw [e1, Verif.Orf.ok_bind]; simp only
  obtain ⟨_, q, e1, h⟩ := PumpMSB32.get_skip tail L q 8 z2 _ h hz2 (by omega)
  rw [e1, Verif.Orf.ok_bind]; simp only
  obtain ⟨_, q, e1, h⟩ := PumpMSB32.get_skip tail L q 8 z3 _ h hz3 (by omega)
  rw [e1, Verif.Orf.ok_bind]; simp only
  obtain ⟨_, q, e1, h⟩ := PumpMSB32.get_skip tail L q 2 z4 _ h hz4 (by omega)
  rw [e1, Verif.Orf.ok_bind]; simp only
  obtain ⟨q, e1, h⟩ := PumpMSB32.get_field tail L q 14 _ _ h hi (by omega)
  rw [e1, Verif.Orf.ok_bind]; simp only
  exact ⟨q, by rw [show p.depth - 1 + 1 = p.depth by omega], h⟩

/-! ## Scale, motion, lengths -/

/-- The scale and the motion before block `k`. -/
def scaleIn (p : Params) (b : Nat → Block) (k : Nat) : Int := if k = 0 then 0 else scale p b (k - 1)
def motionIn (p : Params) (b : Nat → Block) (k : Nat) : Nat := if k = 0 then 7 else motion p b (k - 1)

theorem scale_step (p : Params) (b : Nat → Block) (k : Nat) : scale p b k =
    if p.plain = true ∨ k % 4 ≠ 0 then scaleIn p b k else if (b k).sel = 0 then scaleIn p b k else if (b k).sel = 1 then scaleIn p b k - 2
      else if (b k).sel = 2 then scaleIn p b k + 2 else (b k).scl := by
  cases k with
  | zero => by_cases h : p.plain = true <;> simp [scale, scaleIn, h]
  | succ k =>
    have : scaleIn p b (k + 1) = scale p b k := rfl
    rw [this]
    rfl

theorem motion_step (p : Params) (b : Nat → Block) (k : Nat) : motion p b k =
    if p.simple = true then if (b k).moved then 3 else 7 else if (b k).moved then (b k).mv else motionIn p b k := by
  cases k with
  | zero => rfl
  | succ k =>
    have : motionIn p b (k + 1) = motion p b k := rfl
    rw [this]
    rfl

theorem scale3_ok (tail : List Nat) (L : Nat) (q : PumpMSB32) (p : Params) (opt : Nat) (hopt : Flags p opt) (b : Nat → Block) (w r k : Nat) (hf : Fits3 p b w r k)
    (rest : List Bool)
    (h : q.RepW tail L ((if p.plain = true ∨ k % 4 ≠ 0 then [] else bitsMSB 2 (b k).sel ++ if (b k).sel = 3 then bitsMSB 12 (b k).scl else []) ++ rest)) :
    ∃ q', scale3 opt k (scaleIn p b k) q = .ok (scale p b k, q') ∧ q'.RepW tail L rest := by
  obtain ⟨_, _, hpl⟩ := flags_ok p opt hopt
  have h63 : (16 * k) &&& 63 = 16 * k % 64 := Nat.and_two_pow_sub_one_eq_mod (16 * k) 6
  have hsc := scale_step p b k
  rw [scale3, h63]
  by_cases hc : p.plain = true ∨ k % 4 ≠ 0
  · rw [if_pos hc] at h hsc
    rw [if_neg (by
      rintro ⟨h1, h2⟩
      rcases hc with hc | hc
      · rw [hpl.1 h1] at hc; cases hc
      · omega)]
    exact ⟨q, by rw [hsc], h⟩
  · rw [if_neg hc] at h hsc
    rw [if_pos ⟨hpl.2 (by cases hp : p.plain; rfl; exact absurd (Or.inl hp) hc), by omega⟩]
    rw [List.append_assoc] at h
    obtain ⟨q1, e1, h1⟩ := PumpMSB32.get_field tail L q 2 _ _ h hf.sel.1 (by omega)
    rw [e1, Verif.Orf.ok_bind]
    simp only
    have hs := hf.scale
    have hs4 := hf.sel.1
    by_cases h3 : (b k).sel = 3
    · rw [if_neg (by omega)]
      rw [if_pos h3] at h1
      obtain ⟨q2, e2, h2⟩ := PumpMSB32.get_field tail L q1 12 _ _ h1 hf.sel.2 (by omega)
      rw [e2, Verif.Orf.ok_bind]
      rw [if_neg (by omega), if_neg (by omega), if_neg (by omega)] at hsc
      exact ⟨q2, by rw [hsc], h2⟩
    · rw [if_pos (by omega)]
      rw [if_neg h3] at h1
      refine ⟨q1, ?_, h1⟩
      have hchk : ∀ v : Int, scaleIn p b k + v = scale p b k → chkI32 (scaleIn p b k + v) = .ok (scale p b k) := by
        intro v hv
        rw [hv, chkI32, if_pos ⟨by omega, by omega⟩]
      rcases (by omega : (b k).sel = 0 ∨ (b k).sel = 1 ∨ (b k).sel = 2) with h0 | h0 | h0
      · rw [h0] at hsc ⊢
        rw [if_pos rfl] at hsc
        show (chkI32 (scaleIn p b k + 0) >>= fun s => Except.ok (s, q1)) = _
        rw [hchk 0 (by omega)]; rfl
      · rw [h0] at hsc ⊢
        rw [if_neg (by omega), if_pos rfl] at hsc
        show (chkI32 (scaleIn p b k + -2) >>= fun s => Except.ok (s, q1)) = _
        rw [hchk (-2) (by omega)]; rfl
      · rw [h0] at hsc ⊢
        rw [if_neg (by omega), if_neg (by omega), if_pos rfl] at hsc
        show (chkI32 (scaleIn p b k + 2) >>= fun s => Except.ok (s, q1)) = _
        rw [hchk 2 (by omega)]; rfl

theorem motion3_ok (tail : List Nat) (L : Nat) (q : PumpMSB32) (p : Params) (opt : Nat) (hopt : Flags p opt) (b : Nat → Block) (w r k : Nat) (hf : Fits3 p b w r k)
    (rest : List Bool)
    (h : q.RepW tail L ((if p.simple = true then [(b k).moved] else if (b k).moved = true then false :: bitsMSB 3 (b k).mv else [true]) ++ rest)) :
    ∃ q', motion3 opt (motionIn p b k) q = .ok (motion p b k, q') ∧ q'.RepW tail L rest := by
  obtain ⟨_, hsi, _⟩ := flags_ok p opt hopt
  have hm := motion_step p b k
  rw [motion3]
  by_cases hs : p.simple = true
  · rw [if_pos hs] at h hm
    rw [if_pos (hsi.2 hs)]
    obtain ⟨q1, e1, h1⟩ := PumpMSB32.get_bit tail L q _ _ h
    rw [e1, Verif.Orf.ok_bind]
    refine ⟨q1, ?_, h1⟩
    rw [hm]
    cases (b k).moved <;> rfl
  · rw [if_neg hs] at h hm
    rw [if_neg (fun h' => hs (hsi.1 h'))]
    by_cases hv : (b k).moved = true
    · rw [if_pos hv] at h hm
      obtain ⟨q1, e1, h1⟩ := PumpMSB32.get_bit tail L q _ _ h
      obtain ⟨q2, e2, h2⟩ := PumpMSB32.get_field tail L q1 3 _ _ h1 hf.mv (by omega)
      rw [e1, Verif.Orf.ok_bind]
      exact ⟨q2, by rw [hm]; exact e2, h2⟩
    · rw [if_neg hv] at h hm
      obtain ⟨q1, e1, h1⟩ := PumpMSB32.get_bit tail L q _ _ h
      rw [e1, Verif.Orf.ok_bind]
      exact ⟨q1, by rw [hm]; rfl, h1⟩

/-- How the four lengths are kept. -/
def ModesOK (r : Nat) (l : Nat → Nat) (dm : List (Nat × Nat)) : Prop :=
  if r % 2 = 1 then ∃ x, dm = [(l 0, l 1), (l 2, l 3), x] else ∃ x, dm = [(l 2, l 3), x, (l 0, l 1)]

theorem bits3_ok (tail : List Nat) (L depth r : Nat) (op num : Nat → Nat) (i old old2 : Nat) (hi : i < 4) (ho : op i < 4) (hn : num i < 16)
    (h2 : op i = 2 → 0 < old) (hlen : newLen (op i) (num i) old ≤ depth + 1) (q : PumpMSB32) (db : List Nat) (dm : List (Nat × Nat)) (hdb : db.length = 4)
    (colour : Nat) (hcol : (if r % 2 ≠ 0 then i >>> 1 else ((i >>> 1) + 2) % 3) = colour) (hdm : dm[colour]? = some (old, old2)) (rest : List Bool)
    (h : q.RepW tail L ((if op i = 3 then bitsMSB 4 (num i) else []) ++ rest)) :
    ∃ q', bits3 depth r [op 0, op 1, op 2, op 3] i (q, db, dm) =
        .ok (q', db.set i (newLen (op i) (num i) old), dm.set colour (old2, newLen (op i) (num i) old)) ∧ q'.RepW tail L rest := by
  have hfin : ∀ q1 : PumpMSB32, (do
        let db ← upd db i (newLen (op i) (num i) old)
        let dm ← upd dm colour (old2, newLen (op i) (num i) old)
        if newLen (op i) (num i) old > depth + 1 then panic' else (.ok (q1, db, dm) : R (PumpMSB32 × List Nat × List (Nat × Nat)))) =
      .ok (q1, db.set i (newLen (op i) (num i) old), dm.set colour (old2, newLen (op i) (num i) old)) := by
    intro q1
    have hc : colour < dm.length := by
      apply Classical.byContradiction
      intro hc
      rw [List.getElem?_eq_none (by omega)] at hdm
      cases hdm
    rw [upd_lt _ _ _ (by omega), Verif.Orf.ok_bind, upd_lt _ _ _ hc, Verif.Orf.ok_bind, if_neg (by omega)]
  rw [bits3]
  simp only
  rw [hcol, idx, ops_get op i hi]
  simp only
  rw [Verif.Orf.ok_bind, idx, hdm]
  simp only
  rw [Verif.Orf.ok_bind]
  rcases (by omega : op i = 0 ∨ op i = 1 ∨ op i = 2 ∨ op i = 3) with h0 | h0 | h0 | h0
  · rw [if_neg (by omega)] at h
    refine ⟨q, ?_, h⟩
    have e : newLen (op i) (num i) old = old := by rw [newLen, if_pos h0]
    have := hfin q
    rw [e] at this ⊢
    rw [if_pos h0, Verif.Orf.ok_bind]
    exact this
  · rw [if_neg (by omega)] at h
    refine ⟨q, ?_, h⟩
    have e : newLen (op i) (num i) old = old + 1 := by rw [newLen, if_neg (by omega), if_pos h0]
    have := hfin q
    rw [e] at this ⊢
    rw [if_neg (by omega), if_pos h0, Verif.Orf.ok_bind]
    exact this
  · rw [if_neg (by omega)] at h
    refine ⟨q, ?_, h⟩
    have e : newLen (op i) (num i) old = old - 1 := by rw [newLen, if_neg (by omega), if_neg (by omega), if_pos h0]
    have := hfin q
    rw [e] at this ⊢
    rw [if_neg (by omega), if_neg (by omega), if_pos h0, usub, if_pos (show 1 ≤ old from h2 h0), Verif.Orf.ok_bind, Verif.Orf.ok_bind]
    exact this
  · rw [if_pos h0] at h
    obtain ⟨q1, e1, h1⟩ := PumpMSB32.get_field tail L q 4 _ _ h hn (by omega)
    refine ⟨q1, ?_, h1⟩
    have e : newLen (op i) (num i) old = num i := by rw [newLen, if_neg (by omega), if_neg (by omega), if_neg (by omega)]
    have := hfin q1
    rw [e] at this ⊢
    rw [if_neg (by omega), if_neg (by omega), if_neg (by omega), e1, Verif.Orf.ok_bind]
    exact this

theorem allBits3_ok (tail : List Nat) (L : Nat) (q : PumpMSB32) (p : Params) (opt : Nat) (hopt : Flags p opt) (b : Nat → Block) (w r k : Nat) (hf : Fits3 p b w r k)
    (dm : List (Nat × Nat)) (hdm : ModesOK r (lens3 (start r) b k) dm) (rest : List Bool)
    (h : q.RepW tail L ((if p.always = true then [] else [(b k).zero]) ++ ((if (b k).zero = true then [] else lenBits (b k).op (b k).num) ++ rest))) :
    ∃ q' dm', allBits3 p.depth opt r q dm = .ok (q', (List.range 4).map (len3 (start r) b k), dm') ∧ q'.RepW tail L rest ∧
      ModesOK r (lens3 (start r) b (k + 1)) dm' := by
  obtain ⟨hal, _, _⟩ := flags_ok p opt hopt
  have hgo : ∃ q1, (if opt &&& 1 ≠ 0 then .ok (true, q) else do
      let (b, p) ← getBits q 1
      .ok (b = 0, p) : R (Bool × PumpMSB32)) = .ok (! (b k).zero, q1) ∧
      q1.RepW tail L ((if (b k).zero = true then [] else lenBits (b k).op (b k).num) ++ rest) := by
    by_cases ha : p.always = true
    · rw [if_pos ha] at h
      rw [if_pos (hal.2 ha)]
      have hz : (b k).zero = false := by
        cases hz : (b k).zero with
        | false => rfl
        | true => rw [hf.zero hz] at ha; cases ha
      exact ⟨q, by rw [hz]; rfl, h⟩
    · rw [if_neg ha] at h
      rw [if_neg (fun h' => ha (hal.1 h'))]
      obtain ⟨q1, e1, h1⟩ := PumpMSB32.get_bit tail L q _ _ h
      rw [e1, Verif.Orf.ok_bind]
      refine ⟨q1, ?_, h1⟩
      cases (b k).zero <;> rfl
  obtain ⟨q1, e1, h1⟩ := hgo
  rw [allBits3, e1, Verif.Orf.ok_bind]
  simp only
  by_cases hz : (b k).zero = true
  · rw [if_pos hz] at h1
    rw [hz]
    refine ⟨q1, dm, ?_, h1, ?_⟩
    · show Except.ok _ = _
      congr 3
      simp [List.range_succ, len3, hz]
    · have : lens3 (start r) b (k + 1) = lens3 (start r) b k := by funext i; rw [lens3, if_pos hz]
      rw [this]; exact hdm
  · rw [if_neg hz] at h1
    rw [Bool.not_eq_true] at hz
    rw [hz, if_pos (show (!false) = true from rfl)]
    have hnew : ∀ i, lens3 (start r) b (k + 1) i = newLen ((b k).op i) ((b k).num i) (lens3 (start r) b k i) := by
      intro i; rw [lens3, if_neg (by rw [hz]; decide)]
    have hlen3 : ∀ i, len3 (start r) b k i = newLen ((b k).op i) ((b k).num i) (lens3 (start r) b k i) := by
      intro i; rw [len3, if_neg (by rw [hz]; decide), hnew]
    rw [lenBits, List.append_assoc] at h1
    obtain ⟨q2, e2, h2⟩ := ops4_ok tail L q1 (b k).op (fun i hi => (hf.ops i hi).1) _ h1
    rw [e2, Verif.Orf.ok_bind]
    simp only
    have hsplit : ∀ f : Nat → List Bool, (List.range 4).flatMap f ++ rest = f 0 ++ (f 1 ++ (f 2 ++ (f 3 ++ rest))) := by
      intro f; simp [List.range_succ]
    rw [hsplit] at h2
    have hops := hf.ops
    have hlim : ∀ i, i < 4 → newLen ((b k).op i) ((b k).num i) (lens3 (start r) b k i) ≤ p.depth + 1 := by
      intro i hi; rw [← hnew]; exact (hops i hi).2.2.2 hz
    have hpos : ∀ i, i < 4 → (b k).op i = 2 → 0 < lens3 (start r) b k i := fun i hi => (hops i hi).2.2.1 hz
    have hfor : ∀ f : Nat → PumpMSB32 × List Nat × List (Nat × Nat) → R (PumpMSB32 × List Nat × List (Nat × Nat)), ∀ s,
        forN 4 f s = (f 0 s >>= fun s => f 1 s >>= fun s => f 2 s >>= f 3) := by
      intro f s
      rw [forN_succ, forN_succ, forN_succ, forN_succ, forN_zero]
      show (((f 0 s).bind (f 1)).bind (f 2)).bind (f 3) = _
      cases f 0 s with
      | error e => rfl
      | ok s =>
        show ((f 1 s).bind (f 2)).bind (f 3) = ((f 1 s).bind fun s => (f 2 s).bind (f 3))
        cases f 1 s with
        | error e => rfl
        | ok s => rfl
    have hl4 : (List.range 4).map (len3 (start r) b k) = [newLen ((b k).op 0) ((b k).num 0) (lens3 (start r) b k 0),
        newLen ((b k).op 1) ((b k).num 1) (lens3 (start r) b k 1), newLen ((b k).op 2) ((b k).num 2) (lens3 (start r) b k 2),
        newLen ((b k).op 3) ((b k).num 3) (lens3 (start r) b k 3)] := by
      rw [← hlen3, ← hlen3, ← hlen3, ← hlen3]
      rfl
    rw [hfor]
    unfold ModesOK at hdm ⊢
    by_cases hr : r % 2 = 1
    · rw [if_pos hr] at hdm
      obtain ⟨x, rfl⟩ := hdm
      have hc : ∀ i, (if r % 2 ≠ 0 then i >>> 1 else ((i >>> 1) + 2) % 3) = i >>> 1 := fun i => if_pos (by omega)
      obtain ⟨q3, e3, h3⟩ := bits3_ok tail L p.depth r (b k).op (b k).num 0 (lens3 (start r) b k 0) (lens3 (start r) b k 1) (by omega) (hops 0 (by omega)).1 (hops 0 (by omega)).2.1
        (hpos 0 (by omega)) (hlim 0 (by omega)) q2 [0, 0, 0, 0]
        [(lens3 (start r) b k 0, lens3 (start r) b k 1), (lens3 (start r) b k 2, lens3 (start r) b k 3), x] rfl 0 (hc 0) rfl _ h2
      rw [e3, Verif.Orf.ok_bind]
      simp only [List.set_cons_zero, List.set_cons_succ]
      obtain ⟨q4, e4, h4⟩ := bits3_ok tail L p.depth r (b k).op (b k).num 1 (lens3 (start r) b k 1) (newLen ((b k).op 0) ((b k).num 0) (lens3 (start r) b k 0)) (by omega) (hops 1 (by omega)).1 (hops 1 (by omega)).2.1
        (hpos 1 (by omega)) (hlim 1 (by omega)) q3 [newLen ((b k).op 0) ((b k).num 0) (lens3 (start r) b k 0), 0, 0, 0]
        [(lens3 (start r) b k 1, newLen ((b k).op 0) ((b k).num 0) (lens3 (start r) b k 0)), (lens3 (start r) b k 2, lens3 (start r) b k 3), x] rfl 0 (hc 1) rfl _ h3
      rw [e4, Verif.Orf.ok_bind]
      simp only [List.set_cons_zero, List.set_cons_succ]
      obtain ⟨q5, e5, h5⟩ := bits3_ok tail L p.depth r (b k).op (b k).num 2 (lens3 (start r) b k 2) (lens3 (start r) b k 3) (by omega) (hops 2 (by omega)).1 (hops 2 (by omega)).2.1
        (hpos 2 (by omega)) (hlim 2 (by omega)) q4 [newLen ((b k).op 0) ((b k).num 0) (lens3 (start r) b k 0), newLen ((b k).op 1) ((b k).num 1) (lens3 (start r) b k 1), 0, 0]
        [(newLen ((b k).op 0) ((b k).num 0) (lens3 (start r) b k 0), newLen ((b k).op 1) ((b k).num 1) (lens3 (start r) b k 1)), (lens3 (start r) b k 2, lens3 (start r) b k 3), x] rfl 1 (hc 2) rfl _ h4
      rw [e5, Verif.Orf.ok_bind]
      simp only [List.set_cons_zero, List.set_cons_succ]
      obtain ⟨q6, e6, h6⟩ := bits3_ok tail L p.depth r (b k).op (b k).num 3 (lens3 (start r) b k 3) (newLen ((b k).op 2) ((b k).num 2) (lens3 (start r) b k 2)) (by omega) (hops 3 (by omega)).1 (hops 3 (by omega)).2.1
        (hpos 3 (by omega)) (hlim 3 (by omega)) q5 [newLen ((b k).op 0) ((b k).num 0) (lens3 (start r) b k 0), newLen ((b k).op 1) ((b k).num 1) (lens3 (start r) b k 1), newLen ((b k).op 2) ((b k).num 2) (lens3 (start r) b k 2), 0]
        [(newLen ((b k).op 0) ((b k).num 0) (lens3 (start r) b k 0), newLen ((b k).op 1) ((b k).num 1) (lens3 (start r) b k 1)), (lens3 (start r) b k 3, newLen ((b k).op 2) ((b k).num 2) (lens3 (start r) b k 2)), x] rfl 1 (hc 3) rfl _ h5
      rw [e6]
      rw [hl4]
      exact ⟨q6, _, rfl, h6, by rw [if_pos hr]; exact ⟨x, by rw [hnew, hnew, hnew, hnew]; rfl⟩⟩
    · rw [if_neg hr] at hdm
      obtain ⟨x, rfl⟩ := hdm
      have hc : ∀ i, (if r % 2 ≠ 0 then i >>> 1 else ((i >>> 1) + 2) % 3) = ((i >>> 1) + 2) % 3 := fun i => if_neg (by omega)
      obtain ⟨q3, e3, h3⟩ := bits3_ok tail L p.depth r (b k).op (b k).num 0 (lens3 (start r) b k 0) (lens3 (start r) b k 1) (by omega) (hops 0 (by omega)).1 (hops 0 (by omega)).2.1
        (hpos 0 (by omega)) (hlim 0 (by omega)) q2 [0, 0, 0, 0]
        [(lens3 (start r) b k 2, lens3 (start r) b k 3), x, (lens3 (start r) b k 0, lens3 (start r) b k 1)] rfl 2 (hc 0) rfl _ h2
      rw [e3, Verif.Orf.ok_bind]
      simp only [List.set_cons_zero, List.set_cons_succ]
      obtain ⟨q4, e4, h4⟩ := bits3_ok tail L p.depth r (b k).op (b k).num 1 (lens3 (start r) b k 1) (newLen ((b k).op 0) ((b k).num 0) (lens3 (start r) b k 0)) (by omega) (hops 1 (by omega)).1 (hops 1 (by omega)).2.1
        (hpos 1 (by omega)) (hlim 1 (by omega)) q3 [newLen ((b k).op 0) ((b k).num 0) (lens3 (start r) b k 0), 0, 0, 0]
        [(lens3 (start r) b k 2, lens3 (start r) b k 3), x, (lens3 (start r) b k 1, newLen ((b k).op 0) ((b k).num 0) (lens3 (start r) b k 0))] rfl 2 (hc 1) rfl _ h3
      rw [e4, Verif.Orf.ok_bind]
      simp only [List.set_cons_zero, List.set_cons_succ]
      obtain ⟨q5, e5, h5⟩ := bits3_ok tail L p.depth r (b k).op (b k).num 2 (lens3 (start r) b k 2) (lens3 (start r) b k 3) (by omega) (hops 2 (by omega)).1 (hops 2 (by omega)).2.1
        (hpos 2 (by omega)) (hlim 2 (by omega)) q4 [newLen ((b k).op 0) ((b k).num 0) (lens3 (start r) b k 0), newLen ((b k).op 1) ((b k).num 1) (lens3 (start r) b k 1), 0, 0]
        [(lens3 (start r) b k 2, lens3 (start r) b k 3), x, (newLen ((b k).op 0) ((b k).num 0) (lens3 (start r) b k 0), newLen ((b k).op 1) ((b k).num 1) (lens3 (start r) b k 1))] rfl 0 (hc 2) rfl _ h4
      rw [e5, Verif.Orf.ok_bind]
      simp only [List.set_cons_zero, List.set_cons_succ]
      obtain ⟨q6, e6, h6⟩ := bits3_ok tail L p.depth r (b k).op (b k).num 3 (lens3 (start r) b k 3) (newLen ((b k).op 2) ((b k).num 2) (lens3 (start r) b k 2)) (by omega) (hops 3 (by omega)).1 (hops 3 (by omega)).2.1
        (hpos 3 (by omega)) (hlim 3 (by omega)) q5 [newLen ((b k).op 0) ((b k).num 0) (lens3 (start r) b k 0), newLen ((b k).op 1) ((b k).num 1) (lens3 (start r) b k 1), newLen ((b k).op 2) ((b k).num 2) (lens3 (start r) b k 2), 0]
        [(lens3 (start r) b k 3, newLen ((b k).op 2) ((b k).num 2) (lens3 (start r) b k 2)), x, (newLen ((b k).op 0) ((b k).num 0) (lens3 (start r) b k 0), newLen ((b k).op 1) ((b k).num 1) (lens3 (start r) b k 1))] rfl 0 (hc 3) rfl _ h5
      rw [e6]
      rw [hl4]
      exact ⟨q6, _, rfl, h6, by rw [if_neg hr]; exact ⟨x, by rw [hnew, hnew, hnew, hnew]; rfl⟩⟩

/-! ## Pixels -/

theorem Filled.set {w h : Nat} {px : Nat → Nat → Nat} {D : Nat → Nat → Prop} {out : List Nat} (hf : Filled w h px D out) {r c : Nat}
    (hr : r < h) (hc : c < w) (v : Nat) (qx : Nat → Nat → Nat) (D' : Nat → Nat → Prop) (hv : qx r c = v)
    (hq : ∀ a b, a < h → b < w → ¬ (a = r ∧ b = c) → D' a b → D a b ∧ qx a b = px a b) :
    ∃ out', upd out (r * w + c) v = .ok out' ∧ Filled w h qx D' out' := by
  have hl : r * w + c < out.length := by rw [hf.1]; exact mul_add_lt hr hc
  refine ⟨out.set (r * w + c) v, upd_lt _ _ _ hl, by rw [List.length_set]; exact hf.1, ?_⟩
  intro a b ha hb hd
  by_cases he : a = r ∧ b = c
  · obtain ⟨rfl, rfl⟩ := he
    rw [List.getElem?_set_self hl, hv]
  · obtain ⟨h1, h2⟩ := hq a b ha hb he hd
    rw [List.getElem?_set_ne (by intro h'; exact he (cell_inj hb hc h'.symm)), hf.2 a b ha hb h1, h2]

/-- The picture with the predictions in block `k` of row `r`. -/
def predicted (p : Params) (b : Nat → Nat → Block) (px : Nat → Nat → Nat) (r k : Nat) (a c : Nat) : Nat :=
  if a = r ∧ 16 * k ≤ c then before3 p b px a c else px a c

theorem clamp_lt (depth : Nat) (v : Int) : clamp depth v < 2 ^ depth := by
  have := Nat.two_pow_pos depth
  have hc : ((2 ^ depth : Nat) : Int) = 2 ^ depth := by simp
  unfold clamp
  split
  · omega
  · split
    · omega
    · rw [← Int.ofNat_lt, hc]; omega

theorem same3_ok (w h : Nat) (px : Nat → Nat → Nat) (p : Params) (b : Nat → Nat → Block) (r k i : Nat) (hr : r < h) (hc : 16 * k + 16 ≤ w) (hi : i < 16)
    (hm : motion p (b r) k = 7) (out : List Nat) (hf : Filled w h (predicted p b px r k) (fun a c => a < r ∨ (a = r ∧ c < 16 * k + i)) out) :
    ∃ out', same3 p.init (w * r) (16 * k) i out = .ok out' ∧
      Filled w h (predicted p b px r k) (fun a c => a < r ∨ (a = r ∧ c < 16 * k + (i + 1))) out' := by
  have hdiv : (16 * k + i) / 16 = k := by omega
  have hb : predicted p b px r k r (16 * k + i) = if k = 0 then p.init else px r (16 * k - 2 + i % 2) := by
    rw [predicted, if_pos ⟨rfl, by omega⟩, before3, hdiv]
    simp only [hm, if_true]
    rw [show (16 * k + i) % 2 = i % 2 by omega]
  obtain ⟨out', eo, fo⟩ := hf.put (D' := fun a c => a < r ∨ (a = r ∧ c < 16 * k + (i + 1))) hr (show 16 * k + i < w by omega) (by intro a b; omega)
  refine ⟨out', ?_, fo⟩
  have hix : w * r + 16 * k + i = r * w + (16 * k + i) := by rw [Nat.mul_comm, Nat.add_assoc]
  rw [same3]
  by_cases h0 : k = 0
  · rw [if_pos (by omega), Verif.Orf.ok_bind, hix]
    rw [hb, if_pos h0] at eo
    exact eo
  · rw [if_neg (by omega), usub, if_pos (by omega), Verif.Orf.ok_bind]
    have hg : idx out (r * w + (16 * k + i - 2)) = .ok (px r (16 * k - 2 + i % 2)) := by
      rw [hf.get hr (by omega) (Or.inr ⟨rfl, by omega⟩)]
      by_cases h2 : i < 2
      · rw [predicted, if_neg (by omega), show 16 * k + i - 2 = 16 * k - 2 + i % 2 by omega]
      · rw [predicted, if_pos ⟨rfl, by omega⟩, before3, show (16 * k + i - 2) / 16 = k by omega]
        simp only [hm, if_true]
        rw [if_neg h0, show (16 * k + i - 2) % 2 = i % 2 by omega]
    rw [show w * r + 16 * k + i - 2 = r * w + (16 * k + i - 2) by rw [hix]; omega, hg, Verif.Orf.ok_bind, hix]
    rw [hb, if_neg h0] at eo
    exact eo

theorem slide_ok : ∀ m : Fin 7, idx [-4, -2, -2, 0, 0, 2, 4] m.val = .ok (shift m.val) ∧
    idx [0, 0, 1, 0, 1, 0, 0] m.val = .ok (if mean m.val = true then 1 else 0) := by
  intro m
  rcases m with ⟨m, hm⟩
  rcases (by omega : m = 0 ∨ m = 1 ∨ m = 2 ∨ m = 3 ∨ m = 4 ∨ m = 5 ∨ m = 6) with rfl | rfl | rfl | rfl | rfl | rfl | rfl <;> exact ⟨rfl, rfl⟩

theorem above3_ok (w h : Nat) (px : Nat → Nat → Nat) (p : Params) (b : Nat → Nat → Block) (r k i : Nat) (hr : r < h) (hc : 16 * k + 16 ≤ w) (hi : i < 16)
    (hr2 : 2 ≤ r) (hm : motion p (b r) k ≠ 7) (hm8 : motion p (b r) k < 8)
    (hin : 0 ≤ refCol (motion p (b r) k) r (16 * k + i) ∧ refCol (motion p (b r) k) r (16 * k + i) + (if mean (motion p (b r) k) then 2 else 0) < w)
    (hpx : ∀ a c, a < h → c < w → px a c < 2 ^ 15)
    (out : List Nat) (hf : Filled w h (predicted p b px r k) (fun a c => a < r ∨ (a = r ∧ c < 16 * k + i)) out) :
    ∃ out', above3 (w * r) (w * (max 1 r - 1)) (w * (max 2 r - 2)) r (16 * k) (motion p (b r) k) i out = .ok out' ∧
      Filled w h (predicted p b px r k) (fun a c => a < r ∨ (a = r ∧ c < 16 * k + (i + 1))) out' := by
  have hdiv : (16 * k + i) / 16 = k := by omega
  obtain ⟨m, hmm⟩ : ∃ m, m = motion p (b r) k := ⟨_, rfl⟩
  obtain ⟨q, hq⟩ : ∃ q, q = (refCol m r (16 * k + i)).toNat := ⟨_, rfl⟩
  obtain ⟨r', hr'⟩ : ∃ r', r' = refRow r (16 * k + i) := ⟨_, rfl⟩
  have hrr : r' < r := by rw [hr', refRow]; split <;> omega
  have hb : predicted p b px r k r (16 * k + i) = if mean m then (px r' q + px r' (q + 2) + 1) / 2 else px r' q := by
    rw [predicted, if_pos ⟨rfl, by omega⟩, before3, hdiv]
    simp only [← hmm, ← hq, ← hr']
    rw [if_neg (by rw [hmm]; exact hm)]
  rw [← hmm] at hin hm hm8 ⊢
  obtain ⟨out', eo, fo⟩ := hf.put (D' := fun a c => a < r ∨ (a = r ∧ c < 16 * k + (i + 1))) hr (show 16 * k + i < w by omega) (by intro a b; omega)
  rw [hb] at eo
  refine ⟨out', ?_, fo⟩
  have hqi : (q : Int) = refCol m r (16 * k + i) := by rw [hq]; exact Int.toNat_of_nonneg hin.1
  have hqw : q + (if mean m then 2 else 0) < w := by
    have := hin.2; rw [← hqi] at this
    split at this <;> split <;> simp_all <;> omega
  have hget : ∀ c, c < w → idx out (r' * w + c) = .ok (px r' c) := by
    intro c hc'
    rw [hf.get (show r' < h by omega) hc' (Or.inl hrr), predicted, if_neg (by omega)]
  have hix : w * r + 16 * k + i = r * w + (16 * k + i) := by rw [Nat.mul_comm, Nat.add_assoc]
  obtain ⟨hs1, hs2⟩ := slide_ok ⟨m, by omega⟩
  simp only at hs1 hs2
  rw [above3, hs1, Verif.Orf.ok_bind, hs2, Verif.Orf.ok_bind, Nat.max_eq_right (show 1 ≤ r by omega), Nat.max_eq_right hr2]
  have href : (if (r + i) % 2 ≠ 0 then isIndex (((w * (r - 2) + 16 * k + i : Nat) : Int) + shift m)
    else if i % 2 ≠ 0 then isIndex (((w * (r - 1) + 16 * k + i - 1 : Nat) : Int) + shift m)
    else isIndex (((w * (r - 1) + 16 * k + i + 1 : Nat) : Int) + shift m) : R Nat) = .ok (r' * w + q) := by
    have hR : (r' * w : Nat) = if (r + (16 * k + i)) % 2 = 1 then w * (r - 2) else w * (r - 1) := by
      rw [hr', refRow]; split <;> exact Nat.mul_comm _ _
    rw [refCol] at hqi
    by_cases h1 : (r + i) % 2 ≠ 0
    · rw [if_pos h1]
      rw [if_pos (by omega)] at hR hqi
      rw [isIndex, if_pos (by omega), hR]
      congr 1
      omega
    · rw [if_neg h1]
      rw [if_neg (by omega)] at hR hqi
      by_cases h2 : i % 2 ≠ 0
      · rw [if_pos h2]
        rw [if_pos (by omega)] at hqi
        rw [isIndex, if_pos (by omega), hR]
        congr 1
        omega
      · rw [if_neg h2]
        rw [if_neg (by omega)] at hqi
        rw [isIndex, if_pos (by omega), hR]
        congr 1
        omega
  rw [href, Verif.Orf.ok_bind, hget q (by split at hqw <;> omega), Verif.Orf.ok_bind]
  by_cases ha : mean m = true
  · rw [if_pos ha] at hqw eo
    have h1 := hpx r' q (by omega) (by omega)
    have h2 := hpx r' (q + 2) (by omega) (by omega)
    rw [if_pos (by rw [if_pos ha]; decide), Nat.add_assoc, hget (q + 2) (by omega), Verif.Orf.ok_bind, chkU16, if_pos (by omega), Verif.Orf.ok_bind,
      chkU16, if_pos (by omega), Verif.Orf.ok_bind, hix, Nat.shiftRight_eq_div_pow]
    exact eo
  · rw [if_neg ha] at eo
    rw [if_neg (by rw [if_neg ha]; decide), hix]
    exact eo

/-- The picture with the differences added to the first `j` pixels of the block. -/
def partly (p : Params) (b : Nat → Nat → Block) (px : Nat → Nat → Nat) (r k j : Nat) (a c : Nat) : Nat :=
  if a = r ∧ 16 * k ≤ c ∧ ∀ i, i < j → order3 r i ≠ c - 16 * k then before3 p b px a c else px a c

theorem order3_lt : ∀ j : Fin 16, ∀ r : Fin 2, order3 r.val j.val < 16 := by decide
theorem order3_mod (r j : Nat) : order3 r j = order3 (r % 2) j := by rw [order3, order3, Nat.mod_mod]
theorem order3_inj : ∀ r : Fin 2, ∀ i j : Fin 16, order3 r.val i.val = order3 r.val j.val → i = j := by decide
theorem order3_all : ∀ r : Fin 2, ∀ c : Fin 16, ∃ i : Fin 16, order3 r.val i.val = c.val := by decide
theorem order3_pos : ∀ j : Fin 16, (((j.val &&& 7) <<< 1) + 1 - (j.val >>> 3) = order3 1 j.val) ∧ (((j.val &&& 7) <<< 1) + (j.val >>> 3) = order3 0 j.val) := by decide

theorem clampbits_ok (v : Int) (depth : Nat) : clampbits v depth = clamp depth v := by
  rw [clampbits, clamp]
  by_cases h1 : v < 0
  · rw [if_pos h1, if_pos h1]
  · rw [if_neg h1, if_neg h1]
    by_cases h2 : (2 : Int) ^ depth ≤ v
    · rw [if_pos h2, if_pos (by omega)]
      have hc : ((2 ^ depth : Nat) : Int) = 2 ^ depth := by simp
      rw [← hc]
      omega
    · rw [if_neg h2, if_neg (by omega)]

theorem diff3_ok (w h : Nat) (px : Nat → Nat → Nat) (p : Params) (b : Nat → Nat → Block) (hdep : p.depth ≤ 15) (hpic : Picture p b w h px) (r k j : Nat) (hr : r < h)
    (hc : 16 * k + 16 ≤ w) (hj : j < 16) (hbf : ∀ c, 16 * k ≤ c → c < 16 * k + 16 → before3 p b px r c < 65536)
    (hf : Fits3 p (b r) w r k) (tail : List Nat) (L : Nat) (q : PumpMSB32) (out : List Nat) (rest : List Bool)
    (hi : Filled w h (partly p b px r k j) (fun a c => a < r ∨ (a = r ∧ c < 16 * k + 16)) out)
    (hrep : q.RepW tail L (field (len3 (start r) (b r) k (j / 4)) ((b r k).diff (order3 r j)) ++ rest)) :
    ∃ q' out', diff3 p.depth r (w * r) (16 * k) (scale p (b r) k) ((List.range 4).map (len3 (start r) (b r) k)) j (q, out) = .ok (q', out') ∧
      q'.RepW tail L rest ∧ Filled w h (partly p b px r k (j + 1)) (fun a c => a < r ∨ (a = r ∧ c < 16 * k + 16)) out' := by
  have hq : j / 4 < 4 := by omega
  have hlen : len3 (start r) (b r) k (j / 4) ≤ 16 := by
    rw [len3]
    split
    · omega
    · rename_i hz
      have := (hf.ops (j / 4) hq).2.2.2 (by simpa using hz)
      omega
  have hin := hf.diffs j hj
  obtain ⟨q', e, h'⟩ := sext_ok tail L q _ _ rest hrep hin (by omega)
  have hord : order3 r j < 16 := by rw [order3_mod]; exact order3_lt ⟨j, hj⟩ ⟨r % 2, by omega⟩
  obtain ⟨o, ho⟩ : ∃ o, o = order3 r j := ⟨_, rfl⟩
  rw [← ho] at hord hin e
  obtain ⟨d, hd⟩ : ∃ d, d = (b r k).diff o := ⟨_, rfl⟩
  rw [← hd] at hin e
  have hdb : -2 ^ 15 ≤ d ∧ d < 2 ^ 15 := by
    unfold InField at hin
    split at hin
    · omega
    · rename_i hne
      have hp : (2 : Int) ^ (len3 (start r) (b r) k (j / 4) - 1) ≤ 2 ^ 15 := by
        have : 2 ^ (len3 (start r) (b r) k (j / 4) - 1) ≤ 2 ^ 15 := Nat.pow_le_pow_right (by omega) (by omega)
        exact_mod_cast this
      omega
  obtain ⟨s, hs⟩ : ∃ s, s = scale p (b r) k := ⟨_, rfl⟩
  have hsb := hf.scale
  rw [← hs] at hsb
  have hprod : -2 ^ 30 ≤ d * (2 * s + 1) ∧ d * (2 * s + 1) ≤ 2 ^ 30 := by
    have h1 : (d * (2 * s + 1)).natAbs ≤ 2 ^ 15 * 2 ^ 15 := by
      rw [Int.natAbs_mul]; exact Nat.mul_le_mul (by omega) (by omega)
    have : 2 ^ 15 * 2 ^ 15 = 2 ^ 30 := by decide
    omega
  have hnot : ∀ i, i < j → order3 r i ≠ o := by
    intro i hij he
    rw [ho, order3_mod, order3_mod r j] at he
    have := order3_inj ⟨r % 2, by omega⟩ ⟨i, by omega⟩ ⟨j, hj⟩ he
    simp at this
    omega
  have hg := hi.get (r := r) (c := 16 * k + o) hr (by omega) (Or.inr ⟨rfl, by omega⟩)
  rw [partly, if_pos ⟨rfl, by omega, by rw [Nat.add_sub_cancel_left]; exact hnot⟩] at hg
  have hpx := hpic r (16 * k + o) hr (by omega)
  rw [show (16 * k + o) / 16 = k by omega, show (16 * k + o) % 16 = o by omega, ← hs, ← hd] at hpx
  obtain ⟨out', eo, fo⟩ := hi.set (r := r) (c := 16 * k + o) hr (by omega) (px r (16 * k + o)) (partly p b px r k (j + 1))
    (fun a c => a < r ∨ (a = r ∧ c < 16 * k + 16)) (by
      rw [partly, if_neg]
      rintro ⟨_, _, h3⟩
      exact h3 j (by omega) (by rw [Nat.add_sub_cancel_left, ho])) (by
      intro a c ha hc' hne hD
      refine ⟨hD, ?_⟩
      rw [partly, partly]
      by_cases h1 : a = r ∧ 16 * k ≤ c ∧ ∀ i, i < j → order3 r i ≠ c - 16 * k
      · rw [if_pos h1, if_pos]
        refine ⟨h1.1, h1.2.1, ?_⟩
        intro i hi he
        by_cases hij : i = j
        · subst hij
          rw [← ho] at he
          exact hne ⟨h1.1, by omega⟩
        · exact h1.2.2 i (by omega) he
      · rw [if_neg h1, if_neg]
        rintro ⟨h2, h3, h4⟩
        exact h1 ⟨h2, h3, fun i hi => h4 i (by omega)⟩)
  refine ⟨q', out', ?_, h', fo⟩
  have hgl : ((List.range 4).map (len3 (start r) (b r) k))[j >>> 2]? = some (len3 (start r) (b r) k (j / 4)) := by
    rw [Nat.shiftRight_eq_div_pow, List.getElem?_map, List.getElem?_range hq]; rfl
  have hbv := hbf (16 * k + o) (by omega) (by omega)
  have chk : ∀ x : Int, -2 ^ 31 ≤ x → x < 2 ^ 31 → chkI32 x = .ok x := fun x h1 h2 => by rw [chkI32, if_pos ⟨h1, h2⟩]
  have hpos : (if r % 2 ≠ 0 then ((j &&& 7) <<< 1) + 1 - (j >>> 3) else ((j &&& 7) <<< 1) + (j >>> 3)) + w * r + 16 * k = r * w + (16 * k + o) := by
    obtain ⟨a1, a2⟩ := order3_pos ⟨j, hj⟩
    simp only at a1 a2
    rw [a1, a2, Nat.mul_comm w r, ho, order3_mod r j]
    rcases Nat.mod_two_eq_zero_or_one r with h | h
    · rw [h, if_neg (by omega)]; omega
    · rw [h, if_pos (by omega)]; omega
  rw [diff3, idx, hgl]
  simp only
  rw [Verif.Orf.ok_bind, e, Verif.Orf.ok_bind]
  simp only
  rw [← hs, chk _ (by omega) (by omega), Verif.Orf.ok_bind, chk _ (by omega) (by omega), Verif.Orf.ok_bind, Int.mul_comm s 2, chk _ (by omega) (by omega), Verif.Orf.ok_bind,
    chk _ (by omega) (by omega), Verif.Orf.ok_bind, hpos, hg, Verif.Orf.ok_bind, chk _ (by omega) (by omega), Verif.Orf.ok_bind, clampbits_ok, ← Int.add_assoc, ← hpx, eo, Verif.Orf.ok_bind]

/-! ## Blocks, rows, image -/

theorem motion_le (p : Params) (b : Nat → Block) (k : Nat) (h : ∀ i, i ≤ k → (b i).mv < 8) : motion p b k < 8 := by
  induction k with
  | zero =>
    have := h 0 (by omega)
    rw [motion_step, motionIn, if_pos rfl]
    split
    · split <;> omega
    · split <;> omega
  | succ k ih =>
    have := h (k + 1) (by omega)
    have := ih (fun i hi => h i (by omega))
    rw [motion_step, show motionIn p b (k + 1) = motion p b k from rfl]
    split
    · split <;> omega
    · split <;> omega

/-- State before block `k` of row `r`. -/
structure Inv3 (w h : Nat) (px : Nat → Nat → Nat) (p : Params) (b : Nat → Nat → Block) (r k : Nat) (s : St3) : Prop where
  motion : s.motion = motionIn p (b r) k
  scale : s.scale = scaleIn p (b r) k
  modes : ModesOK r (lens3 (start r) (b r) k) s.modes
  out : Filled w h px (fun a c => a < r ∨ (a = r ∧ c < 16 * k)) s.out

theorem block3_ok (w h : Nat) (px : Nat → Nat → Nat) (p : Params) (opt : Nat) (hopt : Flags p opt) (b : Nat → Nat → Block) (hdep : p.depth ≤ 15) (hinit : p.init < 65536)
    (hpic : Picture p b w h px) (r k : Nat) (hr : r < h) (hc : 16 * k + 16 ≤ w)
    (hf : Fits3 p (b r) w r k) (hm8 : Spec.Srw.motion p (b r) k < 8) (tail : List Nat) (L : Nat) (q : PumpMSB32) (s : St3) (rest : List Bool) (hi : Inv3 w h px p b r k s)
    (hrep : q.RepW tail L (blockBits p (b r) r k ++ rest)) :
    ∃ q' s', block3 p.depth opt p.init w r k (q, s) = .ok (q', s') ∧ q'.RepW tail L rest ∧ Inv3 w h px p b r (k + 1) s' := by
  have hpx15 : ∀ a c, a < h → c < w → px a c < 2 ^ 15 := by
    intro a c ha hc
    rw [hpic a c ha hc]
    exact Nat.lt_of_lt_of_le (clamp_lt _ _) (Nat.pow_le_pow_right (by omega) hdep)
  rw [blockBits] at hrep
  simp only [List.append_assoc] at hrep
  obtain ⟨q1, e1, h1⟩ := scale3_ok tail L q p opt hopt (b r) w r k hf _ hrep
  obtain ⟨q2, e2, h2⟩ := motion3_ok tail L q1 p opt hopt (b r) w r k hf _ h1
  obtain ⟨q3, dm, e3, h3, hdm⟩ := allBits3_ok tail L q2 p opt hopt (b r) w r k hf s.modes hi.modes _ h2
  have hstart : Filled w h (predicted p b px r k) (fun a c => a < r ∨ (a = r ∧ c < 16 * k + 0)) s.out := by
    refine ⟨hi.out.1, ?_⟩
    intro a c ha hc' hd
    rw [hi.out.2 a c ha hc' (by omega), predicted, if_neg (by omega)]
  have hpred : ∃ out, (if Spec.Srw.motion p (b r) k = 7 then forN 16 (same3 p.init (w * r) (16 * k)) s.out
      else forN 16 (above3 (w * r) (w * (max 1 r - 1)) (w * (max 2 r - 2)) r (16 * k) (Spec.Srw.motion p (b r) k)) s.out : R (List Nat)) = .ok out ∧
      Filled w h (predicted p b px r k) (fun a c => a < r ∨ (a = r ∧ c < 16 * k + 16)) out := by
    by_cases hm : Spec.Srw.motion p (b r) k = 7
    · rw [if_pos hm]
      exact forN_ex 16 _ (fun i out => Filled w h (predicted p b px r k) (fun a c => a < r ∨ (a = r ∧ c < 16 * k + i)) out)
        (fun i out hi' hf' => same3_ok w h px p b r k i hr hc hi' hm out hf') s.out hstart
    · rw [if_neg hm]
      have hr2 : 2 ≤ r := by
        apply Classical.byContradiction
        intro hlt
        exact hm (hf.top (by omega))
      exact forN_ex 16 _ (fun i out => Filled w h (predicted p b px r k) (fun a c => a < r ∨ (a = r ∧ c < 16 * k + i)) out)
        (fun i out hi' hf' => above3_ok w h px p b r k i hr hc hi' hr2 hm hm8 (hf.inside hm i hi') hpx15 out hf') s.out hstart
  obtain ⟨out, eo, fo⟩ := hpred
  have hbf : ∀ c, 16 * k ≤ c → c < 16 * k + 16 → before3 p b px r c < 65536 := by
    intro c h1 h2
    have hdiv : c / 16 = k := by omega
    rw [before3, hdiv]
    simp only
    split
    · split
      · exact hinit
      · have := hpx15 r (16 * k - 2 + c % 2) hr (by omega)
        omega
    · rename_i hm
      obtain ⟨i1, i2⟩ := hf.inside hm (c - 16 * k) (by omega)
      rw [show 16 * k + (c - 16 * k) = c by omega] at i1 i2
      have hrow : refRow r c < h := by rw [refRow]; split <;> omega
      split
      · rename_i ha
        rw [if_pos ha] at i2
        have a1 := hpx15 (refRow r c) (refCol (Spec.Srw.motion p (b r) k) r c).toNat hrow (by omega)
        have a2 := hpx15 (refRow r c) ((refCol (Spec.Srw.motion p (b r) k) r c).toNat + 2) hrow (by omega)
        omega
      · rename_i ha
        rw [if_neg ha] at i2
        have a1 := hpx15 (refRow r c) (refCol (Spec.Srw.motion p (b r) k) r c).toNat hrow (by omega)
        omega
  obtain ⟨q4, out4, e4, h4, i4⟩ := forN_code (fun (q : PumpMSB32) l => q.RepW tail L l) 16 _ _
    (fun j out => Filled w h (partly p b px r k j) (fun a c => a < r ∨ (a = r ∧ c < 16 * k + 16)) out) 0 (by
      intro j hj q out rest hi hrep _
      exact diff3_ok w h px p b hdep hpic r k j hr hc hj hbf hf tail L q out rest hi hrep) q3 out rest (by
      refine ⟨fo.1, ?_⟩
      intro a c ha hc' hd
      rw [fo.2 a c ha hc' hd, predicted, partly]
      by_cases h' : a = r ∧ 16 * k ≤ c
      · rw [if_pos h', if_pos ⟨h'.1, h'.2, by omega⟩]
      · rw [if_neg h', if_neg (by rintro ⟨x, y, _⟩; exact h' ⟨x, y⟩)]) h3 (by omega)
  refine ⟨q4, ⟨Spec.Srw.motion p (b r) k, Spec.Srw.scale p (b r) k, dm, out4⟩, ?_, h4, rfl, rfl, hdm, ?_⟩
  · rw [block3]
    simp only
    rw [hi.scale, e1, Verif.Orf.ok_bind]
    simp only
    rw [hi.motion, e2, Verif.Orf.ok_bind]
    simp only
    rw [if_neg (by rintro ⟨x, y⟩; exact y (hf.top x)), eo, Verif.Orf.ok_bind, e3, Verif.Orf.ok_bind]
    simp only
    rw [e4, Verif.Orf.ok_bind]
  · refine ⟨i4.1, ?_⟩
    intro a c ha hc' hd
    rw [i4.2 a c ha hc' (by omega), partly, if_neg]
    rintro ⟨h1, h2, h3⟩
    obtain ⟨i, hi'⟩ := order3_all ⟨r % 2, by omega⟩ ⟨c - 16 * k, by omega⟩
    exact h3 i.val i.isLt (by rw [order3_mod]; exact hi')

theorem align16_ok (n : Nat) : align16 n = (n + 15) / 16 * 16 := by
  have h : n &&& 15 = n % 16 := Nat.and_two_pow_sub_one_eq_mod n 4
  rw [align16, h]
  split <;> omega

theorem rowStart_mod (p : Params) (b : Nat → Nat → Block) (m r : Nat) : rowStart p b m r % 16 = 0 := by
  induction r with
  | zero => rw [rowStart]
  | succ r ih => rw [rowStart]; omega

theorem row3_ok (buf : List Nat) (hb : IsBytes buf) (w h m : Nat) (hw : w = 16 * m) (px : Nat → Nat → Nat) (p : Params) (opt : Nat) (hopt : Flags p opt) (b : Nat → Nat → Block) (hdep : p.depth ≤ 15)
    (hinit : p.init < 65536) (hpic : Picture p b w h px) (r : Nat) (hr : r < h) (hf : ∀ k, k < m → Fits3 p (b r) w r k)
    (hbits : BitsAt buf (rowStart p b m r) (row3Bits p b m r)) (q : PumpMSB32) (off pos : Nat) (hpos : q.getPos = .ok pos)
    (hoff : align16 (off + pos) = rowStart p b m r) (out : List Nat) (hi : Filled w h px (fun a _ => a < r) out) :
    ∃ q' pos' out', row3 buf p.depth opt p.init w r (q, off, out) = .ok (q', rowStart p b m r, out') ∧ q'.getPos = .ok pos' ∧
      align16 (rowStart p b m r + pos') = rowStart p b m (r + 1) ∧ Filled w h px (fun a _ => a < r + 1) out' := by
  obtain ⟨src, tail, L, pad, e1, hrep, hlen⟩ := repW_at buf hb _ _ hbits
  have hrep' := hrep
  rw [row3Bits] at hrep'
  obtain ⟨q', s', e, h', hi'⟩ := forN_code (fun (q : PumpMSB32) l => q.RepW tail L l) m (block3 p.depth opt p.init w r) _
    (fun k s => Inv3 w h px p b r k s) 0 (by
      intro k hk q s rest hi hrep _
      exact block3_ok w h px p opt hopt b hdep hinit hpic r k hr (by omega) (hf k hk) (motion_le p (b r) k (fun i hi => (hf i (by omega)).mv)) tail L q s rest hi hrep)
    (PumpMSB32.new src) ⟨7, 0, List.replicate 3 (if r < 2 then 7 else 4, if r < 2 then 7 else 4), out⟩ pad
    ⟨rfl, rfl, by
      unfold ModesOK
      split
      · exact ⟨_, rfl⟩
      · exact ⟨_, rfl⟩, hi.mono (by intro a c _ _ hd; omega)⟩ hrep' (by omega)
  refine ⟨q', _, s'.out, ?_, PumpMSB32.getPos_ok tail L q' pad h', ?_, hi'.out.mono (by intro a c _ _ hd; omega)⟩
  · rw [row3]
    simp only
    rw [hpos, Verif.Orf.ok_bind, hoff, e1, Verif.Orf.ok_bind, show (w + 15) / 16 = m by omega, e]
    rfl
  · have := rowStart_mod p b m r
    rw [align16_ok, rowStart, hlen]
    omega

theorem decode3_ok (buf : List Nat) (hb : IsBytes buf) (w h m : Nat) (hw : w = 16 * m) (px : Nat → Nat → Nat) (p : Params) (opt : Nat) (hopt : Flags p opt) (b : Nat → Nat → Block)
    (hdep : 1 ≤ p.depth ∧ p.depth ≤ 15) (hinit : p.init < 2 ^ 14) (hpic : Picture p b w h px) (hf : ∀ r k, r < h → k < m → Fits3 p (b r) w r k)
    (x y z : List Bool) (hx : x.length = 20) (hy : y.length = 60) (hz : z.length = 26) (hhead : BitsAt buf 0 (headerBits p opt x y z))
    (hbits : ∀ r, r < h → BitsAt buf (rowStart p b m r) (row3Bits p b m r)) :
    ∃ out, decode3 buf w h = .ok out ∧ Holds out w h px := by
  obtain ⟨src, tail, L, pad, e1, hrep, hlen⟩ := repW_at buf hb _ _ hhead
  rw [Packed.from', if_pos (by omega), List.drop_zero] at e1
  injection e1 with e1
  subst e1
  obtain ⟨q, e2, h2⟩ := header3_ok tail L _ p opt x y z hx hy hz (by omega) hopt.1 hinit pad hrep
  have hhl : (headerBits p opt x y z).length = 128 := by simp [headerBits, hx, hy, hz]
  obtain ⟨⟨q', off', out'⟩, e3, _, _, hi⟩ := forN_ex h (row3 buf p.depth opt p.init w)
    (fun r (st : PumpMSB32 × Nat × List Nat) => (∃ pos, st.1.getPos = .ok pos ∧ align16 (st.2.1 + pos) = rowStart p b m r) ∧
      (True ∧ Filled w h px (fun a _ => a < r) st.2.2)) (by
      rintro r ⟨q, off, out⟩ hr ⟨⟨pos, h1, h2⟩, _, h3⟩
      obtain ⟨q', pos', out', e, g1, g2, g3⟩ := row3_ok buf hb w h m hw px p opt hopt b hdep.2 (by omega) hpic r hr (fun k hk => hf r k hr hk) (hbits r hr) q off pos h1 h2 out h3
      exact ⟨_, e, ⟨pos', g1, g2⟩, trivial, g3⟩)
    (q, 0, List.replicate (w * h) 0) ⟨⟨_, PumpMSB32.getPos_ok tail L q pad h2, by
      rw [hlen, hhl, align16_ok, rowStart]; simp only; omega⟩, trivial, Filled.start _ _ _ _ (by omega)⟩
  refine ⟨out', ?_, hi.1, fun r c hr hc => hi.2 r c hr hc hr⟩
  rw [decode3, e2, Verif.Orf.ok_bind]
  simp only
  rw [e3]
  rfl

end Verif.Srw
