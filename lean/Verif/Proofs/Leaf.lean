import Verif.Model.Leaf
import Verif.Spec.Leaf
import Verif.Proofs.ArwLjpeg
import Verif.Proofs.JpegScan
import Verif.Proofs.JpegBitWriter
/-! # Leaf -/

namespace Verif.ArwLjpeg
open Verif Verif.Spec

/-- Strips, of which the last may have fewer rows. -/
theorem stripsFn_gen {W H n : Nat} {f : Nat → Nat → Nat} (closure : Nat → List Nat → R (List Nat)) (hW : 0 < W) (hn : 0 < n) (hH : 0 < H)
    (hclosure : ∀ i m lines, i * n < H → m = min n (H - i * n) → (Holds lines W m fun _ _ => 0) → ∃ lines', closure i lines = .ok lines' ∧
      Holds lines' W m fun r c => f (i * n + r) c) :
    ∃ out, stripsFn W H n closure = .ok out ∧ Holds out W H f := by
  obtain ⟨q, hq⟩ : ∃ q, q = (H - 1) / n := ⟨_, rfl⟩
  have hq1 : q * n ≤ H - 1 := by rw [hq]; exact Nat.div_mul_le_self _ _
  have hq2 : H - 1 < q * n + n := by
    have := Nat.lt_div_mul_add (a := H - 1) (b := n) hn
    rw [hq]; exact this
  have hcount : (W * H + W * n - 1) / (W * n) = q + 1 := by
    have hp : 0 < W * n := Nat.mul_pos hW hn
    have h1 : q * (W * n) + W ≤ W * H := by
      rw [show q * (W * n) + W = W * (q * n + 1) by ring]
      exact Nat.mul_le_mul_left _ (by omega)
    have h2 : W * H ≤ q * (W * n) + W * n := by
      rw [show q * (W * n) + W * n = W * (q * n + n) by ring]
      exact Nat.mul_le_mul_left _ (by omega)
    refine Nat.div_eq_of_lt_le ?_ ?_
    · rw [Nat.add_mul]; omega
    · rw [Nat.add_mul, Nat.add_mul]; omega
  have hrep := holds_replicate W H 0
  let cs := (List.range (q + 1)).map fun i => ((List.replicate (W * H) 0).drop (i * (W * n))).take (W * n)
  have hcs : chunks (List.replicate (W * H) 0) (W * n) = .ok cs := by
    rw [chunks, if_neg (by have := Nat.mul_pos hW hn; omega), List.length_replicate, hcount]
  have hlen : cs.length = q + 1 := by simp [cs]
  have hget (i : Nat) (hi : i < q + 1) : idx cs i = .ok (((List.replicate (W * H) 0).drop (i * (W * n))).take (W * n)) := by
    rw [idx_lt _ _ (by omega)]
    simp [cs]
  have key (k : Nat) (hk : k ≤ q + 1) : ∃ os, (List.range k).mapM (fun i => do
      let c ← idx cs i
      closure i c) = .ok os ∧ Holds os.flatten W (min (k * n) H) f := by
    induction k with
    | zero => exact ⟨[], rfl, by rw [Nat.zero_mul, Nat.zero_min]; exact ⟨by simp, by intro r c hr; omega⟩⟩
    | succ k ih =>
      obtain ⟨os, e, ho⟩ := ih (by omega)
      have hle : k * n ≤ q * n := Nat.mul_le_mul_right _ (by omega)
      have hp := hrep.part (k * n) n (min n (H - k * n)) rfl
      rw [show k * n * W = k * (W * n) by ring, Nat.mul_comm n W] at hp
      obtain ⟨o, e', ho'⟩ := hclosure k _ _ (by omega) rfl hp
      refine ⟨os ++ [o], ?_, ?_⟩
      · rw [List.range_succ, List.mapM_append, e, List.mapM_cons, List.mapM_nil, hget k (by omega)]
        simp only [bind, Except.bind, e']
        rfl
      · rw [List.flatten_append, List.flatten_singleton, Nat.add_mul, Nat.one_mul,
          show min (k * n + n) H = min (k * n) H + min n (H - k * n) by omega]
        refine ho.append (ho'.same fun r c _ _ => ?_)
        rw [show min (k * n) H = k * n by omega]
  obtain ⟨os, e, ho⟩ := key (q + 1) (Nat.le_refl _)
  rw [show min ((q + 1) * n) H = H by rw [Nat.add_mul]; omega] at ho
  refine ⟨os.flatten, ?_, ho⟩
  rw [stripsFn, hcs]
  simp only [bind, Except.bind, hlen]
  simp only [bind, Except.bind] at e
  rw [e]

end Verif.ArwLjpeg

namespace Verif.Leaf
open Verif Verif.Ljpeg Verif.Pumps Verif.Spec Verif.Spec.Jpeg

/-! ### markers -/

theorem nextMarker_stuffed (s : List Nat) (m : Nat) (h0 : m ≠ 0) (h1 : m ≠ 0xff) (r : List Nat) :
    nextMarker (stuff s ++ 0xff :: m :: r) = .ok (m, r) := by
  induction s with
  | nil => exact nextMarker_ok m h0 h1 r
  | cons b s ih =>
    rw [nextMarker] at ih ⊢
    have hne : ∀ x : List Nat, x ++ 0xff :: m :: r ≠ [] := by simp
    by_cases hb : b = 0xff
    · rw [show stuff (b :: s) = 0xff :: 0 :: stuff s by simp [stuff, hb]]
      rw [List.cons_append, List.cons_append, skipToMarker.eq_def]
      simp only
      rw [if_pos trivial, if_neg (by omega), skipToMarker.eq_def]
      simp only
      rw [if_neg (by omega), if_neg (hne _)]
      exact ih
    · rw [show stuff (b :: s) = b :: stuff s by simp [stuff, hb]]
      rw [List.cons_append, skipToMarker.eq_def]
      simp only
      rw [if_neg hb, if_neg (hne _)]
      exact ih

theorem leafMarkers_ok (l : List (List Nat × Nat)) (tail : List Nat) (hl : MarkersOk l) (fuel : Nat) (hf : l.length ≤ fuel) :
    ∃ r, leafMarkers fuel (joinStrips l tail) = .ok r ∧ r.length + 1 = l.length ∧
      ∀ i, i < l.length → (joinStrips l tail :: r)[i]? = some (joinStrips (l.drop i) tail) := by
  induction l generalizing fuel with
  | nil => exact absurd hl id
  | cons x l ih =>
    obtain ⟨s, m⟩ := x
    obtain ⟨fuel, rfl⟩ : ∃ f, fuel = f + 1 := ⟨fuel - 1, by simp at hf; omega⟩
    rw [joinStrips, leafMarkers]
    cases l with
    | nil =>
      have hm : m = 0xd9 := hl
      refine ⟨[], ?_, rfl, ?_⟩
      · rw [nextMarker_stuffed s m (by omega) (by omega)]
        simp only
        rw [if_pos hm]
      · intro i hi
        have : i = 0 := by simpa using hi
        subst this; rfl
    | cons y l =>
      obtain ⟨h0, h1, h2, hl'⟩ := hl
      obtain ⟨r, e, hr, hi⟩ := ih hl' fuel (by simp at hf ⊢; omega)
      refine ⟨joinStrips (y :: l) tail :: r, ?_, ?_, ?_⟩
      · rw [nextMarker_stuffed s m h0 h1]
        simp only
        rw [if_neg h2, e]
        rfl
      · simp only [List.length_cons] at hr ⊢; omega
      · intro i hi'
        cases i with
        | zero => rfl
        | succ i => rw [List.getElem?_cons_succ, hi i (by simpa using hi'), List.drop_succ_cons]

/-! ### a strip -/

/-- The samples of a strip as pairs. -/
def pairs (f : Nat → Nat → Nat) (r c k : Nat) : Nat := f r (2 * c + k)

/-- What is needed of a strip. -/
structure LCtx (T1 T2 : Table) (t1 t2 : HuffTable) (bug : Bool) (base : Nat) (W n : Nat) (f : Nat → Nat → Nat) : Prop where
  r1 : ReadsT bug T1 t1
  r2 : ReadsT bug T2 t2
  even : W % 2 = 0
  pos : 0 < W
  u16 : ∀ r c, r < n → c < W → f r c < 65536
  cat1 : ∀ r c, r < n → c < W / 2 → catOf (delta 1 base (pairs f) r c 0) ∈ T1.vals
  cat2 : ∀ r c, r < n → c < W / 2 → catOf (delta 1 base (pairs f) r c 1) ∈ T2.vals

/-- The bits of a pair. -/
def pairBits (T1 T2 : Table) (bug : Bool) (base : Nat) (f : Nat → Nat → Nat) (r c : Nat) : List Bool :=
  T1.code bug (delta 1 base (pairs f) r c 0) ++ T2.code bug (delta 1 base (pairs f) r c 1)

section
variable {T1 T2 : Table} {t1 t2 : HuffTable} {bug : Bool} {base : Nat} {W n : Nat} {f : Nat → Nat → Nat}

/-- What the rows of a strip hold when everything before a pair has been read. -/
abbrev upTo (f : Nat → Nat → Nat) (r c : Nat) (r' c' : Nat) : Nat := if r' < r ∨ (r' = r ∧ c' / 2 < c) then f r' c' else 0

theorem LCtx.pair (h : LCtx T1 T2 t1 t2 bug base W n f) {r c : Nat} (hr : r < n) (hc : c < W / 2) (h0 : ¬(r = 0 ∧ c = 0)) {out : List Nat}
    (ho : Holds out W n (upTo f r c)) {p : PumpJPEG} {rest : List Bool} (hp : p.Rep (pairBits T1 T2 bug base f r c ++ rest)) :
    ∃ out' p', leafPair t1 t2 W r (2 * c) (out, p) = .ok (out', p') ∧ Holds out' W n (upTo f r (c + 1)) ∧ p'.Rep rest := by
  have hev := h.even
  have hpos := h.pos
  -- where the prediction is read
  obtain ⟨pr, pc, hpr, hpc, hdone, hpos1, hexp⟩ : ∃ pr pc, pr < n ∧ pc + 1 < W ∧ (pr < r ∨ (pr = r ∧ (pc + 1) / 2 < c)) ∧
      leafPos W r (2 * c) = .ok (pr * W + pc) ∧
      ∀ k, k < 2 → expected 1 base (pairs f) r c k = f pr (pc + k) := by
    by_cases hc0 : c = 0
    · subst hc0
      refine ⟨r - 1, 0, by omega, by omega, by omega, ?_, ?_⟩
      · rw [leafPos, if_pos rfl, usub, if_pos (by omega)]; rfl
      · intro k hk
        rw [expected, if_pos rfl, if_neg (by omega)]; rfl
    · refine ⟨r, 2 * (c - 1), hr, by omega, by omega, ?_, ?_⟩
      · rw [leafPos, if_neg (by omega), usub, if_pos (by omega)]
        congr 1; omega
      · intro k hk
        rw [expected, if_neg hc0]
        by_cases hr0 : r = 0
        · subst hr0; rw [if_pos rfl]; rfl
        · rw [if_neg hr0]; rfl
  rw [pairBits, List.append_assoc] at hp
  obtain ⟨a1, a2⟩ := diff16_range (pairs f r c 0 - expected 1 base (pairs f) r c 0)
  obtain ⟨b1, b2⟩ := diff16_range (pairs f r c 1 - expected 1 base (pairs f) r c 1)
  obtain ⟨q1, e1, s1⟩ := h.r1.decode a1 a2 (h.cat1 r c hr hc) hp
  obtain ⟨q2, e2, s2⟩ := h.r2.decode b1 b2 (h.cat2 r c hr hc) s1
  obtain ⟨o1, u1, g1⟩ := ho.write (r := r) (c := 2 * c) hr (by omega) (f r (2 * c)) rfl
  obtain ⟨o2, u2, g2⟩ := g1.write (r := r) (c := 2 * c + 1) hr (by omega) (f r (2 * c + 1)) (i := r * W + 2 * c + 1) (by omega)
  refine ⟨o2, q2, ?_, g2.same ?_, s2⟩
  · rw [leafPair]
    simp only [bind, Except.bind]
    rw [hpos1]
    simp only
    rw [ho.read hpr (c := pc) (by omega) rfl, ho.read hpr (c := pc + 1) (by omega) (i := pr * W + pc + 1) (by omega)]
    simp only
    rw [e1]
    simp only
    rw [e2]
    simp only
    rw [show upTo f r c pr pc = f pr pc from if_pos (by omega), show upTo f r c pr (pc + 1) = f pr (pc + 1) from if_pos (by omega),
      hexp 0 (by omega), hexp 1 (by omega)]
    simp only [Nat.add_zero]
    rw [show pairs f r c 0 = f r (2 * c) from rfl, show pairs f r c 1 = f r (2 * c + 1) from rfl,
      asU16_diff16 _ _ (h.u16 r _ hr (by omega)), asU16_diff16 _ _ (h.u16 r _ hr (by omega)), u1]
    simp only
    rw [u2]
  · intro r' c' hr' hc'
    show (if r' = r ∧ c' = 2 * c + 1 then f r (2 * c + 1) else if r' = r ∧ c' = 2 * c then f r (2 * c) else upTo f r c r' c') = upTo f r (c + 1) r' c'
    by_cases c1 : r' = r ∧ c' = 2 * c + 1
    · obtain ⟨rfl, rfl⟩ := c1
      rw [if_pos ⟨rfl, rfl⟩, upTo, if_pos (by omega)]
    · rw [if_neg c1]
      by_cases c2 : r' = r ∧ c' = 2 * c
      · obtain ⟨rfl, rfl⟩ := c2
        rw [if_pos ⟨rfl, rfl⟩, upTo, if_pos (by omega)]
      · rw [if_neg c2, upTo, upTo]
        by_cases c3 : r' < r ∨ r' = r ∧ c' / 2 < c
        · rw [if_pos c3, if_pos (by omega)]
        · rw [if_neg c3, if_neg (by omega)]

/-- The bits of row `r`, from its second pair if it is the first row. -/
def rowBits' (T1 T2 : Table) (bug : Bool) (base : Nat) (f : Nat → Nat → Nat) (W r : Nat) : List Bool :=
  (List.range (W / 2 - if r = 0 then 1 else 0)).flatMap fun k => pairBits T1 T2 bug base f r ((if r = 0 then 1 else 0) + k)

theorem scan_pairs (hW : 0 < W / 2) (hn : 0 < n) :
    Jpeg.scan (fun k => if k = 0 then T1 else T2) bug 2 (W / 2) n 1 base (pairs f) =
      pairBits T1 T2 bug base f 0 0 ++ (List.range n).flatMap (rowBits' T1 T2 bug base f W) := by
  have hcol (r c : Nat) : ((List.range 2).flatMap fun k => (if k = 0 then T1 else T2).code bug (delta 1 base (pairs f) r c k)) =
      pairBits T1 T2 bug base f r c := by
    simp [List.range_succ, pairBits]
  simp only [Jpeg.scan, hcol]
  obtain ⟨m, rfl⟩ : ∃ m, n = m + 1 := ⟨n - 1, by omega⟩
  obtain ⟨w, hw⟩ : ∃ w, W / 2 = w + 1 := ⟨W / 2 - 1, by omega⟩
  rw [List.range_succ_eq_map, List.flatMap_cons, List.flatMap_cons, List.flatMap_map, List.flatMap_map, hw, ← List.append_assoc]
  congr 1
  · rw [rowBits', if_pos rfl, hw, Nat.add_sub_cancel, List.range_succ_eq_map (n := w), List.flatMap_cons, List.flatMap_map]
    congr 1
    simp only [Nat.succ_eq_add_one, Nat.add_comm]
  · simp only [rowBits', Nat.succ_ne_zero, if_false, hw, Nat.sub_zero, Nat.zero_add]

theorem LCtx.strip (h : LCtx T1 T2 t1 t2 bug base W n f) (hn : 0 < n) {src : List Nat} (hb : IsBytes src) (he : ProperEnd src)
    {rest : List Bool} (hbits : bitsOf src = Jpeg.scan (fun k => if k = 0 then T1 else T2) bug 2 (W / 2) n 1 base (pairs f) ++ rest)
    {out : List Nat} (ho : Holds out W n fun _ _ => 0) :
    ∃ out', leafStrip src out W n t1 t2 base = .ok out' ∧ Holds out' W n f := by
  have hev := h.even
  have hpos := h.pos
  have hrep := PumpJPEG.rep_new src hb he
  rw [show bytesMSB (unstuff src) = _ from hbits, scan_pairs (by omega) hn, pairBits, List.append_assoc, List.append_assoc] at hrep
  have hexp (k : Nat) : expected 1 base (pairs f) 0 0 k = base := by rw [expected, if_pos rfl, if_pos rfl]
  obtain ⟨a1, a2⟩ := diff16_range (pairs f 0 0 0 - expected 1 base (pairs f) 0 0 0)
  obtain ⟨b1, b2⟩ := diff16_range (pairs f 0 0 1 - expected 1 base (pairs f) 0 0 1)
  obtain ⟨q1, e1, s1⟩ := h.r1.decode a1 a2 (h.cat1 0 0 hn (by omega)) hrep
  obtain ⟨q2, e2, s2⟩ := h.r2.decode b1 b2 (h.cat2 0 0 hn (by omega)) s1
  obtain ⟨o1, u1, g1⟩ := ho.write (r := 0) (c := 0) hn (by omega) (f 0 0) (i := 0) (by omega)
  obtain ⟨o2, u2, g2⟩ := g1.write (r := 0) (c := 1) hn (by omega) (f 0 1) (i := 1) (by omega)
  have hstart : Holds o2 W n (upTo f 0 (if (0 : Nat) = 0 then 1 else 0)) := by
    refine g2.same fun r c _ _ => ?_
    simp only [upTo, if_true]
    by_cases c1 : r = 0 ∧ c = 1
    · obtain ⟨rfl, rfl⟩ := c1
      simp
    · rw [if_neg c1]
      by_cases c2 : r = 0 ∧ c = 0
      · obtain ⟨rfl, rfl⟩ := c2
        simp
      · rw [if_neg c2, if_neg (by omega)]
  obtain ⟨⟨o3, q3⟩, e3, g3, _⟩ := forN_read (fun row (st : List Nat × PumpJPEG) => do
      let startcol := if row = 0 then 2 else 0
      forN ((W - startcol + 1) / 2) (fun k st => leafPair t1 t2 W row (startcol + 2 * k) st) st)
    (rowBits' T1 T2 bug base f W)
    (fun r st => Holds st.1 W n (upTo f r (if r = 0 then 1 else 0))) (fun st l => st.2.Rep l) n (by
      rintro r ⟨out, p⟩ rest hr hi hp
      have hcount : (W - (if r = 0 then 2 else 0) + 1) / 2 = W / 2 - if r = 0 then 1 else 0 := by split <;> omega
      obtain ⟨⟨o, q⟩, e, g, hq⟩ := forN_read (fun k st => leafPair t1 t2 W r ((if r = 0 then 2 else 0) + 2 * k) st)
        (fun k => pairBits T1 T2 bug base f r ((if r = 0 then 1 else 0) + k))
        (fun k st => Holds st.1 W n (upTo f r ((if r = 0 then 1 else 0) + k))) (fun st l => st.2.Rep l)
        (W / 2 - if r = 0 then 1 else 0) (by
          rintro k ⟨out, p⟩ rest hk hi hp
          obtain ⟨o, q, e, g, hq⟩ := h.pair hr (c := (if r = 0 then 1 else 0) + k) (by split at hk <;> split <;> omega) (by split <;> omega) hi hp
          refine ⟨(o, q), ?_, g, hq⟩
          rw [show (if r = 0 then 2 else 0) + 2 * k = 2 * ((if r = 0 then 1 else 0) + k) by split <;> omega]
          exact e)
        (out, p) rest hi hp
      refine ⟨(o, q), ?_, g.same ?_, hq⟩
      · simp only [hcount]
        exact e
      · intro r' c' _ hc'
        simp only [upTo, Nat.succ_ne_zero, if_false]
        by_cases c1 : r' < r + 1
        · rw [if_pos (by split <;> omega), if_pos (by omega)]
        · rw [if_neg (by omega), if_neg (by omega)])
    (o2, q2) rest hstart s2
  · refine ⟨o3, ?_, g3.same ?_⟩
    · rw [leafStrip, e1]
      simp only [bind, Except.bind]
      rw [hexp, show pairs f 0 0 0 = f 0 0 from rfl,
        asU16_diff16 _ _ (h.u16 0 _ hn (by omega)), u1]
      simp only
      rw [e2]
      simp only
      rw [hexp, show pairs f 0 0 1 = f 0 1 from rfl,
        asU16_diff16 _ _ (h.u16 0 _ hn (by omega)), u2]
      simp only
      rw [e3]
    · intro r c hr _
      rw [upTo, if_pos (by omega)]

end

end Verif.Leaf
