import Verif.Model.Kodak
import Verif.Spec.Kodak
import Verif.Proofs.Orf
import Verif.Proofs.HuffShift
import Verif.Proofs.Pumps32
import Mathlib.Tactic.Ring
import Mathlib.Data.Nat.Bitwise
/-! # Kodak 65000: the segments -/

namespace Verif.Kodak
open Verif Verif.Spec Verif.Spec.Kodak
open Verif.Orf (ok_bind)
open Verif.Ljpeg (getU8 extraOf_lt diffOf_extra)
open Verif.Pumps

theorem and15 (b : Nat) : b &&& 15 = b % 16 := Nat.and_two_pow_sub_one_eq_mod b 4
theorem and7 (b : Nat) : b &&& 7 = b % 8 := Nat.and_two_pow_sub_one_eq_mod b 3
theorem and1 (b : Nat) : b &&& 1 = b % 2 := Nat.and_two_pow_sub_one_eq_mod b 1

/-- The bytes of the words. -/
def be (ws : List Nat) : List Nat := ws.flatMap fun w => [w / 256, w % 256]

theorem be_cons (w : Nat) (ws : List Nat) : be (w :: ws) = w / 256 :: w % 256 :: be ws := rfl

theorem segLens_ok (px : Nat → Nat) (n x : Nat) (tail : List Nat) (hn : n ≤ 256) (hx : x < 16) (hf : Fits px n) :
    ∃ lens, segLens n (lenBytes px n x ++ tail) = .ok (tail, lens) ∧ lens.length = 256 ∧ ∀ i, i < n → lens[i]? = some (catOf (diff px i)) := by
  have hl : (lenBytes px n x).length = (n + 1) / 2 := by rw [lenBytes, List.length_map, List.length_range]
  obtain ⟨s, e, i1, i2, i3⟩ := forN_inv ((n + 1) / 2) (fun i (st : List Nat × List Nat) => do
    let (b, input) ← getU8 st.1
    let lens ← upd st.2 (2 * i) (b &&& 15)
    let lens ← upd lens (2 * i + 1) (b >>> 4)
    .ok (input, lens)) (fun i st => st.1 = (lenBytes px n x).drop i ++ tail ∧ st.2.length = 256 ∧
      ∀ j, j < n → j < 2 * i → st.2[j]? = some (catOf (diff px j)))
    (lenBytes px n x ++ tail, List.replicate 256 0) ⟨rfl, List.length_replicate, fun j _ h => absurd h (by omega)⟩
    (by
      rintro i ⟨input, lens⟩ hi ⟨h1, h2, h3⟩
      simp only at h1 h2 h3
      rw [List.drop_eq_getElem_cons (by omega)] at h1
      have hb : (lenBytes px n x)[i]'(by omega) = catOf (diff px (2 * i)) + 16 * (if 2 * i + 1 < n then catOf (diff px (2 * i + 1)) else x) := by
        simp [lenBytes]
      have hc := hf (2 * i) (by omega)
      refine ⟨((lenBytes px n x).drop (i + 1) ++ tail, (lens.set (2 * i) ((lenBytes px n x)[i] &&& 15)).set (2 * i + 1) ((lenBytes px n x)[i] >>> 4)),
        ?_, rfl, by simp [h2], ?_⟩
      · subst h1
        simp only [List.cons_append, getU8, ok_bind]
        rw [upd_lt _ _ _ (by omega)]
        simp only [ok_bind]
        rw [upd_lt _ _ _ (by rw [List.length_set]; omega)]
        rfl
      · intro j hj hj2
        simp only
        by_cases e1 : j = 2 * i + 1
        · subst e1
          rw [List.getElem?_set_self (by rw [List.length_set]; omega), hb, if_pos hj, Nat.shiftRight_eq_div_pow]
          congr 1
          omega
        · rw [List.getElem?_set_ne (by omega)]
          by_cases e2 : j = 2 * i
          · subst e2
            rw [List.getElem?_set_self (by omega), hb, and15]
            congr 1
            omega
          · rw [List.getElem?_set_ne (by omega)]
            exact h3 j hj (by omega))
  refine ⟨s.2, ?_, i2, fun i hi => i3 i hi (by omega)⟩
  rw [List.drop_of_length_le (by omega), List.nil_append] at i1
  rw [segLens, e, ← i1]

/-- What is left to be read, and what it stands for. -/
def Left (tail : List Nat) (ds : List Bool) (s : Bits) : Prop :=
  ∃ ws pad, (∀ w ∈ ws, w < 65536) ∧ ws.length % 2 = 0 ∧ s.input = be ws ++ tail ∧ s.bitbuf < 2 ^ s.bits ∧
    pad.length < 32 ∧ bitsLSB s.bits s.bitbuf ++ ws.flatMap (bitsLSB 16) = ds ++ pad

theorem words_length (ws : List Nat) : (ws.flatMap (bitsLSB 16)).length = 16 * ws.length := by
  induction ws with
  | nil => rfl
  | cons w ws ih => rw [List.flatMap_cons, List.length_append, ih, length_bitsLSB, List.length_cons]; omega

theorem start_ok (ws : List Nat) (n : Nat) (ds : List Bool) (tail : List Nat) (h : Words ws n ds) :
    ∃ s, start n (be ws ++ tail) = .ok s ∧ Left tail ds s := by
  obtain ⟨h1, h2, pad, h3⟩ := h
  have hlen := congrArg List.length h3
  rw [words_length, List.length_append] at hlen
  rw [start, and7]
  unfold single at h2
  by_cases h4 : n % 8 = 4
  · rw [if_pos h4] at h2 ⊢
    cases ws with
    | nil => simp only [List.length_nil] at h2; omega
    | cons w ws =>
      have hw := h1 w (List.mem_cons_self ..)
      refine ⟨⟨be ws ++ tail, ((w / 256) <<< 8) ||| (w % 256), 16⟩, ?_, ws, pad, ?_, ?_, rfl, ?_, ?_, ?_⟩
      · rw [be_cons, List.cons_append, List.cons_append]; rfl
      · exact fun v hv => h1 v (List.mem_cons_of_mem _ hv)
      · rw [List.length_cons] at h2; omega
      · simp only
        rw [Nat.shiftLeft_eq, Nat.mul_comm, ← Nat.two_pow_add_eq_or_of_lt (by omega)]
        omega
      · rw [List.length_cons] at h2 hlen; omega
      · simp only
        rw [Nat.shiftLeft_eq, Nat.mul_comm, ← Nat.two_pow_add_eq_or_of_lt (by omega), show 2 ^ 8 * (w / 256) + w % 256 = w by omega, ← h3]
        rfl
  · rw [if_neg h4] at h2 ⊢
    refine ⟨_, rfl, ws, pad, h1, by omega, rfl, Nat.one_pos, by omega, ?_⟩
    simpa [bitsLSB] using h3

theorem mask (len : Nat) (h : len ≤ 15) : 0xffff >>> (16 - len) = 2 ^ len - 1 := by
  revert h; revert len; decide

theorem refill_ok (a b c d : Nat) (rest : List Nat) (buf bits : Nat) :
    refill ⟨a :: b :: c :: d :: rest, buf, bits⟩ =
      .ok ⟨rest, ((c * 256 + d) * 65536 + (a * 256 + b)) * 2 ^ bits + buf, bits + 32⟩ := by
  rw [refill]
  have e : forN 4 (fun k (st : List Nat × Nat) => do
      let (x, input) ← getU8 st.1
      .ok (input, st.2 + (x <<< (bits + ((8 * k) ^^^ 8))))) (a :: b :: c :: d :: rest, buf) =
      .ok (rest, buf + (a <<< (bits + 8)) + (b <<< (bits + 0)) + (c <<< (bits + 24)) + (d <<< (bits + 16))) := rfl
  rw [e, ok_bind]
  simp only [Nat.shiftLeft_eq, Nat.pow_add]
  congr 2
  generalize 2 ^ bits = P
  ring

theorem Left.refill {tail : List Nat} {ds : List Bool} {s : Bits} (h : Left tail ds s) (hs : s.bits < ds.length) :
    ∃ s', refill s = .ok s' ∧ Left tail ds s' ∧ s'.bits = s.bits + 32 := by
  obtain ⟨input, buf, bits⟩ := s
  obtain ⟨ws, pad, h1, h2, h3, h4, h5, h6⟩ := h
  simp only at h3 h4 h6 hs
  have hlen := congrArg List.length h6
  rw [List.length_append, List.length_append, words_length, length_bitsLSB] at hlen
  match ws, h1, h2, h3, h6, hlen with
  | [], _, _, _, _, hlen => simp only [List.length_nil] at hlen; omega
  | [w], _, h2, _, _, _ => simp at h2
  | u :: v :: ws, h1, h2, h3, h6, hlen =>
    have hu := h1 u (by simp)
    have hv := h1 v (by simp)
    subst h3
    rw [be_cons, be_cons, List.cons_append, List.cons_append, List.cons_append, List.cons_append, refill_ok]
    refine ⟨_, rfl, ⟨ws, pad, fun w hw => h1 w (by simp [hw]), by simp only [List.length_cons] at h2; omega, rfl, ?_, h5, ?_⟩, rfl⟩
    · simp only
      rw [show v / 256 * 256 + v % 256 = v by omega, show u / 256 * 256 + u % 256 = u by omega, Nat.pow_add, Nat.mul_comm (2 ^ bits)]
      have : (v * 65536 + u + 1) * 2 ^ bits ≤ 2 ^ 32 * 2 ^ bits := Nat.mul_le_mul_right _ (by omega)
      rw [Nat.add_mul] at this
      omega
    · simp only
      rw [show v / 256 * 256 + v % 256 = v by omega, show u / 256 * 256 + u % 256 = u by omega, bitsLSB_append _ _ _ _ h4,
        show (65536 : Nat) = 2 ^ 16 by rfl, show (32 : Nat) = 16 + 16 by rfl, bitsLSB_append _ _ _ _ (by omega), ← h6]
      simp only [List.flatMap_cons, List.append_assoc]

/-- One difference is read. -/
theorem sample_ok (tail : List Nat) (ds : List Bool) (d : Int) (hd : catOf d ≤ 15) (s : Bits)
    (h : Left tail (bitsLSB (catOf d) (extraOf d) ++ ds) s) :
    ∃ s', sample (catOf d) s = .ok (d, s') ∧ Left tail ds s' := by
  obtain ⟨t, e, ⟨ws, pad, h1, h2, h3, h4, h5, h6⟩, hb⟩ : ∃ t, (if s.bits < catOf d then refill s else .ok s : R Bits) = .ok t ∧
      Left tail (bitsLSB (catOf d) (extraOf d) ++ ds) t ∧ catOf d ≤ t.bits := by
    by_cases hs : s.bits < catOf d
    · rw [if_pos hs]
      obtain ⟨t, e, h', hb⟩ := h.refill (by rw [List.length_append, length_bitsLSB]; omega)
      exact ⟨t, e, h', by omega⟩
    · rw [if_neg hs]
      exact ⟨s, rfl, h, by omega⟩
  generalize hx : extraOf d = x at *
  have hxl : x < 2 ^ catOf d := hx ▸ extraOf_lt d
  generalize hc : catOf d = c at *
  obtain ⟨b, hbb⟩ : ∃ b, t.bits = c + b := ⟨t.bits - c, by omega⟩
  rw [hbb, bitsLSB_add, List.append_assoc, List.append_assoc] at h6
  obtain ⟨e1, e2⟩ := List.append_inj h6 (by rw [length_bitsLSB, length_bitsLSB])
  have hv : t.bitbuf % 2 ^ c = x := by
    have := congrArg natLSB e1
    rw [natLSB_bitsLSB, natLSB_bitsLSB, Nat.mod_eq_of_lt hxl] at this
    exact this
  refine ⟨⟨t.input, t.bitbuf >>> c, b⟩, ?_, ws, pad, h1, h2, h3, ?_, h5, ?_⟩
  · rw [sample, e, ok_bind, usub, if_pos (show c ≤ 16 by omega), ok_bind, mask c hd, Nat.and_two_pow_sub_one_eq_mod, hv, usub, if_pos hb, ok_bind,
      hbb, Nat.add_sub_cancel_left]
    by_cases h0 : d = 0
    · have c0 : c = 0 := by rw [← hc, h0]; rfl
      have x0 : x = 0 := by rw [← hx, h0]; rfl
      rw [if_neg (fun h => h.1 c0), x0, h0]
      rfl
    · have hd' := diffOf_extra d h0
      rw [hc, hx, diffOf, if_pos rfl] at hd'
      have hc0 : c ≠ 0 := by rw [← hc, catOf, if_neg h0]; omega
      have ht : (x &&& 1 <<< (c - 1) = 0) ↔ x < 2 ^ (c - 1) := by
        rw [Nat.one_shiftLeft, Nat.and_two_pow, Nat.mul_eq_zero]
        rw [show 2 ^ c = 2 ^ (c - 1) * 2 by rw [← Nat.pow_succ]; congr 1; omega] at hxl
        have hp := Nat.two_pow_pos (c - 1)
        rw [Nat.testBit_eq_decide_div_mod_eq]
        constructor
        · intro h
          by_contra hn
          have : x / 2 ^ (c - 1) = 1 := by
            apply Nat.div_eq_of_lt_le <;> omega
          rw [this] at h
          simp at h
        · intro h
          rw [Nat.div_eq_of_lt h]
          simp
      by_cases hx' : x < 2 ^ (c - 1)
      · rw [if_pos hx'] at hd'
        rw [if_pos ⟨hc0, ht.mpr hx'⟩, Nat.one_shiftLeft]
        push_cast
        rw [hd']
      · rw [if_neg hx'] at hd'
        rw [if_neg (fun h => hx' (ht.mp h.2)), hd']
  · simp only
    rw [Nat.shiftRight_eq_div_pow]
    apply Nat.div_lt_of_lt_mul
    rw [← Nat.pow_add, ← hbb]
    exact h4
  · simp only
    rw [Nat.shiftRight_eq_div_pow]
    exact e2

theorem digits_step (px : Nat → Nat) (n i : Nat) (h : i < n) :
    ((List.range n).drop i).flatMap (fun i => bitsLSB (catOf (diff px i)) (extraOf (diff px i))) =
    bitsLSB (catOf (diff px i)) (extraOf (diff px i)) ++
      ((List.range n).drop (i + 1)).flatMap (fun i => bitsLSB (catOf (diff px i)) (extraOf (diff px i))) := by
  rw [List.drop_eq_getElem_cons (by simpa using h), List.flatMap_cons, List.getElem_range]

theorem decodeSegment_ok (px : Nat → Nat) (n : Nat) (hn : n ≤ 256) (hf : Fits px n) (bytes tail : List Nat) (h : Segment bytes px n) :
    ∃ out, decodeSegment (bytes ++ tail) n = .ok (out, tail) ∧ out.length = n ∧ ∀ i, i < n → out[i]? = some (diff px i) := by
  obtain ⟨x, ws, hx, hw, rfl⟩ := h
  obtain ⟨lens, e1, hl, hlens⟩ := segLens_ok px n x (be ws ++ tail) hn hx hf
  obtain ⟨s0, e2, hs0⟩ := start_ok ws n (digits px n) tail hw
  obtain ⟨s, e3, i1, i2, i3⟩ := forN_inv n (fun i (st : Bits × List Int) => do
    let len ← idx lens i
    let (v, s) ← sample len st.1
    let out ← upd st.2 i v
    .ok (s, out)) (fun i st => Left tail (((List.range n).drop i).flatMap (fun i => bitsLSB (catOf (diff px i)) (extraOf (diff px i)))) st.1 ∧
      st.2.length = n ∧ ∀ j, j < i → st.2[j]? = some (diff px j))
    (s0, List.replicate n 0) ⟨hs0, List.length_replicate, fun j h => absurd h (by omega)⟩
    (by
      rintro i ⟨s, out⟩ hi ⟨h1, h2, h3⟩
      simp only at h1 h2 h3
      rw [digits_step px n i hi] at h1
      obtain ⟨s', e, h'⟩ := sample_ok tail _ (diff px i) (hf i hi) s h1
      refine ⟨(s', out.set i (diff px i)), ?_, h', by simp [h2], ?_⟩
      · have : idx lens i = .ok (catOf (diff px i)) := by
          rw [idx, hlens i hi]
        simp only [this, ok_bind, e]
        rw [upd_lt _ _ _ (by omega)]
        rfl
      · intro j hj
        simp only
        by_cases ej : j = i
        · subst ej
          rw [List.getElem?_set_self (by omega)]
        · rw [List.getElem?_set_ne (by omega)]
          exact h3 j (by omega))
  obtain ⟨ws', pad, h1, h2, h3, h4, h5, h6⟩ := i1
  have hlen := congrArg List.length h6
  rw [List.drop_of_length_le (by simp), List.flatMap_nil, List.nil_append, List.length_append, words_length, length_bitsLSB] at hlen
  have : ws' = [] := List.length_eq_zero_iff.mp (by omega)
  subst this
  refine ⟨s.2, ?_, i2, i3⟩
  rw [decodeSegment, List.append_assoc, show (ws.flatMap fun w => [w / 256, w % 256]) = be ws from rfl, e1, ok_bind]
  simp only []
  rw [e2, ok_bind, e3, ok_bind, h3]
  rfl

end Verif.Kodak
