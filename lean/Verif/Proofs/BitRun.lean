import Verif.Proofs.Pumps32
import Verif.Proofs.HuffDecode
/-! # Loops that read a code word per step from a bit pump -/

namespace Verif.Pumps
open Verif Verif.Spec Verif.Ljpeg

/-- The bits of a run: the code word of each item, which may depend on the state before it. -/
def encRun {σ ι : Type} (c : σ → ι → List Bool) (step : σ → ι → σ) : σ → List ι → List Bool
  | _, [] => []
  | s, i :: l => c s i ++ encRun c step (step s i) l

/-- A loop whose every step reads one code word and makes the abstract step, reads the whole run. `m` bits are left after it. -/
theorem foldlM_code {P σ ι : Type} (Rep : P → List Bool → Prop) (f : P × σ → ι → R (P × σ)) (c : σ → ι → List Bool)
    (step : σ → ι → σ) (Inv : σ → Prop) (m : Nat) (l : List ι)
    (hstep : ∀ i ∈ l, ∀ p s r, Inv s → Rep p (c s i ++ r) → m ≤ r.length →
      ∃ p', f (p, s) i = .ok (p', step s i) ∧ Rep p' r ∧ Inv (step s i))
    (p : P) (s : σ) (rest : List Bool) (hs : Inv s) (hr : Rep p (encRun c step s l ++ rest)) (hm : m ≤ rest.length) :
    ∃ p', l.foldlM f (p, s) = .ok (p', l.foldl step s) ∧ Rep p' rest ∧ Inv (l.foldl step s) := by
  induction l generalizing p s with
  | nil => exact ⟨p, rfl, hr, hs⟩
  | cons i l ih =>
    rw [encRun, List.append_assoc] at hr
    obtain ⟨p1, e1, r1, i1⟩ := hstep i List.mem_cons_self p s _ hs hr (by rw [List.length_append]; omega)
    obtain ⟨p2, e2, r2, i2⟩ := ih (fun j hj => hstep j (List.mem_cons_of_mem _ hj)) p1 _ i1 r1
    refine ⟨p2, ?_, r2, i2⟩
    rw [List.foldlM_cons, e1]
    exact e2

/-- The same for a counted loop and an invariant instead of an abstract step. -/
theorem forN_code {P σ : Type} (Rep : P → List Bool → Prop) (n : Nat) (f : Nat → P × σ → R (P × σ)) (c : Nat → List Bool)
    (Inv : Nat → σ → Prop) (m : Nat)
    (hstep : ∀ i, i < n → ∀ p s r, Inv i s → Rep p (c i ++ r) → m ≤ r.length →
      ∃ p' s', f i (p, s) = .ok (p', s') ∧ Rep p' r ∧ Inv (i + 1) s')
    (p : P) (s : σ) (rest : List Bool) (hs : Inv 0 s) (hr : Rep p ((List.range n).flatMap c ++ rest)) (hm : m ≤ rest.length) :
    ∃ p' s', forN n f (p, s) = .ok (p', s') ∧ Rep p' rest ∧ Inv n s' := by
  induction n generalizing rest with
  | zero => exact ⟨p, s, rfl, hr, hs⟩
  | succ n ih =>
    rw [List.range_succ, List.flatMap_append, List.append_assoc] at hr
    obtain ⟨p1, s1, e1, r1, i1⟩ := ih (fun i hi => hstep i (by omega)) _ hr (by rw [List.length_append]; omega)
    simp only [List.flatMap_cons, List.flatMap_nil, List.append_nil] at r1
    obtain ⟨p2, s2, e2, r2, i2⟩ := hstep n (by omega) p1 s1 rest i1 r1 hm
    refine ⟨p2, s2, ?_, r2, i2⟩
    rw [forN_succ, e1]
    exact e2

theorem encRun_append {σ ι : Type} (c : σ → ι → List Bool) (step : σ → ι → σ) (s : σ) (l m : List ι) :
    encRun c step s (l ++ m) = encRun c step s l ++ encRun c step (l.foldl step s) m := by
  induction l generalizing s with
  | nil => rfl
  | cons i l ih => rw [List.cons_append, encRun, encRun, ih, List.append_assoc]; rfl

section
variable {P : Type} [BitPump P] {Rep : P → List Bool → Prop} {avail : P → Nat} {can : List Bool → Nat → Prop}

/-- Reading a field of `n` bits. -/
theorem getBits_field (hP : Lawful P Rep avail can) (p : P) (n v : Nat) (r : List Bool) (h : Rep p (bitsMSB n v ++ r))
    (hv : v < 2 ^ n) (hn : n ≤ 32) (hc : can (bitsMSB n v ++ r) n) :
    ∃ p', getBits p n = .ok (v, p') ∧ Rep p' r := by
  rcases Nat.eq_zero_or_pos n with rfl | h0
  · refine ⟨p, ?_, h⟩
    have : v = 0 := by simpa using hv
    rw [this]; rfl
  · obtain ⟨p', e, r'⟩ := getBits_ok hP p _ n h hn hc h0
    rw [takeZ_of_le (by simp), List.take_left' (by simp), natMSB_bitsMSB, Nat.mod_eq_of_lt hv] at e
    rw [List.drop_left' (by simp)] at r'
    exact ⟨p', e, r'⟩

end

/-- The same for the big-endian reader. -/
theorem PumpMSB.get_field (p : PumpMSB) (n v : Nat) (r : List Bool) (h : p.Rep (bitsMSB n v ++ r)) (hv : v < 2 ^ n) (hn : n ≤ 32) :
    ∃ p', getBits p n = .ok (v, p') ∧ p'.Rep r :=
  getBits_field PumpMSB.lawful p n v r h hv hn (by simp)

theorem PumpMSB.peek_field (p : PumpMSB) (l : List Bool) (n : Nat) (h : p.Rep l) (h32 : n ≤ 32) (hn : n ≤ l.length) :
    ∃ p', BitPump.peek p n = .ok (natMSB (l.take n), p') ∧ p'.Rep l ∧ n ≤ p'.nbits := by
  have := PumpMSB.lawful.peek_ok p l n h h32 hn
  rwa [takeZ_of_le hn] at this

/-- The little-endian reader. -/
theorem PumpLSB.get_field (p : PumpLSB) (n v : Nat) (r : List Bool) (h : p.Rep (bitsLSB n v ++ r)) (hv : v < 2 ^ n) (hn : n ≤ 32) :
    ∃ p', getBits p n = .ok (v, p') ∧ p'.Rep r := by
  rcases Nat.eq_zero_or_pos n with rfl | h0
  · refine ⟨p, ?_, h⟩
    have : v = 0 := by simpa using hv
    rw [this]; rfl
  · obtain ⟨p1, e1, r1, a1⟩ := PumpLSB.peek_ok p _ n h hn (by simp)
    obtain ⟨p2, e2, r2, _⟩ := PumpLSB.consume_ok p1 _ n r1 a1
    rw [List.drop_left' (by simp)] at r2
    refine ⟨p2, ?_, r2⟩
    rw [List.take_left' (by simp), natLSB_bitsLSB, Nat.mod_eq_of_lt hv] at e1
    rw [getBits, if_neg (by omega)]
    show (PumpLSB.peek p n >>= _) = _
    rw [e1]
    show (PumpLSB.consume p1 n >>= _) = _
    rw [e2]; rfl

end Verif.Pumps
