import Verif.Props.Pumps
/-! # C46: unary codes and signed fields read from a bit reader -/

namespace Verif.Props
open Verif Verif.Pumps Verif.Spec

theorem natMSB_replicate (z : Nat) : natMSB (List.replicate z false) = 0 := by
  induction z with
  | zero => rfl
  | succ z ih => rw [List.replicate_succ', natMSB_append, ih]; simp [natMSB]

theorem log2_first_one (z : Nat) (m : List Bool) (hm : z + 1 + m.length = 31) :
    natMSB (List.replicate z false ++ true :: m) ≠ 0 ∧ 30 - Nat.log2 (natMSB (List.replicate z false ++ true :: m)) = z := by
  have h1 : natMSB (true :: m) = 2 ^ m.length + natMSB m := by
    have := natMSB_append [true] m
    simpa [natMSB] using this
  have h2 := natMSB_lt m
  have h3 : natMSB (List.replicate z false ++ true :: m) = 2 ^ m.length + natMSB m := by
    rw [natMSB_append, natMSB_replicate, h1]; simp
  have h4 : Nat.log2 (2 ^ m.length + natMSB m) = m.length := by
    rw [Nat.log2_eq_iff (by have := Nat.two_pow_pos m.length; omega), Nat.pow_succ]; omega
  rw [h3, h4]
  have := Nat.two_pow_pos m.length
  omega

/-- Counting the zero bits of a unary code. -/
theorem zerobits_lawful {P : Type} [BitPump P] {Rep : P → List Bool → Prop} {avail : P → Nat} {can : List Bool → Nat → Prop}
    (h : Lawful P Rep avail can) (fuel z count : Nat) (p : P) (rest : List Bool)
    (hp : Rep p (List.replicate z false ++ true :: rest)) (hf : z / 31 < fuel)
    (hcan : ∀ i, i ≤ z → can (List.replicate i false ++ true :: rest) 31) :
    ∃ p', consumeZerobits fuel p count = .ok (count + z, p') ∧ Rep p' (true :: rest) := by
  induction fuel generalizing z count p with
  | zero => omega
  | succ fuel ih =>
    obtain ⟨p1, e1, r1, a1⟩ := h.peek_ok p _ 31 hp (by omega) (hcan z (by omega))
    rcases Nat.lt_or_ge z 31 with hz | hz
    · have ht : takeZ 31 (List.replicate z false ++ true :: rest) = List.replicate z false ++ true :: takeZ (30 - z) rest := by
        have hsplit : (31 : Nat) = z + (1 + (30 - z)) := by omega
        rw [takeZ, takeZ, List.append_assoc]
        conv => lhs; rw [hsplit]
        rw [List.take_append, List.length_replicate, List.take_of_length_le (by simp)]
        congr 1
        rw [show z + (1 + (30 - z)) - z = (30 - z) + 1 by omega, List.cons_append, List.take_succ_cons]
        congr 1
        rw [show List.replicate (z + (1 + (30 - z))) false = List.replicate (30 - z) false ++ List.replicate (z + 1) false by
          rw [List.replicate_append_replicate]; congr 1; omega]
        rw [← List.append_assoc, List.take_append_of_le_length (by simp)]
      obtain ⟨hv0, hlog⟩ := log2_first_one z (takeZ (30 - z) rest) (by simp [takeZ]; omega)
      obtain ⟨p2, e2, r2, _⟩ := h.consume_ok p1 _ z r1 (by omega)
      refine ⟨p2, ?_, by simpa using r2⟩
      rw [consumeZerobits, e1, ht]
      simp only [bind, Except.bind, if_neg hv0, hlog, e2]
      rw [if_pos (by omega)]
    · have ht : takeZ 31 (List.replicate z false ++ true :: rest) = List.replicate 31 false := by
        rw [takeZ, List.take_append_of_le_length (by simp; omega), List.take_append_of_le_length (by simpa using hz),
          List.take_replicate, Nat.min_eq_left hz]
      obtain ⟨p2, e2, r2, _⟩ := h.consume_ok p1 _ 31 r1 a1
      have hd : (List.replicate z false ++ true :: rest).drop 31 = List.replicate (z - 31) false ++ true :: rest := by
        rw [List.drop_append_of_le_length (by simpa using hz), List.drop_replicate]
      rw [hd] at r2
      obtain ⟨p3, e3, r3⟩ := ih (z - 31) (count + 31) p2 r2 (by omega) (fun i hi => hcan i (by omega))
      refine ⟨p3, ?_, r3⟩
      rw [consumeZerobits, e1, ht, natMSB_replicate]
      simp only [bind, Except.bind, if_true, e2]
      rw [if_neg (by simp), e3]
      congr 2; omega

/-- **C46 (unary code, JPEG reader).** However long the run, `consume_zerobits` returns the number of zero bits before
the next one bit and leaves the reader on that one bit. -/
theorem C46_zero_run_jpeg (src : List Nat) (hb : IsBytes src) (he : ProperEnd src) (z : Nat) (rest : List Bool)
    (hs : bytesMSB (unstuff src) = List.replicate z false ++ true :: rest) (ops : List (Nat × Nat))
    (hops : ∀ o ∈ ops, o.2 ≤ o.1 ∧ o.1 ≤ 32) :
    ∃ p, consumeZerobits (z / 31 + 1) (PumpJPEG.new src) 0 = .ok (z, p) ∧ readOps p ops = .ok (seen (true :: rest) ops) := by
  have r := PumpJPEG.rep_new src hb he
  rw [hs] at r
  obtain ⟨p, e, r'⟩ := zerobits_lawful PumpJPEG.lawful (z / 31 + 1) z 0 _ rest r (by omega) (fun _ _ => trivial)
  exact ⟨p, by simpa using e, readOps_lawful PumpJPEG.lawful ops hops p _ r'⟩

/-- **C46 (unary code, MSB reader).** The same when at least 31 bits follow the run. -/
theorem C46_zero_run_msb (src : List Nat) (hb : IsBytes src) (z : Nat) (rest : List Bool)
    (hs : bytesMSB src = List.replicate z false ++ true :: rest) (h30 : 30 ≤ rest.length) (ops : List (Nat × Nat))
    (hf : Fits (rest.length + 1) ops) :
    ∃ p, consumeZerobits (z / 31 + 1) (PumpMSB.new src) 0 = .ok (z, p) ∧ readOps p ops = .ok (fieldsMSB (true :: rest) ops) := by
  have r := PumpMSB.rep_new src hb
  rw [hs] at r
  obtain ⟨p, e, r'⟩ := zerobits_lawful PumpMSB.lawful (z / 31 + 1) z 0 _ rest r (by omega) (fun i _ => by simp; omega)
  obtain ⟨p', e', _⟩ := runOps_lawful PumpMSB.lawful ops p _ r' (by simpa using hf)
  exact ⟨p, by simpa using e, readOps_of_runOps _ _ _ _ e'⟩

/-- a run of 37 zero bits over two rounds -/
example : (do let (n, p) ← consumeZerobits 2 (PumpMSB.new [0, 0, 0, 0, 7, 1, 2, 3, 4, 5]) 0
              let (v, _) ← BitPump.peek p 3
              pure (n, v)) = .ok (37, 7) := by decide +kernel

/-- Finding: if only zero bits are left in a JPEG segment the reader supplies zeros for ever and `consume_zerobits` never
returns (no number of rounds suffices). -/
theorem C46_zero_tail_never_returns (src : List Nat) (hb : IsBytes src) (he : ProperEnd src) (z : Nat)
    (hs : bytesMSB (unstuff src) = List.replicate z false) (fuel : Nat) :
    consumeZerobits fuel (PumpJPEG.new src) 0 = panic' := by
  have r := PumpJPEG.rep_new src hb he
  rw [hs] at r
  revert r
  generalize PumpJPEG.new src = p
  generalize 0 = count
  clear hs
  induction fuel generalizing z count p with
  | zero => intro _; rfl
  | succ fuel ih =>
    intro r
    obtain ⟨p1, e1, r1, a1⟩ := PumpJPEG.lawful.peek_ok p _ 31 r (by omega) trivial
    obtain ⟨p2, e2, r2, _⟩ := PumpJPEG.lawful.consume_ok p1 _ 31 r1 a1
    have ht : takeZ 31 (List.replicate z false) = List.replicate 31 false := by
      rw [takeZ, List.replicate_append_replicate, List.take_replicate, Nat.min_eq_left (by omega)]
    rw [List.drop_replicate] at r2
    rw [consumeZerobits, e1, ht, natMSB_replicate]
    simp only [bind, Except.bind, if_true, e2]
    rw [if_neg (by simp)]
    exact ih (z - 31) p2 (count + 31) r2

example : bytesMSB (unstuff [0, 0, 0xff, 0xd9]) = List.replicate 16 false := by decide

/-- The two's complement value of an `n` bit field. -/
def signed (n v : Nat) : Int := if v < 2 ^ (n - 1) then v else (v : Int) - 2 ^ n

/-- **C46 (signed fields).** `get_ibits_sextended(n)` returns the next `n` bits as a two's complement number and
advances by `n` bits. -/
theorem C46_signed_field (src : List Nat) (hb : IsBytes src) (n : Nat) (h1 : 1 ≤ n) (h32 : n ≤ 32) (hlen : n ≤ 8 * src.length)
    (ops : List (Nat × Nat)) (hf : Fits (8 * src.length - n) ops) :
    ∃ p, getIbitsSextended (PumpMSB.new src) n = .ok (signed n (natMSB ((bytesMSB src).take n)), p) ∧
      readOps p ops = .ok (fieldsMSB ((bytesMSB src).drop n) ops) := by
  obtain ⟨p1, e1, r1, a1⟩ := PumpMSB.lawful.peek_ok _ _ n (PumpMSB.rep_new src hb) h32 (by rw [length_bytesMSB]; exact hlen)
  obtain ⟨p2, e2, r2, _⟩ := PumpMSB.lawful.consume_ok p1 _ n r1 a1
  obtain ⟨p', e', _⟩ := runOps_lawful PumpMSB.lawful ops p2 _ r2 (by rw [List.length_drop, length_bytesMSB]; exact hf)
  refine ⟨p2, ?_, readOps_of_runOps _ _ _ _ e'⟩
  rw [takeZ_of_le (by rw [length_bytesMSB]; exact hlen)] at e1
  have hv := natMSB_lt ((bytesMSB src).take n)
  rw [List.length_take, length_bytesMSB, Nat.min_eq_left hlen] at hv
  revert e1 hv
  generalize natMSB ((bytesMSB src).take n) = v
  intro e1 hv
  rw [getIbitsSextended, getBits, if_neg (by omega), e1]
  simp only [bind, Except.bind, e2]
  rw [usub, if_pos h32]
  simp only
  obtain ⟨m, rfl⟩ : ∃ m, n = m + 1 := ⟨n - 1, by omega⟩
  have hs : (32 - (m + 1)) % 32 = 31 - m := by omega
  have hx : (2 : Nat) ^ 31 = 2 ^ m * 2 ^ (31 - m) := by rw [← Nat.pow_add]; congr 1; omega
  have hup : (v <<< (31 - m)) % 2 ^ 32 = v * 2 ^ (31 - m) := by
    rw [Nat.shiftLeft_eq, Nat.mod_eq_of_lt]
    have := (Nat.mul_lt_mul_right (Nat.two_pow_pos (31 - m))).mpr hv
    rw [← Nat.pow_add, show m + 1 + (31 - m) = 32 by omega] at this
    exact this
  rw [hs, hup, hx]
  have hpos := Nat.two_pow_pos (31 - m)
  congr 2
  rw [signed, show m + 1 - 1 = m by omega]
  have hcast : ((2 : Int) ^ (31 - m)) = ((2 ^ (31 - m) : Nat) : Int) := by simp
  have h32' : ((2 : Int) ^ 32) = 2 ^ (m + 1) * 2 ^ (31 - m) := by rw [← Int.pow_add]; congr 1; omega
  have hne : ((2 : Int) ^ (31 - m)) ≠ 0 := by rw [hcast]; omega
  by_cases hc : v < 2 ^ m
  · rw [if_pos hc, if_pos ((Nat.mul_lt_mul_right hpos).mpr hc)]
    simp only [Int.ofNat_eq_natCast, Int.natCast_mul]
    rw [← hcast]
    rw [Int.mul_ediv_cancel _ hne]
  · rw [if_neg hc, if_neg (fun h => hc ((Nat.mul_lt_mul_right hpos).mp h))]
    simp only [Int.ofNat_eq_natCast, Int.natCast_mul]
    rw [← hcast]
    rw [h32', ← Int.sub_mul, Int.mul_ediv_cancel _ hne]

example : (getIbitsSextended (PumpMSB.new [0xf4, 0x12]) 6).map (·.1) = .ok (-3) := by decide +kernel

end Verif.Props
