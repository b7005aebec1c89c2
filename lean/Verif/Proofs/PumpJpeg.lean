import Verif.Model.Pumps
import Verif.Spec.Bits
import Verif.Proofs.Base

namespace Verif.Pumps
open Verif Verif.Spec

/-- A pump that reads a bit string. `can l n`: reading `n` bits of remaining string `l` is possible;
`avail`: bits known to be buffered. -/
structure Lawful (P : Type) [BitPump P] (Rep : P → List Bool → Prop) (avail : P → Nat)
    (can : List Bool → Nat → Prop) : Prop where
  peek_ok : ∀ p l n, Rep p l → n ≤ 32 → can l n →
    ∃ p', BitPump.peek p n = .ok (natMSB (takeZ n l), p') ∧ Rep p' l ∧ n ≤ avail p'
  consume_ok : ∀ p l n, Rep p l → n ≤ avail p →
    ∃ p', BitPump.consume p n = .ok p' ∧ Rep p' (l.drop n) ∧ avail p' = avail p - n

theorem takeZ_zero (l : List Bool) : takeZ 0 l = [] := by simp [takeZ]

@[simp] theorem length_takeZ (n : Nat) (l : List Bool) : (takeZ n l).length = n := by
  simp [takeZ]

theorem takeZ_of_le {n : Nat} {l : List Bool} (h : n ≤ l.length) : takeZ n l = l.take n := by
  simp [takeZ, List.take_append_of_le_length h]

theorem takeZ_append_zeros (n z : Nat) (l : List Bool) :
    takeZ n (l ++ List.replicate z false) = takeZ n l := by
  apply List.ext_getElem?
  intro i
  simp only [takeZ, List.getElem?_take, List.append_assoc, List.replicate_append_replicate]
  split
  · rcases Nat.lt_or_ge i l.length with h | h
    · rw [List.getElem?_append_left h, List.getElem?_append_left h]
    · rw [List.getElem?_append_right h, List.getElem?_append_right h, List.getElem?_replicate, List.getElem?_replicate]
      rw [if_pos (by omega), if_pos (by omega)]
  · rfl

theorem takeZ_append {n m : Nat} {l k : List Bool} (h : l.length = n) :
    takeZ (n + m) (l ++ k) = l ++ takeZ m k := by
  subst h
  apply List.ext_getElem?
  intro i
  simp only [takeZ, List.getElem?_take, List.append_assoc]
  rcases Nat.lt_or_ge i l.length with hi | hi
  · rw [if_pos (by omega), List.getElem?_append_left hi, List.getElem?_append_left hi]
  · rw [List.getElem?_append_right hi, List.getElem?_append_right hi, List.getElem?_take]
    by_cases h2 : i < l.length + m
    · rw [if_pos h2, if_pos (by omega)]
      rcases Nat.lt_or_ge (i - l.length) k.length with hk | hk
      · rw [List.getElem?_append_left hk, List.getElem?_append_left hk]
      · rw [List.getElem?_append_right hk, List.getElem?_append_right hk, List.getElem?_replicate, List.getElem?_replicate]
        rw [if_pos (by omega), if_pos (by omega)]
    · rw [if_neg h2, if_neg (by omega)]

/-- shifting in `k` fresh bits -/
theorem shl_or (b k w n : Nat) (hb : b < 2 ^ n) (hw : w < 2 ^ k) (hn : n + k ≤ 64) :
    ((b <<< k) % 2 ^ 64) ||| w = b * 2 ^ k + w := by
  have h1 : b <<< k < 2 ^ 64 := by
    rw [Nat.shiftLeft_eq]
    calc b * 2 ^ k < 2 ^ n * 2 ^ k := Nat.mul_lt_mul_of_pos_right hb (Nat.two_pow_pos k)
      _ = 2 ^ (n + k) := (Nat.pow_add 2 n k).symm
      _ ≤ 2 ^ 64 := Nat.pow_le_pow_right (by omega) hn
  rw [Nat.mod_eq_of_lt h1, ← Nat.shiftLeft_add_eq_or_of_lt hw, Nat.shiftLeft_eq]

theorem mul_add_lt_pow (b k w n : Nat) (hb : b < 2 ^ n) (hw : w < 2 ^ k) : b * 2 ^ k + w < 2 ^ (n + k) := by
  rw [Nat.pow_add]
  calc b * 2 ^ k + w < b * 2 ^ k + 2 ^ k := by omega
    _ = (b + 1) * 2 ^ k := by rw [Nat.succ_mul]
    _ ≤ 2 ^ n * 2 ^ k := Nat.mul_le_mul_right _ hb

theorem consumeMSB_ok (bits nbits num : Nat) (hn : num ≤ nbits) (h64 : nbits < 64) :
    consumeMSB bits nbits num = .ok (bits % 2 ^ (nbits - num), nbits - num) := by
  have : nbits - num < 64 := by omega
  simp [consumeMSB, hn, this, Nat.one_shiftLeft, Nat.and_two_pow_sub_one_eq_mod]

theorem unstuff_cons_ne {b : Nat} (r : List Nat) (h : b ≠ 0xff) : unstuff (b :: r) = b :: unstuff r := by
  rw [unstuff.eq_def]; simp [h]
theorem unstuff_ff_zero (r : List Nat) : unstuff (0xff :: 0 :: r) = 0xff :: unstuff r := by
  rw [unstuff.eq_def]; simp
theorem unstuff_ff_ne {c : Nat} (r : List Nat) (h : c ≠ 0) : unstuff (0xff :: c :: r) = [] := by
  rw [unstuff.eq_def]; simp [h]
theorem properEnd_cons_ne {b : Nat} {r : List Nat} (h : b ≠ 0xff) : ProperEnd (b :: r) ↔ ProperEnd r := by
  rw [ProperEnd.eq_def]; simp [h]
theorem properEnd_ff_zero {r : List Nat} : ProperEnd (0xff :: 0 :: r) ↔ ProperEnd r := by
  rw [ProperEnd.eq_def]; simp
theorem properEnd_ff_ne {c : Nat} {r : List Nat} (h : c ≠ 0) : ProperEnd (0xff :: c :: r) := by
  rw [ProperEnd.eq_def]; simp [h]
theorem properEnd_ff : ¬ ProperEnd [0xff] := by
  rw [ProperEnd.eq_def]; simp

namespace PumpJPEG

/-- Bits still to be delivered by the pump. -/
def pbits (p : PumpJPEG) : List Bool :=
  bitsMSB p.nbits p.bits ++ (if p.finished then [] else bytesMSB (unstuff p.rest))

structure Inv (p : PumpJPEG) : Prop where
  n64 : p.nbits < 64
  lt : p.bits < 2 ^ p.nbits
  bytes : IsBytes p.rest
  ends : p.finished = false → ProperEnd p.rest

/-- `p` will deliver `l` followed by zeros. -/
def Rep (p : PumpJPEG) (l : List Bool) : Prop :=
  p.Inv ∧ ∃ z, p.pbits = l ++ List.replicate z false

theorem push8_bits (p : PumpJPEG) (b : Nat) (h : p.bits < 2 ^ p.nbits) (hn : p.nbits + 8 ≤ 64) (hb : b < 256) :
    (p.push8 b).bits = p.bits * 2 ^ 8 + b := shl_or _ 8 _ _ h (by simpa using hb) hn

theorem slow_ok (k : Nat) (p : PumpJPEG) (hInv : p.bits < 2 ^ p.nbits) (hb : IsBytes p.rest)
    (he : p.finished = false → ProperEnd p.rest) (hn : p.nbits + 8 * k < 64) (l : List Bool)
    (hl : ∃ z, p.pbits = l ++ List.replicate z false) :
    ∃ p', slow k p = .ok p' ∧ p'.Rep l ∧ (p'.finished = false → p'.nbits = p.nbits + 8 * k) ∧
      p'.nbits ≤ p.nbits + 8 * k := by
  induction k generalizing p with
  | zero => exact ⟨p, rfl, ⟨⟨by omega, hInv, hb, he⟩, hl⟩, by simp, by simp⟩
  | succ k ih =>
    unfold slow
    by_cases hf : p.finished = true
    · simp only [hf, if_true]
      exact ⟨p, rfl, ⟨⟨by omega, hInv, hb, he⟩, hl⟩, by simp [hf], by omega⟩
    · have hf' : p.finished = false := by simpa using hf
      rw [if_neg hf]
      have he := he hf'
      obtain ⟨z, hz⟩ := hl
      -- common facts
      have step : ∀ (b : Nat) (r : List Nat) (fin : Bool), b < 256 → IsBytes r →
          (fin = false → ProperEnd r) →
          (∃ z, ({p.push8 b with rest := r, finished := fin} : PumpJPEG).pbits = l ++ List.replicate z false) →
          ∃ p', slow k {p.push8 b with rest := r, finished := fin} = .ok p' ∧ p'.Rep l ∧
            (p'.finished = false → p'.nbits = p.nbits + 8 * (k+1)) ∧ p'.nbits ≤ p.nbits + 8 * (k+1) := by
        intro b r fin hb2 hr hpe hz2
        have hbits := push8_bits p b hInv (by omega) hb2
        obtain ⟨p', h1, h2, h3, h4⟩ := ih {p.push8 b with rest := r, finished := fin}
          (by simp only [hbits]; exact mul_add_lt_pow _ 8 _ _ hInv (by simpa using hb2)) hr hpe
          (by simp only [push8]; omega) hz2
        refine ⟨p', h1, h2, ?_, ?_⟩
        · intro hfin; rw [h3 hfin]; simp only [push8]; omega
        · simp only [push8] at h4; omega
      have bitsEq : ∀ b, b < 256 → bitsMSB (p.nbits + 8) ((p.push8 b).bits) = bitsMSB p.nbits p.bits ++ bitsMSB 8 b := by
        intro b hb2
        rw [push8_bits p b hInv (by omega) hb2]
        exact bitsMSB_append _ 8 _ _ (by simpa using hb2)
      cases hrest : p.rest with
      | nil =>
        simp only
        have := step 0 [] true (by omega) (by simp [IsBytes]) (by simp) (by
          refine ⟨z + 8, ?_⟩
          simp only [pbits, if_true, List.append_nil]
          rw [show ((p.push8 0).nbits) = p.nbits + 8 from rfl, bitsEq 0 (by omega), bitsMSB_zero_val]
          simp only [pbits, hf', hrest, unstuff, bytesMSB_nil] at hz
          simp only [Bool.false_eq_true, if_false, List.append_nil] at hz
          rw [hz, List.append_assoc, List.replicate_append_replicate])
        simpa [push8, hrest] using this
      | cons b r =>
        rw [hrest] at hb he
        have hbb : b < 256 := hb b (by simp)
        have hbr : IsBytes r := fun x hx => hb x (by simp [hx])
        simp only
        by_cases hff : b ≠ 0xff
        · rw [if_pos hff]
          have := step b r false hbb hbr (by intro _; exact (properEnd_cons_ne hff).1 he) (by
            refine ⟨z, ?_⟩
            rw [← hz]
            simp only [pbits, hf', hrest]
            rw [show ((p.push8 b).nbits) = p.nbits + 8 from rfl, bitsEq b hbb]
            simp [unstuff_cons_ne r hff])
          simpa [push8, hf'] using this
        · rw [if_neg hff]
          have hbe : b = 0xff := by simpa using hff
          cases r with
          | nil => rw [hbe] at he; exact absurd he properEnd_ff
          | cons c r' =>
            simp only
            have hr' : IsBytes r' := fun x hx => hbr x (by simp [hx])
            by_cases hc : c = 0
            · rw [if_pos hc]
              have := step b r' false hbb hr' (by intro _; rw [hbe, hc] at he; exact properEnd_ff_zero.1 he) (by
                refine ⟨z, ?_⟩
                rw [← hz]
                simp only [pbits, hf', hrest]
                rw [show ((p.push8 b).nbits) = p.nbits + 8 from rfl, bitsEq b hbb]
                simp [hbe, hc, unstuff_ff_zero])
              simpa [push8, hf'] using this
            · rw [if_neg hc]
              have := step 0 (c :: r') true (by omega) hbr (by simp) (by
                refine ⟨z + 8, ?_⟩
                simp only [pbits, if_true, List.append_nil]
                rw [show ((p.push8 0).nbits) = p.nbits + 8 from rfl, bitsEq 0 (by omega), bitsMSB_zero_val]
                simp only [pbits, hf', hrest, hbe, unstuff_ff_ne r' hc] at hz
                simp at hz
                rw [hz, List.append_assoc, List.replicate_append_replicate])
              exact this

theorem fast_spec {rest : List Nat} {w : Nat} {r : List Nat} (h : fastWord rest = some (w, r)) (hb : IsBytes rest)
    (he : ProperEnd rest) :
    w < 2 ^ 32 ∧ IsBytes r ∧ ProperEnd r ∧ bytesMSB (unstuff rest) = bitsMSB 32 w ++ bytesMSB (unstuff r) := by
  unfold fastWord at h
  split at h
  · rename_i a b c d e r'
    split at h
    · rename_i hc
      obtain ⟨h1, h2, h3, h4⟩ := hc
      simp only [Option.some.injEq, Prod.mk.injEq] at h
      obtain ⟨hw, rfl⟩ := h
      have ha := hb a (by simp)
      have hb' := hb b (by simp)
      have hc' := hb c (by simp)
      have hd' := hb d (by simp)
      refine ⟨by omega, fun x hx => hb x (by simp only [List.mem_cons] at hx ⊢; rcases hx with h | h <;> simp [h]), ?_, ?_⟩
      · simpa [properEnd_cons_ne, h1, h2, h3, h4] using he
      · subst hw
        rw [show (32 : Nat) = ((8 + 8) + 8) + 8 from rfl]
        rw [bitsMSB_append (8+8+8) 8 _ d (by simpa using hd'), bitsMSB_append (8+8) 8 _ c (by simpa using hc'),
          bitsMSB_append 8 8 _ b (by simpa using hb')]
        rw [unstuff_cons_ne _ h1, unstuff_cons_ne _ h2, unstuff_cons_ne _ h3, unstuff_cons_ne _ h4]
        simp
    · exact absurd h (by simp)
  · exact absurd h (by simp)

theorem rep_new (src : List Nat) (hb : IsBytes src) (he : ProperEnd src) :
    (PumpJPEG.new src).Rep (bytesMSB (unstuff src)) :=
  ⟨⟨by simp [PumpJPEG.new], by simp [PumpJPEG.new], hb, fun _ => he⟩, 0, by simp [pbits, PumpJPEG.new, bitsMSB]⟩

/-- What is buffered is a prefix of the remaining string (zero extended). -/
theorem peek_value (p : PumpJPEG) (l : List Bool) (n : Nat) (h : p.Rep l) (hn : n ≤ p.nbits) (h32 : n ≤ 32) :
    (p.bits >>> (p.nbits - n)) % 2 ^ 32 = natMSB (takeZ n l) := by
  obtain ⟨⟨h64, hlt, _, _⟩, z, hz⟩ := h
  have hq : p.bits >>> (p.nbits - n) < 2 ^ n := by
    rw [Nat.shiftRight_eq_div_pow]
    apply Nat.div_lt_of_lt_mul
    rw [← Nat.pow_add, show p.nbits - n + n = p.nbits by omega]; exact hlt
  have hq2 : p.bits >>> (p.nbits - n) < 2 ^ 32 := Nat.lt_of_lt_of_le hq (Nat.pow_le_pow_right (by omega) h32)
  rw [Nat.mod_eq_of_lt hq2]
  have e1 : takeZ n l = (bitsMSB p.nbits p.bits).take n := by
    rw [← takeZ_append_zeros n z l, ← hz, takeZ_of_le (by simp [pbits]; omega), pbits,
      List.take_append_of_le_length (by simp; omega)]
  rw [e1, take_bitsMSB _ _ _ hn, natMSB_bitsMSB, ← Nat.shiftRight_eq_div_pow, Nat.mod_eq_of_lt hq]

theorem peek_ok (p : PumpJPEG) (l : List Bool) (n : Nat) (h : p.Rep l) (h32 : n ≤ 32) :
    ∃ p', p.peek n = .ok (natMSB (takeZ n l), p') ∧ p'.Rep l ∧ n ≤ p'.nbits := by
  -- after the first refill
  have s1 : ∃ p1, p.refill n = .ok p1 ∧ p1.Rep l ∧ (n ≤ p1.nbits ∨ (p1.finished = true ∧ p1.nbits < 32)) := by
    obtain ⟨⟨h64, hlt, hb, he⟩, hz⟩ := h
    unfold refill
    by_cases hc : n > p.nbits ∧ p.finished = false
    · rw [if_pos hc]
      obtain ⟨hc1, hc2⟩ := hc
      cases hfw : PumpJPEG.fastWord p.rest with
      | some wr =>
        obtain ⟨w, r⟩ := wr
        obtain ⟨hw, hr, her, hbs⟩ := fast_spec hfw hb (he hc2)
        simp only
        refine ⟨_, rfl, ⟨⟨?_, ?_, hr, fun _ => her⟩, ?_⟩, Or.inl ?_⟩
        · simp only; omega
        · simp only; rw [shl_or _ 32 _ _ hlt hw (by omega)]; exact mul_add_lt_pow _ 32 _ _ hlt hw
        · obtain ⟨z, hz⟩ := hz
          refine ⟨z, ?_⟩
          rw [← hz]
          simp only [pbits, hc2]
          rw [shl_or _ 32 _ _ hlt hw (by omega), bitsMSB_append _ 32 _ _ hw, hbs]; simp
        · simp only; omega
      | none =>
        simp only
        obtain ⟨p', h1, h2, h3, h4⟩ := slow_ok 4 p hlt hb he (by omega) l hz
        refine ⟨p', h1, h2, ?_⟩
        by_cases hfin : p'.finished = true
        · by_cases hnn : n ≤ p'.nbits
          · exact Or.inl hnn
          · exact Or.inr ⟨hfin, by omega⟩
        · left; rw [h3 (by simpa using hfin)]; omega
    · rw [if_neg hc]
      refine ⟨p, rfl, ⟨⟨h64, hlt, hb, he⟩, hz⟩, ?_⟩
      by_cases hnn : n ≤ p.nbits
      · exact Or.inl hnn
      · right
        constructor
        · cases hf : p.finished
          · exact absurd ⟨by omega, hf⟩ hc
          · rfl
        · omega
  obtain ⟨p1, e1, r1, c1⟩ := s1
  have s2 : ∃ p2, p1.stuffZero n = p2 ∧ p2.Rep l ∧ n ≤ p2.nbits := by
    unfold stuffZero
    by_cases hc : n > p1.nbits ∧ p1.finished = true
    · rw [if_pos hc]
      refine ⟨_, rfl, ?_, by simp only; omega⟩
      obtain ⟨⟨h64, hlt, hb, he⟩, z, hz⟩ := r1
      have hlt32 : p1.nbits < 32 := by omega
      have e := shl_or p1.bits 32 0 p1.nbits hlt (Nat.two_pow_pos 32) (by omega)
      simp only [Nat.or_zero, Nat.add_zero] at e
      refine ⟨⟨by simp only; omega, ?_, hb, he⟩, z + 32, ?_⟩
      · simp only; rw [e, ← Nat.add_zero (p1.bits * 2 ^ 32)]; exact mul_add_lt_pow _ 32 0 _ hlt (Nat.two_pow_pos 32)
      · simp only [pbits, hc.2, if_true, List.append_nil] at hz ⊢
        rw [e, ← Nat.add_zero (p1.bits * 2 ^ 32), bitsMSB_append _ 32 _ _ (Nat.two_pow_pos 32), hz,
          bitsMSB_zero_val, List.append_assoc, List.replicate_append_replicate]
    · rw [if_neg hc]
      refine ⟨p1, rfl, r1, ?_⟩
      rcases c1 with c | c
      · exact c
      · by_cases hnn : n ≤ p1.nbits
        · exact hnn
        · exact absurd ⟨by omega, c.1⟩ hc
  obtain ⟨p2, e2, r2, c2⟩ := s2
  refine ⟨p2, ?_, r2, c2⟩
  have h64 := r2.1.n64
  unfold PumpJPEG.peek
  rw [e1]
  simp only [bind, Except.bind, e2]
  rw [if_pos ⟨c2, by omega⟩, peek_value p2 l n r2 c2 h32]

theorem consume_ok (p : PumpJPEG) (l : List Bool) (n : Nat) (h : p.Rep l) (hn : n ≤ p.nbits) :
    ∃ p', p.consume n = .ok p' ∧ p'.Rep (l.drop n) ∧ p'.nbits = p.nbits - n := by
  obtain ⟨⟨h64, hlt, hb, he⟩, z, hz⟩ := h
  refine ⟨{ p with bits := p.bits % 2 ^ (p.nbits - n), nbits := p.nbits - n }, ?_, ⟨⟨?_, ?_, hb, he⟩, ?_⟩, rfl⟩
  · simp [PumpJPEG.consume, consumeMSB_ok _ _ _ hn h64, bind, Except.bind]
  · simp only; omega
  · exact Nat.mod_lt _ (Nat.two_pow_pos _)
  · refine ⟨z - (n - l.length), ?_⟩
    have := congrArg (List.drop n) hz
    simp only [pbits] at this ⊢
    rw [List.drop_append_of_le_length (by simp; omega), drop_bitsMSB _ _ _ hn] at this
    rw [bitsMSB_mod, this, List.drop_append, List.drop_replicate]

theorem lawful : Lawful PumpJPEG Rep nbits (fun _ _ => True) where
  peek_ok p l n h h32 _ := peek_ok p l n h h32
  consume_ok p l n h hn := consume_ok p l n h hn

end PumpJPEG
end Verif.Pumps
