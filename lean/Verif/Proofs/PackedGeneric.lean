import Verif.Proofs.Packed
import Verif.Proofs.Pumps32
/-! # Samples read one by one with a bit reader -/

namespace Verif.Packed
open Verif Verif.Pumps Verif.Spec

/-- A reader of `bits` bit fields. -/
def Reads (P : Type) [BitPump P] (Rep : P → List Bool → Prop) (dec : List Bool → Nat) (bits : Nat) : Prop :=
  ∀ p l, Rep p l → bits ≤ l.length → ∃ p', getBits p bits = .ok (dec (l.take bits), p') ∧ Rep p' (l.drop bits)

theorem reads_msb (bits : Nat) (h : bits ≤ 16) : Reads PumpMSB PumpMSB.Rep natMSB bits := by
  intro p l hp hl
  rw [getBits]
  by_cases h0 : bits = 0
  · subst h0; exact ⟨p, by simp [natMSB], by simpa using hp⟩
  · obtain ⟨p1, e1, r1, a1⟩ := PumpMSB.lawful.peek_ok p l bits hp (by omega) hl
    obtain ⟨p2, e2, r2, _⟩ := PumpMSB.lawful.consume_ok p1 l bits r1 a1
    rw [takeZ_of_le hl] at e1
    exact ⟨p2, by rw [if_neg h0]; simp only [e1, bind, Except.bind, e2], r2⟩

theorem reads_lsb (bits : Nat) (h : bits ≤ 16) : Reads PumpLSB PumpLSB.Rep natLSB bits := by
  intro p l hp hl
  rw [getBits]
  by_cases h0 : bits = 0
  · subst h0; exact ⟨p, by simp [natLSB], by simpa using hp⟩
  · obtain ⟨p1, e1, r1, a1⟩ := PumpLSB.peek_ok p l bits hp (by omega) hl
    obtain ⟨p2, e2, r2, _⟩ := PumpLSB.consume_ok p1 l bits r1 a1
    have e1' : BitPump.peek p bits = .ok (natLSB (l.take bits), p1) := e1
    have e2' : BitPump.consume p1 bits = .ok p2 := e2
    exact ⟨p2, by rw [if_neg h0]; simp only [e1', bind, Except.bind, e2'], r2⟩

theorem natLSB_lt (l : List Bool) : natLSB l < 2 ^ l.length := by
  induction l with
  | nil => simp [natLSB]
  | cons b l ih =>
    rw [natLSB, List.length_cons, Nat.pow_succ]
    cases b <;> simp <;> omega

variable {P : Type} [BitPump P] {Rep : P → List Bool → Prop} {dec : List Bool → Nat} {bits : Nat}

theorem getMany_ok (hr : Reads P Rep dec bits) (hd : ∀ l, l.length = bits → dec l < 65536) (N : Nat) (p : P) (l : List Bool)
    (hp : Rep p l) (hl : N * bits ≤ l.length) :
    ∃ p', getMany bits N p = .ok ((List.range N).map fun i => dec ((l.drop (i * bits)).take bits), p') ∧ Rep p' (l.drop (N * bits)) := by
  induction N generalizing p l with
  | zero => exact ⟨p, rfl, by simpa using hp⟩
  | succ N ih =>
    rw [Nat.add_mul, Nat.one_mul] at hl
    obtain ⟨p1, e1, r1⟩ := hr p l hp (by omega)
    obtain ⟨p2, e2, r2⟩ := ih p1 _ r1 (by rw [List.length_drop]; omega)
    refine ⟨p2, ?_, ?_⟩
    · rw [getMany, e1]
      simp only [bind, Except.bind]
      rw [e2]
      simp only [List.range_succ_eq_map, List.map_cons, List.map_map]
      congr 2
      congr 1
      · rw [Nat.mod_eq_of_lt (hd _ (by rw [List.length_take]; omega))]; simp
      · apply List.map_congr_left
        intro i _
        simp only [Function.comp_apply, List.drop_drop, Nat.add_mul, Nat.one_mul, Nat.succ_eq_add_one]
        rw [Nat.add_comm]
    · rw [List.drop_drop] at r2
      rw [Nat.add_mul, Nat.one_mul, Nat.add_comm]; exact r2

theorem getLines_ok (hr : Reads P Rep dec bits) (hd : ∀ l, l.length = bits → dec l < 65536) (w : Nat) (lines : List (List Nat))
    (hw : ∀ x ∈ lines, x.length = w) (p : P) (l : List Bool) (hp : Rep p l) (hl : lines.length * w * bits ≤ l.length) :
    getLines bits lines p = .ok ((List.range lines.length).map fun r => (List.range w).map fun i =>
      dec ((l.drop ((r * w + i) * bits)).take bits)) := by
  induction lines generalizing p l with
  | nil => rfl
  | cons x lines ih =>
    rw [List.length_cons, Nat.add_mul, Nat.one_mul, Nat.add_mul] at hl
    obtain ⟨p1, e1, r1⟩ := getMany_ok hr hd w p l hp (by omega)
    have e2 := ih (fun y hy => hw y (by simp [hy])) p1 _ r1 (by rw [List.length_drop]; omega)
    rw [getLines, hw x (by simp), e1]
    simp only [bind, Except.bind]
    rw [e2]
    simp only [List.length_cons, List.range_succ_eq_map, List.map_cons, List.map_map, Nat.zero_mul, Nat.zero_add]
    congr 2
    apply List.map_congr_left
    intro r _
    simp only [Function.comp_apply]
    apply List.map_congr_left
    intro i _
    rw [List.drop_drop]
    congr 3
    rw [Nat.succ_eq_add_one, Nat.add_mul r 1 w, Nat.one_mul, Nat.add_mul, Nat.add_mul, Nat.add_mul]; omega

theorem natMSB_16 (h : bits ≤ 16) (l : List Bool) (hl : l.length = bits) : natMSB l < 65536 :=
  Nat.lt_of_lt_of_le (natMSB_lt l) (by rw [hl]; exact Nat.pow_le_pow_right (by omega) h)

theorem natLSB_16 (h : bits ≤ 16) (l : List Bool) (hl : l.length = bits) : natLSB l < 65536 :=
  Nat.lt_of_lt_of_le (natLSB_lt l) (by rw [hl]; exact Nat.pow_le_pow_right (by omega) h)

theorem bytesMSB_drop (j : Nat) (src : List Nat) : bytesMSB (src.drop j) = (bytesMSB src).drop (8 * j) := by
  induction j generalizing src with
  | zero => simp
  | succ j ih =>
    match src with
    | [] => simp [bytesMSB]
    | a :: r =>
      rw [List.drop_succ_cons, ih r]
      have : bytesMSB (a :: r) = bitsMSB 8 a ++ bytesMSB r := rfl
      rw [this, show 8 * (j + 1) = 8 + 8 * j by omega, drop_past _ _ _ _ (length_bitsMSB 8 a)]

/-- The generic reader when the first row starts on a byte boundary. -/
theorem unpackGeneric_ok (src : List Nat) (hb : IsBytes src) (skip : Nat) (lines : List (List Nat)) (w : Nat) (h16 : bits ≤ 16)
    (hw : ∀ x ∈ lines, x.length = w) (hn : need (skip + lines.length) w bits ≤ src.length) (hal : skip * w * bits % 8 = 0) :
    unpackGeneric src skip lines w bits = .ok ((List.range lines.length).map fun r => (List.range w).map fun i =>
      natMSB (((bytesMSB src).drop (((skip + r) * w + i) * bits)).take bits)) := by
  have h1 : (skip + lines.length) * w * bits ≤ 8 * src.length := by rw [need] at hn; omega
  rw [Nat.add_mul, Nat.add_mul] at h1
  rw [unpackGeneric, if_neg (by omega), hal, assert', if_pos (by simpa using h16), from', if_pos (by omega)]
  simp only [bind, Except.bind]
  have hb' : IsBytes (src.drop (skip * w * bits / 8)) := fun x hx => hb x (List.mem_of_mem_drop hx)
  obtain ⟨p, e, r, _⟩ := PumpMSB.lawful.consume_ok _ _ 0 (PumpMSB.rep_new _ hb') (by omega)
  rw [e]
  simp only []
  rw [getLines_ok (reads_msb bits h16) (natMSB_16 h16) w lines hw p _ r
    (by rw [List.drop_zero, length_bytesMSB, List.length_drop]; omega)]
  congr 1
  apply List.map_congr_left
  intro i _
  apply List.map_congr_left
  intro j _
  rw [List.drop_zero, bytesMSB_drop, List.drop_drop]
  congr 3
  rw [Nat.add_mul skip i w, Nat.add_mul, Nat.add_mul, Nat.add_mul]; omega

end Verif.Packed
