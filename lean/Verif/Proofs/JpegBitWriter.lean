import Verif.Model.JpegBitWriter
import Verif.Proofs.PumpJpeg

namespace Verif.Ljpeg
open Verif Verif.Spec Verif.Pumps

theorem stuff_append (a b : List Nat) : stuff (a ++ b) = stuff a ++ stuff b := by simp [stuff]

theorem unstuff_stuff (ds rest : List Nat) : unstuff (stuff ds ++ rest) = ds ++ unstuff rest := by
  induction ds with
  | nil => simp [stuff]
  | cons d ds ih =>
    by_cases h : d = 0xff
    · subst h
      have : stuff (0xff :: ds) ++ rest = 0xff :: 0 :: (stuff ds ++ rest) := by simp [stuff]
      rw [this, unstuff_ff_zero, ih]; rfl
    · have : stuff (d :: ds) ++ rest = d :: (stuff ds ++ rest) := by simp [stuff, h]
      rw [this, unstuff_cons_ne _ h, ih]; rfl

theorem properEnd_stuff (ds rest : List Nat) : ProperEnd (stuff ds ++ rest) ↔ ProperEnd rest := by
  induction ds with
  | nil => simp [stuff]
  | cons d ds ih =>
    by_cases h : d = 0xff
    · subst h
      have : stuff (0xff :: ds) ++ rest = 0xff :: 0 :: (stuff ds ++ rest) := by simp [stuff]
      rw [this, properEnd_ff_zero, ih]
    · have : stuff (d :: ds) ++ rest = d :: (stuff ds ++ rest) := by simp [stuff, h]
      rw [this, properEnd_cons_ne h, ih]

theorem isBytes_stuff {ds : List Nat} (h : IsBytes ds) : IsBytes (stuff ds) := by
  intro b hb
  simp only [stuff, List.mem_flatMap] at hb
  obtain ⟨a, ha, hb⟩ := hb
  split at hb
  · simp at hb; rcases hb with rfl | rfl <;> omega
  · simp at hb; subst hb; exact h _ ha

/-- The writer has emitted `hdr`, then the bits `l`. -/
def BitWriter.Rep (w : BitWriter) (hdr : List Nat) (l : List Bool) : Prop :=
  ∃ ds v, IsBytes ds ∧ w.out = hdr ++ stuff ds ∧ w.used ≤ 8 ∧ v < 2 ^ w.used ∧ w.next = v * 2 ^ (8 - w.used) ∧
    l = bytesMSB ds ++ bitsMSB w.used v

theorem rep_new (hdr : List Nat) : (BitWriter.new hdr).Rep hdr [] :=
  ⟨[], 0, by simp [IsBytes], by simp [BitWriter.new, stuff], by simp [BitWriter.new], by simp [BitWriter.new],
    by simp [BitWriter.new], by simp [BitWriter.new, bitsMSB]⟩

theorem rep_flush8 {w : BitWriter} {hdr l} (h : w.Rep hdr l) (h8 : w.used = 8) :
    w.internalFlush.Rep hdr l ∧ w.internalFlush.used = 0 := by
  obtain ⟨ds, v, hds, ho, hu, hv, hn, hl⟩ := h
  rw [h8] at hv hn hl
  have hnv : w.next = v := by simpa using hn
  refine ⟨⟨ds ++ [v], 0, ?_, ?_, by simp [BitWriter.internalFlush], by simp [BitWriter.internalFlush],
    by simp [BitWriter.internalFlush], ?_⟩, rfl⟩
  · intro b hb; simp at hb; rcases hb with hb | rfl
    · exact hds b hb
    · exact hv
  · simp only [BitWriter.internalFlush, hnv, ho, stuff_append, List.append_assoc]
    simp only [stuff, List.flatMap_cons, List.flatMap_nil, List.append_nil]
    split <;> simp [*]
  · rw [hl]; simp [BitWriter.internalFlush, bitsMSB]

theorem step_ok {w : BitWriter} {hdr l} (h : w.Rep hdr l) (bits value : Nat) (hb : 0 < bits) :
    ∃ take, 0 < take ∧ take ≤ bits ∧ (w.step bits value).2 = bits - take ∧
      (w.step bits value).1.Rep hdr (l ++ bitsMSB take (value >>> (bits - take))) := by
  -- normalise the state after the optional flush
  have hw : ∃ w1, (if w.used = 8 then w.internalFlush else w) = w1 ∧ w1.Rep hdr l ∧ w1.used < 8 := by
    by_cases h8 : w.used = 8
    · rw [if_pos h8]; obtain ⟨a, b⟩ := rep_flush8 h h8; exact ⟨_, rfl, a, by omega⟩
    · rw [if_neg h8]; refine ⟨_, rfl, h, ?_⟩; obtain ⟨_, _, _, _, hu, _⟩ := h; omega
  obtain ⟨w1, e, ⟨ds, v, hds, ho, hu, hv, hn, hl⟩, hlt⟩ := hw
  refine ⟨min bits (8 - w1.used), by omega, by omega, by simp [BitWriter.step, e], ?_⟩
  simp only [BitWriter.step, e]
  generalize ht : min bits (8 - w1.used) = t
  have ht1 : t ≤ 8 - w1.used := by omega
  have ht8 : t ≤ 8 := by omega
  generalize hq : (value >>> (bits - t)) = q
  have hpk : (q &&& ((1 <<< t) - 1)) % 256 = q % 2 ^ t := by
    rw [Nat.one_shiftLeft, Nat.and_two_pow_sub_one_eq_mod]
    apply Nat.mod_eq_of_lt
    calc q % 2 ^ t < 2 ^ t := Nat.mod_lt _ (Nat.two_pow_pos _)
      _ ≤ 2 ^ 8 := Nat.pow_le_pow_right (by omega) ht8
  rw [hpk]
  have hlt' : q % 2 ^ t < 2 ^ t := Nat.mod_lt _ (Nat.two_pow_pos _)
  generalize hr0 : q % 2 ^ t = r at hlt' ⊢
  refine ⟨ds, v * 2 ^ t + r, hds, ho, by simp only; omega, ?_, ?_, ?_⟩
  · simp only; exact mul_add_lt_pow _ _ _ _ hv hlt'
  · simp only
    have e8 : (8 - w1.used - t) = 8 - (w1.used + t) := by omega
    have hr : r <<< (8 - w1.used - t) < 2 ^ (8 - w1.used) := by
      rw [Nat.shiftLeft_eq]
      calc r * 2 ^ (8 - w1.used - t) < 2 ^ t * 2 ^ (8 - w1.used - t) :=
            Nat.mul_lt_mul_of_pos_right hlt' (Nat.two_pow_pos _)
        _ = 2 ^ (8 - w1.used) := by rw [← Nat.pow_add]; congr 1; omega
    have hr256 : r <<< (8 - w1.used - t) % 256 = r <<< (8 - w1.used - t) := by
      apply Nat.mod_eq_of_lt
      exact Nat.lt_of_lt_of_le hr (by rw [show 256 = 2 ^ 8 from rfl]; exact Nat.pow_le_pow_right (by omega) (by omega))
    rw [hr256, hn, ← Nat.shiftLeft_eq, ← Nat.shiftLeft_add_eq_or_of_lt hr, Nat.shiftLeft_eq, Nat.shiftLeft_eq, e8,
      Nat.add_mul, Nat.mul_assoc, ← Nat.pow_add]
    congr 3; omega
  · simp only
    rw [bitsMSB_append _ _ _ _ hlt', hl, ← hr0, bitsMSB_mod, List.append_assoc]

theorem writeLoop_ok (fuel : Nat) {w : BitWriter} {hdr l} (h : w.Rep hdr l) (bits value : Nat) (hb : bits ≤ fuel) :
    ∃ w', w.writeLoop fuel bits value = .ok w' ∧ w'.Rep hdr (l ++ bitsMSB bits value) := by
  induction fuel generalizing w l bits with
  | zero =>
    have : bits = 0 := by omega
    subst this
    exact ⟨w, by simp [BitWriter.writeLoop], by simpa [bitsMSB] using h⟩
  | succ fuel ih =>
    by_cases h0 : bits = 0
    · subst h0; exact ⟨w, by simp [BitWriter.writeLoop], by simpa [bitsMSB] using h⟩
    · obtain ⟨t, ht0, htb, e2, r1⟩ := step_ok h bits value (by omega)
      obtain ⟨w', e', r'⟩ := ih r1 (bits - t) (by omega)
      refine ⟨w', ?_, ?_⟩
      · rw [BitWriter.writeLoop, if_neg h0]; simp only [e2]; exact e'
      · rw [List.append_assoc, Nat.shiftRight_eq_div_pow, ← bitsMSB_add] at r'
        rw [show t + (bits - t) = bits by omega] at r'
        exact r'

theorem write_ok {w : BitWriter} {hdr l} (h : w.Rep hdr l) (bits value : Nat) :
    ∃ w', w.write bits value = .ok w' ∧ w'.Rep hdr (l ++ bitsMSB bits value) :=
  writeLoop_ok bits h bits value (Nat.le_refl _)

theorem flush_ok {w : BitWriter} {hdr l} (h : w.Rep hdr l) :
    ∃ ds pad, IsBytes ds ∧ w.flush.out = hdr ++ stuff ds ∧ bytesMSB ds = l ++ List.replicate pad false ∧ pad < 8 := by
  obtain ⟨ds, v, hds, ho, hu, hv, hn, hl⟩ := h
  unfold BitWriter.flush
  split
  · rename_i h0
    have hlt : v * 2 ^ (8 - w.used) < 256 := by
      have := Nat.mul_lt_mul_of_pos_right hv (Nat.two_pow_pos (8 - w.used))
      rw [← Nat.pow_add, show w.used + (8 - w.used) = 8 by omega] at this
      exact this
    refine ⟨ds ++ [w.next], 8 - w.used, ?_, ?_, ?_, by omega⟩
    · intro b hb; simp at hb; rcases hb with hb | rfl
      · exact hds b hb
      · rw [hn]; exact hlt
    · simp only [BitWriter.internalFlush, ho, stuff_append, List.append_assoc]
      simp only [stuff, List.flatMap_cons, List.flatMap_nil, List.append_nil]
      split <;> (rename_i hh; simp [hh])
    · have e : bitsMSB 8 w.next = bitsMSB w.used v ++ List.replicate (8 - w.used) false := by
        have := bitsMSB_append w.used (8 - w.used) v 0 (Nat.two_pow_pos _)
        rw [show w.used + (8 - w.used) = 8 by omega, Nat.add_zero, ← hn, bitsMSB_zero_val] at this
        exact this
      simp [hl, e]
  · rename_i h0
    have h0 : w.used = 0 := by omega
    exact ⟨ds, 0, hds, ho, by rw [hl, h0]; simp [bitsMSB], by omega⟩

end Verif.Ljpeg
