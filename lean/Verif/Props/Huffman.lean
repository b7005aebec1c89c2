import Verif.Proofs.HuffCanon
import Verif.Spec.Huffman
/-! # C03: the entropy coder always emits a valid code table -/

namespace Verif.Props
open Verif Verif.Ljpeg Verif.Spec

/-- The bits of a code as the encoder emits them: the `nbits` most significant bits of the 16 bit storage. -/
def codeWord (T : List Code) (s : Nat) : List Bool :=
  match T[s]? with
  | some c => (bitsMSB 16 c.storage).take c.nbits
  | none => []

theorem space_take_dvd {lens : List Nat} (hs : lens.Pairwise (· ≤ ·)) (hr : ∀ l ∈ lens, 1 ≤ l ∧ l ≤ 16)
    (k : Nat) (hk : k < lens.length) : 2 ^ (16 - lens[k]) ∣ space (lens.take k) := by
  have : ∀ l ∈ lens.take k, l ≤ lens[k] := by
    intro l hl
    obtain ⟨i, hi, rfl⟩ := List.getElem_of_mem hl
    rw [List.getElem_take]
    simp at hi
    exact List.pairwise_iff_getElem.1 hs i k (by omega) hk (by omega)
  generalize lens.take k = m at this
  induction m with
  | nil => simp
  | cons a m ih =>
    rw [space_cons]
    refine Nat.dvd_add (Nat.pow_dvd_pow 2 ?_) (ih (fun l hl => this l (by simp [hl])))
    have := this a (by simp)
    omega

theorem canon_word {T vals lens} (h : Canon T vals lens) (k : Nat) (hk : k < vals.length) :
    codeWord T vals[k] = bitsMSB (lens[k]'(h.len ▸ hk)) (space (lens.take k) / 2 ^ (16 - lens[k]'(h.len ▸ hk))) := by
  rw [codeWord, h.code k hk]
  have := h.lrange _ (List.getElem_mem (h.len ▸ hk : k < lens.length))
  exact take_bitsMSB _ _ _ this.2

theorem canon_valid {T vals lens} (h : Canon T vals lens) : ValidCodeTable (codeWord T) (· ∈ vals) := by
  have hget : ∀ s ∈ vals, ∃ k, ∃ hk : k < vals.length, vals[k] = s := fun s hs => List.getElem_of_mem hs
  have hlt : ∀ k (hk : k < lens.length), space (lens.take k) + 2 ^ (16 - lens[k]) < 2 ^ 16 := by
    intro k hk
    have h1 := space_take_le lens (k + 1)
    rw [space_take_succ lens k hk] at h1
    have := h.sp
    omega
  -- value of a word
  have hval : ∀ k (hk : k < vals.length), natMSB (codeWord T vals[k]) =
      space (lens.take k) / 2 ^ (16 - lens[k]'(h.len ▸ hk)) := by
    intro k hk
    have hk' : k < lens.length := h.len ▸ hk
    have hr := h.lrange _ (List.getElem_mem hk')
    rw [canon_word h k hk, natMSB_bitsMSB, Nat.mod_eq_of_lt]
    rw [Nat.div_lt_iff_lt_mul (Nat.two_pow_pos _), ← Nat.pow_add, show lens[k] + (16 - lens[k]) = 16 by omega]
    exact Nat.lt_of_le_of_lt (Nat.le_add_right _ _) (hlt k hk')
  constructor
  · intro s hs
    obtain ⟨k, hk, rfl⟩ := hget s hs
    rw [canon_word h k hk, length_bitsMSB]
    exact h.lrange _ (List.getElem_mem _)
  · intro s hs
    by_cases h17 : s < 17
    · simp [codeWord, h.empty s h17 hs]
    · simp [codeWord, List.getElem?_eq_none (show T.length ≤ s by rw [h.lenT]; omega)]
  · intro s t hs ht hst hpre
    obtain ⟨a, ha, rfl⟩ := hget s hs
    obtain ⟨b, hb, rfl⟩ := hget t ht
    have ha' : a < lens.length := h.len ▸ ha
    have hb' : b < lens.length := h.len ▸ hb
    have hra := h.lrange _ (List.getElem_mem ha')
    have hrb := h.lrange _ (List.getElem_mem hb')
    have hlen := hpre.length_le
    have hab : a ≠ b := by rintro rfl; exact hst rfl
    rw [canon_word h a ha, canon_word h b hb, length_bitsMSB, length_bitsMSB] at hlen
    -- compare values at the length of the shorter word
    have he : codeWord T vals[a] = (codeWord T vals[b]).take lens[a] := by
      have := List.prefix_iff_eq_take.1 hpre
      rwa [canon_word h a ha, length_bitsMSB, ← canon_word h a ha] at this
    have hv := congrArg natMSB he
    rw [hval a ha, canon_word h b hb, take_bitsMSB _ _ _ hlen, natMSB_bitsMSB, Nat.div_div_eq_div_mul,
      ← Nat.pow_add, show 16 - lens[b] + (lens[b] - lens[a]) = 16 - lens[a] by omega] at hv
    have hbnd : space (lens.take b) / 2 ^ (16 - lens[a]) < 2 ^ lens[a] := by
      rw [Nat.div_lt_iff_lt_mul (Nat.two_pow_pos _), ← Nat.pow_add, show lens[a] + (16 - lens[a]) = 16 by omega]
      exact Nat.lt_of_le_of_lt (Nat.le_add_right _ _) (hlt b hb')
    rw [Nat.mod_eq_of_lt hbnd] at hv
    obtain ⟨q, hq⟩ := space_take_dvd h.sorted h.lrange a ha'
    have hp := Nat.two_pow_pos (16 - lens[a])
    rw [hq, Nat.mul_div_cancel_left _ hp] at hv
    rcases Nat.lt_or_gt_of_ne hab with hlt' | hgt
    · -- a before b: the code of b is at least the end of the code of a
      have hmono := space_take_mono lens (show a + 1 ≤ b by omega)
      rw [space_take_succ lens a ha', hq] at hmono
      have h2 : (q + 1) ≤ space (lens.take b) / 2 ^ (16 - lens[a]) := by
        rw [Nat.le_div_iff_mul_le hp, Nat.add_mul, Nat.mul_comm q]
        omega
      omega
    · have hle : lens[b] ≤ lens[a] := List.pairwise_iff_getElem.1 h.sorted b a hb' ha' hgt
      have hmono := space_take_mono lens (show b + 1 ≤ a by omega)
      rw [space_take_succ lens b hb', hq, show lens[b] = lens[a] by omega] at hmono
      have h2 : space (lens.take b) / 2 ^ (16 - lens[a]) < q := by
        rw [Nat.div_lt_iff_lt_mul hp, Nat.mul_comm]
        omega
      omega
  · intro s hs
    obtain ⟨k, hk, rfl⟩ := hget s hs
    have hk' : k < lens.length := h.len ▸ hk
    have hr := h.lrange _ (List.getElem_mem hk')
    by_contra hall
    have hones : codeWord T vals[k] = List.replicate lens[k] true := by
      rw [List.eq_replicate_iff]
      refine ⟨by rw [canon_word h k hk, length_bitsMSB], ?_⟩
      intro b hb
      cases b
      · exact absurd hb hall
      · rfl
    have hv := hval k hk
    have hval1 : natMSB (List.replicate lens[k] true) + 1 = 2 ^ lens[k] := by
      generalize lens[k] = n
      induction n with
      | zero => rfl
      | succ n ih => rw [List.replicate_succ, natMSB_cons, List.length_replicate, Nat.pow_succ]; simp; omega
    rw [hones] at hv
    have h1 := hlt k hk'
    obtain ⟨q, hq⟩ := space_take_dvd h.sorted h.lrange k hk'
    have hp := Nat.two_pow_pos (16 - lens[k])
    rw [hq, Nat.mul_div_cancel_left _ hp] at hv
    rw [hq] at h1
    have h2 : (q + 1) * 2 ^ (16 - lens[k]) = 2 ^ 16 := by
      rw [← hv, hval1, ← Nat.pow_add, show lens[k] + (16 - lens[k]) = 16 by omega]
    rw [Nat.add_mul, Nat.mul_comm q] at h2
    omega

/-- **C03.** For every histogram of difference categories (17 counts whose total fits in 64 bits, at least one
difference), the table builder succeeds and its table is a valid JPEG code table whose coded symbols are exactly
those that occur. -/
theorem C03_huffman_table_valid (hist : List Nat) (hlen : hist.length = 17) (hsum : hist.sum + 1 < 2 ^ 64)
    (hne : ∃ s, s < 17 ∧ 0 < hist.getD s 0) :
    ∃ T, buildTable hist = .ok T ∧ T.length = 17 ∧ ValidCodeTable (codeWord T) (fun s => 0 < hist.getD s 0) := by
  obtain ⟨T, vals, lens, e, hc, hv⟩ := buildTable_ok hist hlen hsum hne
  refine ⟨T, e, hc.lenT, ?_⟩
  have : (fun s => 0 < hist.getD s 0) = (· ∈ vals) := by
    funext s
    rw [eq_iff_iff, hv]
    constructor
    · intro h
      refine ⟨?_, h⟩
      by_contra h17
      rw [List.getD_eq_getElem?_getD, List.getElem?_eq_none (by omega)] at h
      simp at h
    · exact fun h => h.2
  rw [this]
  exact canon_valid hc

/-- A skewed histogram (Fibonacci-like counts, which force the length limiting) meets the hypotheses. -/
example : ([1, 1, 2, 3, 5, 8, 13, 21, 34, 55, 89, 144, 233, 377, 610, 987, 1597] : List Nat).length = 17 ∧
    ([1, 1, 2, 3, 5, 8, 13, 21, 34, 55, 89, 144, 233, 377, 610, 987, 1597] : List Nat).sum + 1 < 2 ^ 64 ∧
    ∃ s, s < 17 ∧ 0 < ([1, 1, 2, 3, 5, 8, 13, 21, 34, 55, 89, 144, 233, 377, 610, 987, 1597] : List Nat).getD s 0 :=
  ⟨by decide, by decide, 0, by decide, by decide⟩

/-- Concrete outcome for a small histogram. -/
example : buildTable [3, 0, 5, 0, 0, 0, 0, 0, 0, 0, 0, 0, 0, 0, 0, 0, 0] =
    .ok ([⟨2, 0x8000⟩, ⟨0, 0⟩, ⟨1, 0⟩] ++ List.replicate 14 ⟨0, 0⟩) := by decide +kernel

/-- Finding: with no difference at all (an image without samples) the builder panics. -/
theorem C03_empty_histogram_panics : buildTable (List.replicate 17 0) = panic' := by decide +kernel

end Verif.Props
