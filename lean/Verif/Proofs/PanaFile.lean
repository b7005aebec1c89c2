import Verif.Proofs.Pana4
import Verif.Proofs.CrxBytes
/-! # Panasonic: every packet is a code, every code has a packet -/

namespace Verif.Pana
open Verif Verif.Pumps Verif.Packed Verif.Spec Verif.Spec.Pana

/-- Any 128 bits are a packet. -/
theorem packet_of (l : List Bool) (h : l.length = 128) : ∃ bytes : List Nat, bytes.length = 16 ∧ IsBytes bytes ∧ word bytes = l := by
  obtain ⟨pad, e, hb, hl⟩ := Verif.CrxSpec.toBytes_spec l.length l (Nat.le_refl _)
  rw [h] at hl
  have hp : pad = [] := by
    have := congrArg List.length e
    rw [length_bytesMSB, hl, List.length_append, h] at this
    exact List.eq_nil_of_length_eq_zero (by omega)
  rw [hp, List.append_nil] at e
  refine ⟨(Verif.CrxSpec.toBytes l).reverse, by rw [List.length_reverse, hl], fun x hx => hb x (List.mem_reverse.1 hx), ?_⟩
  rw [word, List.reverse_reverse, e]

/-- Any packets are those of some data. -/
theorem file_of (split : Bool) (pk : Nat → List Nat) (N : Nat) (hs : split = true → N % 1024 = 0) (h16 : ∀ g, g < N → (pk g).length = 16)
    (hb : ∀ g, g < N → IsBytes (pk g)) (tail : List Nat) (ht : IsBytes tail) :
    ∃ data, IsBytes data ∧ data.length = 16 * N + tail.length ∧ ∀ g, g < N → packet split data g = pk g := by
  let at' (q : Nat) : Nat := if split then q / 0x4000 * 0x4000 + (q % 0x4000 + 0x2008) % 0x4000 else q
  refine ⟨((List.range (16 * N)).map fun q => (pk (at' q / 16)).getD (at' q % 16) 0) ++ tail, ?_, by simp, ?_⟩
  · intro x hx
    rcases List.mem_append.1 hx with hx | hx
    · rw [List.mem_map] at hx
      obtain ⟨q, hq, rfl⟩ := hx
      rw [List.mem_range] at hq
      have hg : at' q / 16 < N := by
        show (if split then q / 0x4000 * 0x4000 + (q % 0x4000 + 0x2008) % 0x4000 else q) / 16 < N
        cases split
        · rw [if_neg (by simp)]; omega
        · rw [if_pos rfl]; have := hs rfl; omega
      rw [List.getD_eq_getElem?_getD]
      cases he : (pk (at' q / 16))[at' q % 16]? with
      | none => simp
      | some y => exact hb _ hg _ (List.mem_of_getElem? he)
    · exact ht x hx
  · intro g hg
    apply List.ext_getElem?
    intro b
    by_cases hb16 : b < 16
    · have hpl : place split g b < 16 * N ∧ at' (place split g b) = g * 16 + b := by
        show place split g b < 16 * N ∧
          (if split then place split g b / 0x4000 * 0x4000 + (place split g b % 0x4000 + 0x2008) % 0x4000 else place split g b) = g * 16 + b
        rw [place]
        cases split
        · rw [if_neg (by simp), if_neg (by simp)]; omega
        · rw [if_pos rfl, if_pos rfl]; have := hs rfl; omega
      rw [packet_get _ _ _ _ hb16 (by simp; omega), List.getElem?_append_left (by simp; omega), List.getElem?_map, List.getElem?_range hpl.1,
        Option.map_some, hpl.2, show (g * 16 + b) / 16 = g by omega, show (g * 16 + b) % 16 = b by omega, List.getD_eq_getElem?_getD,
        List.getElem?_eq_getElem (by rw [h16 g hg]; exact hb16)]
      rfl
    · rw [List.getElem?_eq_none (by rw [packet_length]; omega), List.getElem?_eq_none (by rw [h16 g hg]; omega)]

/-! ## Version 6 -/

theorem fields_of : ∀ (widths : List Nat) (l : List Bool), l.length = widths.sum →
    ∃ F : List (Nat × Nat), F.map Prod.fst = widths ∧ fieldBits F = l ∧ ∀ x ∈ F, x.2 < 2 ^ x.1
  | [], l, h => ⟨[], rfl, (List.eq_nil_of_length_eq_zero h).symm, by simp⟩
  | n :: ws, l, h => by
    rw [List.sum_cons] at h
    obtain ⟨F, h1, h2, h3⟩ := fields_of ws (l.drop n) (by rw [List.length_drop]; omega)
    have hn : (l.take n).length = n := by rw [List.length_take]; omega
    refine ⟨(n, natMSB (l.take n)) :: F, by rw [List.map_cons, h1], ?_, ?_⟩
    · rw [fieldBits, List.flatMap_cons, ← fieldBits, h2]
      have := bitsMSB_natMSB (l.take n)
      rw [hn] at this
      rw [this, List.take_append_drop]
    · intro x hx
      rcases List.mem_cons.1 hx with rfl | hx
      · have := natMSB_lt (l.take n)
        rwa [hn] at this
      · exact h3 x hx

/-- The code whose fields are `F`. -/
def codeOf (F : List (Nat × Nat)) : Code6 := ⟨fun i => (F.getD (i + (i + 1) / 3) (0, 0)).2, fun g => (F.getD (4 * g + 2) (0, 0)).2⟩

theorem fields_get (widths : List Nat) (F : List (Nat × Nat)) (h1 : F.map Prod.fst = widths) (h3 : ∀ x ∈ F, x.2 < 2 ^ x.1) (k n : Nat)
    (hk : widths[k]? = some n) : F[k]? = some (n, (F.getD k (0, 0)).2) ∧ (F.getD k (0, 0)).2 < 2 ^ n := by
  rw [← h1, List.getElem?_map] at hk
  cases hF : F[k]? with
  | none => rw [hF] at hk; cases hk
  | some x =>
    rw [hF] at hk
    have hx : x.1 = n := Option.some.inj hk
    rw [List.getD_eq_getElem?_getD, hF, ← hx]
    exact ⟨rfl, h3 x (List.mem_of_getElem? hF)⟩

theorem code14 (w : List Bool) (h : w.length = 128) : ∃ c : Code6, Fits c 14 10 11 3 ∧ ∃ pad : List Bool, pad.length = 4 ∧ w = c.bits 14 10 3 ++ pad := by
  obtain ⟨F, h1, h2, h3⟩ := fields_of [14, 14, 2, 10, 10, 10, 2, 10, 10, 10, 2, 10, 10, 10] (w.take 124) (by rw [List.length_take, h]; rfl)
  have hg := fields_get _ F h1 h3
  have e : fields14 (codeOf F) = F := by
    apply List.ext_getElem?
    intro k
    by_cases hk : k < 14
    · interval_cases k <;> exact (hg _ _ rfl).1.symm
    · rw [List.getElem?_eq_none (by simp [fields14]; omega), List.getElem?_eq_none (by have := congrArg List.length h1; simp at this; omega)]
  refine ⟨codeOf F, ⟨(hg 0 _ rfl).2, (hg 1 _ rfl).2, ?_, ?_⟩, w.drop 124, by rw [List.length_drop, h], ?_⟩
  · intro i h2 h11
    interval_cases i <;> exact (hg _ _ rfl).2
  · intro g hg'
    interval_cases g <;> first | exact (hg 2 2 rfl).2 | exact (hg 6 2 rfl).2 | exact (hg 10 2 rfl).2 | exact (hg 14 2 rfl).2
  · rw [fields14_bits, e, h2, List.take_append_drop]

theorem code12 (w : List Bool) (h : w.length = 128) : ∃ c : Code6, Fits c 12 8 14 4 ∧ w = c.bits 12 8 4 := by
  obtain ⟨F, h1, h2, h3⟩ := fields_of [12, 12, 2, 8, 8, 8, 2, 8, 8, 8, 2, 8, 8, 8, 2, 8, 8, 8] w (by rw [h]; rfl)
  have hg := fields_get _ F h1 h3
  have e : fields12 (codeOf F) = F := by
    apply List.ext_getElem?
    intro k
    by_cases hk : k < 18
    · interval_cases k <;> exact (hg _ _ rfl).1.symm
    · rw [List.getElem?_eq_none (by simp [fields12]; omega), List.getElem?_eq_none (by have := congrArg List.length h1; simp at this; omega)]
  refine ⟨codeOf F, ⟨(hg 0 _ rfl).2, (hg 1 _ rfl).2, ?_, ?_⟩, ?_⟩
  · intro i h2 h11
    interval_cases i <;> exact (hg _ _ rfl).2
  · intro g hg'
    interval_cases g <;> first | exact (hg 2 2 rfl).2 | exact (hg 6 2 rfl).2 | exact (hg 10 2 rfl).2 | exact (hg 14 2 rfl).2
  · rw [fields12_bits, e, h2]

/-! ## Version 4 -/

/-- The bits that are left after `i` samples. -/
def left4 (c : Code4) (i : Nat) : Nat :=
  128 - (8 * i + 2 * (i / 3) + (if ¬ c.Fresh 0 ((i + 1) / 2) ∨ 13 ≤ i then 4 else 0) + if ¬ c.Fresh 1 (i / 2) ∨ 14 ≤ i then 4 else 0)

theorem code4 (w : List Bool) (h : w.length = 128) : ∀ i, i ≤ 14 → ∃ c : Code4, Fits4 c ∧ ∃ rest, w = (List.range i).flatMap c.piece ++ rest ∧
    rest.length = left4 c i
  | 0, _ => ⟨⟨fun _ => 0, fun _ => 0, fun _ => 0⟩, ⟨by simp, by simp, by simp⟩, w, rfl, by
      rw [h, left4, if_neg (by simp [Code4.Fresh]), if_neg (by simp [Code4.Fresh])]⟩
  | i + 1, hi => by
    obtain ⟨c, hf, rest, hw, hrl⟩ := code4 w h i (by omega)
    -- what is read
    obtain ⟨k, hk⟩ : ∃ k, k = if i % 3 = 2 then 2 else 0 := ⟨_, rfl⟩
    obtain ⟨v, hv⟩ : ∃ v, v = natMSB ((rest.drop k).take 8) := ⟨_, rfl⟩
    obtain ⟨L, hL⟩ : ∃ L : Bool, L = decide (c.Fresh (i % 2) (i / 2) ∧ (v ≠ 0 ∨ 12 ≤ i)) := ⟨_, rfl⟩
    obtain ⟨q, hq⟩ : ∃ q, q = if L then 4 else 0 := ⟨_, rfl⟩
    let c' : Code4 := ⟨fun j => if j = i then v else c.hi j, fun j => if i % 3 = 2 ∧ j = i / 3 then natMSB (rest.take 2) else c.sel j,
      fun s => if L = true ∧ s = i % 2 then natMSB ((rest.drop (k + 8)).take 4) else c.low s⟩
    have hfresh : ∀ s m, 2 * m + s ≤ i + 1 → s < 2 → (c'.Fresh s m ↔ c.Fresh s m) := by
      intro s m hm hs
      have he : ∀ j, j < m → c'.hi (2 * j + s) = c.hi (2 * j + s) := fun j hj => if_neg (by omega)
      exact ⟨fun h j hj => by rw [← he j hj]; exact h j hj, fun h j hj => by rw [he j hj]; exact h j hj⟩
    have hhi : c'.hi i = v := if_pos rfl
    have hlow : c'.Lows i ↔ L = true := by
      rw [hL, decide_eq_true_iff, Code4.Lows, hfresh _ _ (by omega) (by omega), hhi]
    -- how much is left
    have hFs : ∀ s m, c.Fresh s m ∨ ¬ c.Fresh s m := fun s m => Classical.em _
    have hroom : k + 8 + q + left4 c' (i + 1) = rest.length := by
      rw [hrl, hk, hq]
      have hF1 : c'.Fresh (i % 2) (i / 2 + 1) ↔ c.Fresh (i % 2) (i / 2) ∧ v = 0 := by
        constructor
        · intro h
          refine ⟨fun j hj => ?_, ?_⟩
          · have := h j (by omega); rwa [show c'.hi (2 * j + i % 2) = c.hi (2 * j + i % 2) from if_neg (by omega)] at this
          · have := h (i / 2) (by omega); rwa [show 2 * (i / 2) + i % 2 = i by omega, hhi] at this
        · rintro ⟨h, h0⟩ j hj
          rcases Nat.lt_succ_iff_lt_or_eq.1 hj with hj | rfl
          · rw [show c'.hi (2 * j + i % 2) = c.hi (2 * j + i % 2) from if_neg (by omega)]; exact h j hj
          · rw [show 2 * (i / 2) + i % 2 = i by omega, hhi]; exact h0
      have hi3 : (if i % 3 = 2 then 2 else 0) + 2 * (i / 3) = 2 * ((i + 1) / 3) := by split <;> omega
      rw [left4, left4]
      rcases Nat.mod_two_eq_zero_or_one i with h2 | h2
      · rw [h2] at hF1
        have ho : c'.Fresh 1 ((i + 1) / 2) ↔ c.Fresh 1 (i / 2) := by
          rw [show (i + 1) / 2 = i / 2 by omega]; exact hfresh 1 _ (by omega) (by omega)
        have hO : (if ¬ c'.Fresh 1 ((i + 1) / 2) ∨ 14 ≤ i + 1 then 4 else 0) = (if ¬ c.Fresh 1 (i / 2) ∨ 14 ≤ i then 4 else 0) := by
          apply if_congr _ rfl rfl
          rw [ho]
          constructor
          · rintro (h | h)
            · exact .inl h
            · omega
          · rintro (h | h)
            · exact .inl h
            · omega
        have hE : (if L then 4 else 0) + (if ¬ c.Fresh 0 ((i + 1) / 2) ∨ 13 ≤ i then 4 else 0) = if ¬ c'.Fresh 0 ((i + 1 + 1) / 2) ∨ 13 ≤ i + 1 then 4 else 0 := by
          rw [show (i + 1 + 1) / 2 = i / 2 + 1 by omega, show (i + 1) / 2 = i / 2 by omega, hL, h2]
          by_cases hfr : c.Fresh 0 (i / 2)
          · rw [if_neg (show ¬ (¬ c.Fresh 0 (i / 2) ∨ 13 ≤ i) by rintro (h | h); exact h hfr; omega), Nat.add_zero]
            by_cases hc : v ≠ 0 ∨ 12 ≤ i
            · rw [if_pos (by simp only [decide_eq_true_iff]; exact ⟨hfr, hc⟩), if_pos]
              rcases hc with hc | hc
              · exact .inl fun h => hc (hF1.1 h).2
              · exact .inr (by omega)
            · rw [if_neg (by simp only [decide_eq_true_iff]; exact fun h => hc h.2), if_neg]
              rintro (h | h)
              · exact h (hF1.2 ⟨hfr, by omega⟩)
              · omega
          · rw [if_neg (by simp only [decide_eq_true_iff]; exact fun h => hfr h.1), if_pos (.inl hfr), if_pos (.inl fun h => hfr (hF1.1 h).1)]
        rw [hO, ← hE]
        have : (if ¬ c.Fresh 1 (i / 2) ∨ 14 ≤ i then 4 else 0) ≤ 4 := by split <;> omega
        have : (if L then 4 else 0) + (if ¬ c.Fresh 0 ((i + 1) / 2) ∨ 13 ≤ i then 4 else 0) ≤ 4 := by rw [hE]; split <;> omega
        omega
      · rw [h2] at hF1
        have ho : c'.Fresh 0 ((i + 1 + 1) / 2) ↔ c.Fresh 0 ((i + 1) / 2) := by
          rw [show (i + 1 + 1) / 2 = (i + 1) / 2 by omega]; exact hfresh 0 _ (by omega) (by omega)
        have hO : (if ¬ c'.Fresh 0 ((i + 1 + 1) / 2) ∨ 13 ≤ i + 1 then 4 else 0) = (if ¬ c.Fresh 0 ((i + 1) / 2) ∨ 13 ≤ i then 4 else 0) := by
          apply if_congr _ rfl rfl
          rw [ho]
          constructor
          · rintro (h | h)
            · exact .inl h
            · exact .inr (by omega)
          · rintro (h | h)
            · exact .inl h
            · exact .inr (by omega)
        have hE : (if L then 4 else 0) + (if ¬ c.Fresh 1 (i / 2) ∨ 14 ≤ i then 4 else 0) = if ¬ c'.Fresh 1 ((i + 1) / 2) ∨ 14 ≤ i + 1 then 4 else 0 := by
          rw [show (i + 1) / 2 = i / 2 + 1 by omega, hL, h2]
          by_cases hfr : c.Fresh 1 (i / 2)
          · rw [if_neg (show ¬ (¬ c.Fresh 1 (i / 2) ∨ 14 ≤ i) by rintro (h | h); exact h hfr; omega), Nat.add_zero]
            by_cases hc : v ≠ 0 ∨ 12 ≤ i
            · rw [if_pos (by simp only [decide_eq_true_iff]; exact ⟨hfr, hc⟩), if_pos]
              rcases hc with hc | hc
              · exact .inl fun h => hc (hF1.1 h).2
              · exact .inr (by omega)
            · rw [if_neg (by simp only [decide_eq_true_iff]; exact fun h => hc h.2), if_neg]
              rintro (h | h)
              · exact h (hF1.2 ⟨hfr, by omega⟩)
              · omega
          · rw [if_neg (by simp only [decide_eq_true_iff]; exact fun h => hfr h.1), if_pos (.inl hfr), if_pos (.inl fun h => hfr (hF1.1 h).1)]
        rw [hO, ← hE]
        have : (if ¬ c.Fresh 0 ((i + 1) / 2) ∨ 13 ≤ i then 4 else 0) ≤ 4 := by split <;> omega
        have : (if L then 4 else 0) + (if ¬ c.Fresh 1 (i / 2) ∨ 14 ≤ i then 4 else 0) ≤ 4 := by rw [hE]; split <;> omega
        omega
    have hbits : ∀ a n, a + n ≤ rest.length → bitsMSB n (natMSB ((rest.drop a).take n)) = (rest.drop a).take n ∧ natMSB ((rest.drop a).take n) < 2 ^ n := by
      intro a n han
      have hn : ((rest.drop a).take n).length = n := by rw [List.length_take, List.length_drop]; omega
      have h1 := bitsMSB_natMSB ((rest.drop a).take n)
      have h2 := natMSB_lt ((rest.drop a).take n)
      rw [hn] at h1 h2
      exact ⟨h1, h2⟩
    have hpiece : c'.piece i = rest.take (k + 8 + q) := by
      have h8 := (hbits k 8 (by omega)).1
      rw [← hv] at h8
      have hkq : rest.take (k + 8 + q) = rest.take k ++ (rest.drop k).take 8 ++ (rest.drop (k + 8)).take q := by
        rw [List.take_add, List.take_add]
      rw [hkq, Code4.piece, hhi, h8]
      congr 1
      · congr 1
        by_cases h3 : i % 3 = 2
        · rw [if_pos h3] at hk ⊢
          rw [hk, show c'.sel (i / 3) = natMSB (rest.take 2) from if_pos ⟨h3, rfl⟩]
          exact (hbits 0 2 (by omega)).1
        · rw [if_neg h3] at hk ⊢
          rw [hk]; rfl
      · by_cases hl : L = true
        · rw [if_pos (hlow.2 hl)]
          rw [if_pos hl] at hq
          rw [hq, show c'.low (i % 2) = natMSB ((rest.drop (k + 8)).take 4) from if_pos ⟨hl, rfl⟩]
          exact (hbits (k + 8) 4 (by omega)).1
        · rw [if_neg (fun h => hl (hlow.1 h))]
          rw [if_neg hl] at hq
          rw [hq]; rfl
    have hsame : (List.range i).flatMap c'.piece = (List.range i).flatMap c.piece := by
      rw [List.flatMap_def, List.flatMap_def]
      congr 1
      apply List.map_congr_left
      intro j hj
      rw [List.mem_range] at hj
      have e1 : c'.hi j = c.hi j := if_neg (by omega)
      have e2 : j % 3 = 2 → c'.sel (j / 3) = c.sel (j / 3) := fun h => if_neg (by omega)
      have e3 : c'.Lows j ↔ c.Lows j := by
        rw [Code4.Lows, Code4.Lows, hfresh _ _ (by omega) (by omega), e1]
      have e4 : c.Lows j → c'.low (j % 2) = c.low (j % 2) := by
        intro hlj
        refine if_neg ?_
        rintro ⟨hl, hpar⟩
        rw [hL, decide_eq_true_iff] at hl
        have := hl.1 (j / 2) (by omega)
        rw [← hpar, show 2 * (j / 2) + j % 2 = j by omega] at this
        rcases hlj.2 with h | h
        · exact h this
        · omega
      rw [Code4.piece, Code4.piece, e1]
      congr 1
      · congr 1
        by_cases h3 : j % 3 = 2
        · rw [if_pos h3, if_pos h3, e2 h3]
        · rw [if_neg h3, if_neg h3]
      · by_cases hl : c.Lows j
        · rw [if_pos hl, if_pos (e3.2 hl), e4 hl]
        · rw [if_neg hl, if_neg (fun h => hl (e3.1 h))]
    refine ⟨c', ⟨?_, ?_, ?_⟩, rest.drop (k + 8 + q), ?_, ?_⟩
    · intro j
      show (if j = i then v else c.hi j) < 256
      split
      · rw [hv]; exact (hbits k 8 (by omega)).2
      · exact hf.1 j
    · intro j
      show (if i % 3 = 2 ∧ j = i / 3 then natMSB (rest.take 2) else c.sel j) < 4
      split
      · exact (hbits 0 2 (by rename_i h; rw [if_pos h.1] at hk; omega)).2
      · exact hf.2.1 j
    · intro s
      show (if L = true ∧ s = i % 2 then natMSB ((rest.drop (k + 8)).take 4) else c.low s) < 16
      split
      · exact (hbits (k + 8) 4 (by rename_i h; rw [if_pos h.1] at hq; omega)).2
      · exact hf.2.2 s
    · rw [List.range_succ, List.flatMap_append, hsame]
      simp only [List.flatMap_cons, List.flatMap_nil, List.append_nil]
      rw [hpiece, List.append_assoc, List.take_append_drop, ← hw]
    · rw [List.length_drop]; omega

theorem code4_all (w : List Bool) (h : w.length = 128) : ∃ c : Code4, Fits4 c ∧ w = c.bits := by
  obtain ⟨c, hf, rest, hw, hl⟩ := code4 w h 14 (Nat.le_refl _)
  rw [left4, if_pos (by omega), if_pos (by omega)] at hl
  rw [List.eq_nil_of_length_eq_zero hl, List.append_nil] at hw
  exact ⟨c, hf, hw⟩

end Verif.Pana
