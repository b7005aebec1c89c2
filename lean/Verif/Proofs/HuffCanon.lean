import Verif.Proofs.HuffBits
import Mathlib.Tactic.Ring
/-!
# The code table built by `HuffTableBuilder::build` is a canonical prefix code
-/

namespace Verif.Ljpeg
open Verif

/-- code space used by codes of the given lengths, in units of 2⁻¹⁶ -/
def space (ls : List Nat) : Nat := (ls.map fun l => 2 ^ (16 - l)).sum

@[simp] theorem space_nil : space [] = 0 := rfl
@[simp] theorem space_cons (l ls) : space (l :: ls) = 2 ^ (16 - l) + space ls := rfl
theorem space_append (a b) : space (a ++ b) = space a + space b := by simp [space]

theorem space_take_succ (ls : List Nat) (k : Nat) (h : k < ls.length) :
    space (ls.take (k + 1)) = space (ls.take k) + 2 ^ (16 - ls[k]) := by
  rw [List.take_succ_eq_append_getElem h, space_append]; simp

theorem space_take_le (ls : List Nat) (k : Nat) : space (ls.take k) ≤ space ls := by
  conv => rhs; rw [← List.take_append_drop k ls, space_append]
  omega

theorem space_take_mono (ls : List Nat) {k m : Nat} (h : k ≤ m) : space (ls.take k) ≤ space (ls.take m) := by
  have := space_take_le (ls.take m) k
  rwa [List.take_take, Nat.min_eq_left h] at this

theorem shiftLoop_ok (d fuel code si : Nat) (hd : 0 < d) (hf : d ≤ fuel) (hb : code * 2 ^ d < 2 ^ 16) :
    shiftLoop fuel code si (si + d) = .ok (code * 2 ^ d, si + d) := by
  induction d generalizing fuel code si with
  | zero => omega
  | succ d ih =>
    cases fuel with
    | zero => omega
    | succ fuel =>
      rw [shiftLoop]
      have e : code * 2 ^ (d + 1) = (code * 2) * 2 ^ d := by rw [Nat.pow_succ]; ring
      have h1 : code * 2 < 2 ^ 16 := by
        have := Nat.two_pow_pos d
        have : code * 2 * 1 ≤ (code * 2) * 2 ^ d := Nat.mul_le_mul_left _ this
        omega
      have e1 : (code <<< 1) % 2 ^ 16 = code * 2 := by rw [Nat.shiftLeft_eq, Nat.mod_eq_of_lt] <;> simpa using h1
      simp only [e1]
      by_cases hd0 : d = 0
      · subst hd0; simp
      · rw [if_neg (by omega), show si + (d + 1) = si + 1 + d by omega, ih _ _ _ (by omega) (by omega) (by omega), e]

theorem genCodeTable_ok (lens : List Nat) (code si : Nat) (hhead : lens.headD si = si)
    (hsort : lens.Pairwise (· ≤ ·)) (hr : ∀ l ∈ lens, 1 ≤ l ∧ l ≤ 16)
    (hsp : code * 2 ^ (16 - si) + space lens < 2 ^ 16) :
    ∃ cs, genCodeTable lens code si = .ok cs ∧ cs.length = lens.length ∧
      ∀ k (h : k < lens.length), cs.getD k 0 * 2 ^ (16 - lens[k]) = code * 2 ^ (16 - si) + space (lens.take k) := by
  induction lens generalizing code si with
  | nil => exact ⟨[], rfl, rfl, by simp⟩
  | cons l lens ih =>
    have hl : l = si := by simpa using hhead
    subst hl
    have hl16 := hr l (by simp)
    have hp : 0 < 2 ^ (16 - l) := Nat.two_pow_pos _
    simp only [space_cons] at hsp
    have hcode : (code + 1) * 2 ^ (16 - l) + space lens < 2 ^ 16 := by rw [Nat.add_mul]; omega
    have hc1 : code + 1 < 2 ^ 16 := by
      have : (code + 1) * 1 ≤ (code + 1) * 2 ^ (16 - l) := Nat.mul_le_mul_left _ hp
      omega
    rw [genCodeTable.eq_def]
    simp only [ne_eq, not_true_eq_false, if_false, if_pos hc1]
    cases lens with
    | nil => exact ⟨[code], rfl, rfl, by intro k h; simp at h; subst h; simp⟩
    | cons l' ls =>
      have hle : l ≤ l' := (List.pairwise_cons.1 hsort).1 l' (by simp)
      have hr' := hr l' (by simp)
      have hsort' := (List.pairwise_cons.1 hsort).2
      by_cases heq : l' = l
      · subst heq
        obtain ⟨cs, e1, e2, e3⟩ := ih (code + 1) l' rfl hsort' (fun x hx => hr x (by simp [hx])) hcode
        refine ⟨code :: cs, by simp [e1, bind, Except.bind], by simp [e2], ?_⟩
        intro k h
        cases k with
        | zero => simp
        | succ k =>
          have := e3 k (by simpa using h)
          simp only [List.getD_cons_succ, List.getElem_cons_succ, List.take_succ_cons, space_cons, this]
          rw [Nat.add_mul]; omega
      · have hdd : l + (l' - l) = l' := by omega
        have epow : 2 ^ (16 - l) = 2 ^ (l' - l) * 2 ^ (16 - l') := by
          rw [← Nat.pow_add]; congr 1; omega
        have hb : (code + 1) * 2 ^ (l' - l) < 2 ^ 16 := by
          have h1 : (code + 1) * 2 ^ (l' - l) * 1 ≤ (code + 1) * 2 ^ (l' - l) * 2 ^ (16 - l') :=
            Nat.mul_le_mul_left _ (Nat.two_pow_pos _)
          rw [Nat.mul_assoc _ _ (2 ^ (16 - l')), ← epow] at h1
          omega
        have hsh := shiftLoop_ok (l' - l) 17 (code + 1) l (by omega) (by omega) hb
        rw [hdd] at hsh
        have ecode : (code + 1) * 2 ^ (l' - l) * 2 ^ (16 - l') = (code + 1) * 2 ^ (16 - l) := by
          rw [Nat.mul_assoc, ← epow]
        obtain ⟨cs, e1, e2, e3⟩ := ih ((code + 1) * 2 ^ (l' - l)) l' rfl hsort' (fun x hx => hr x (by simp [hx]))
          (by rw [ecode]; exact hcode)
        refine ⟨code :: cs, by simp [e1, bind, Except.bind, heq, hsh], by simp [e2], ?_⟩
        intro k h
        cases k with
        | zero => simp
        | succ k =>
          have := e3 k (by simpa using h)
          rw [ecode] at this
          simp only [List.getD_cons_succ, List.getElem_cons_succ, List.take_succ_cons, space_cons, this]
          rw [Nat.add_mul]; omega

theorem perm_sum_eq {a b : List Nat} (h : a.Perm b) : a.sum = b.sum := by
  induction h with
  | nil => rfl
  | cons x _ ih => simp [ih]
  | swap x y l => simp; omega
  | trans _ _ h1 h2 => exact h1.trans h2

/-! ### size table -/

theorem sum_flatMap_replicate (b f : Nat → Nat) (l : List Nat) :
    ((l.flatMap fun i => List.replicate (b i) (i + 1)).map f).sum = (l.map fun i => b i * f (i + 1)).sum := by
  induction l with
  | nil => rfl
  | cons a l ih => simp [ih]

theorem genSizeTable_sum (bits : List Nat) (f : Nat → Nat) (hl : bits.length = 33) (h0 : bits.getD 0 0 = 0)
    (hh : ∀ k, 16 < k → bits.getD k 0 = 0) : ((genSizeTable bits).map f).sum = wsum f bits := by
  rw [genSizeTable, sum_flatMap_replicate, wsum_range, hl]
  have hr : List.range 33 = [0, 1, 2, 3, 4, 5, 6, 7, 8, 9, 10, 11, 12, 13, 14, 15, 16, 17, 18, 19, 20, 21, 22, 23, 24, 25,
    26, 27, 28, 29, 30, 31, 32] := by decide
  have hr2 : List.range 16 = [0, 1, 2, 3, 4, 5, 6, 7, 8, 9, 10, 11, 12, 13, 14, 15] := by decide
  rw [hr, hr2]
  simp only [List.map_cons, List.map_nil, List.sum_cons, List.sum_nil, h0]
  rw [hh 17 (by omega), hh 18 (by omega), hh 19 (by omega), hh 20 (by omega), hh 21 (by omega), hh 22 (by omega),
    hh 23 (by omega), hh 24 (by omega), hh 25 (by omega), hh 26 (by omega), hh 27 (by omega),
    hh 28 (by omega), hh 29 (by omega), hh 30 (by omega), hh 31 (by omega), hh 32 (by omega)]
  simp only [Nat.zero_mul, Nat.add_zero, Nat.zero_add, Nat.reduceAdd]

theorem genSizeTable_sorted (bits : List Nat) : (genSizeTable bits).Pairwise (· ≤ ·) := by
  rw [genSizeTable, List.pairwise_flatMap]
  refine ⟨fun a _ => List.pairwise_replicate.2 (Or.inr (Nat.le_refl _)), ?_⟩
  refine List.Pairwise.imp ?_ (List.pairwise_lt_range (n := 16))
  intro a b hab x hx y hy
  rw [List.mem_replicate] at hx hy
  omega

theorem genSizeTable_range (bits : List Nat) : ∀ l ∈ genSizeTable bits, 1 ≤ l ∧ l ≤ 16 := by
  intro l hl
  simp only [genSizeTable, List.mem_flatMap, List.mem_range, List.mem_replicate] at hl
  omega

theorem sortInput_mem (cs : List Nat) (s : Nat) : s ∈ sortInput cs ↔ s < 17 ∧ 0 < cs.getD s 0 ∧ cs.getD s 0 ≤ 32 := by
  simp only [sortInput, List.mem_flatMap, List.mem_range, List.mem_filter, decide_eq_true_eq]
  constructor
  · rintro ⟨i, hi, hs, e⟩; omega
  · rintro ⟨h1, h2, h3⟩; exact ⟨cs.getD s 0 - 1, by omega, h1, by omega⟩

theorem sortInput_nodup (cs : List Nat) : (sortInput cs).Nodup := by
  rw [List.Nodup, sortInput, List.pairwise_flatMap]
  refine ⟨fun a _ => List.nodup_range.filter _, ?_⟩
  refine List.Pairwise.imp ?_ (List.pairwise_lt_range (n := 32))
  intro a b hab x hx y hy
  simp only [List.mem_filter, decide_eq_true_eq] at hx hy
  rintro rfl
  omega

/-- A table `T` of codes is the canonical code with symbols `vals` and lengths `lens`. -/
structure Canon (T : List Code) (vals lens : List Nat) : Prop where
  lenT : T.length = 17
  len : vals.length = lens.length
  nd : vals.Nodup
  vlt : ∀ v ∈ vals, v < 17
  sorted : lens.Pairwise (· ≤ ·)
  lrange : ∀ l ∈ lens, 1 ≤ l ∧ l ≤ 16
  sp : space lens < 2 ^ 16
  code : ∀ k (h : k < vals.length), T[vals[k]]? = some ⟨lens[k]'(len ▸ h), space (lens.take k)⟩
  empty : ∀ s, s < 17 → s ∉ vals → T[s]? = some ⟨0, 0⟩

theorem wsum_scale (bits : List Nat) (hl : bits.length = 33) (h0 : bits.getD 0 0 = 0)
    (hh : ∀ k, 16 < k → bits.getD k 0 = 0) :
    2 ^ 16 * space (genSizeTable bits) = wsum (fun k => 2 ^ (32 - k)) bits := by
  rw [← genSizeTable_sum bits _ hl h0 hh, space]
  have hr := genSizeTable_range bits
  generalize genSizeTable bits = l at hr
  induction l with
  | nil => rfl
  | cons a l ih =>
    have ih := ih (fun x hx => hr x (by simp [hx]))
    have ha := hr a (by simp)
    simp only [List.map_cons, List.sum_cons, Nat.mul_add]
    rw [ih, ← Nat.pow_add, show 16 + (16 - a) = 32 - a by omega]

theorem mapM_ok {α β} (f : α → R β) (g : α → β) (l : List α) (h : ∀ a ∈ l, f a = .ok (g a)) :
    l.mapM f = .ok (l.map g) := by
  induction l with
  | nil => rfl
  | cons a l ih =>
    rw [List.mapM_cons, h a (by simp), ih (fun a ha => h a (by simp [ha]))]
    rfl

theorem sum_ite_filter (l : List Nat) (c : Nat → Nat) (w : Nat → Nat) :
    (l.map fun i => if 0 < c i then w (c i) else 0).sum = ((l.filter fun i => 0 < c i).map fun i => w (c i)).sum := by
  induction l with
  | nil => rfl
  | cons a l ih =>
    simp only [List.map_cons, List.sum_cons, List.filter_cons, ih]
    by_cases h : 0 < c a <;> simp [h]

theorem buildTable_ok (hist : List Nat) (hl : hist.length = 17) (hsum : hist.sum + 1 < 2 ^ 64)
    (hne : ∃ s, s < 17 ∧ 0 < hist.getD s 0) :
    ∃ T vals lens, buildTable hist = .ok T ∧ Canon T vals lens ∧ ∀ s, s ∈ vals ↔ s < 17 ∧ 0 < hist.getD s 0 := by
  obtain ⟨cs, x, e1, l1, nd, mem, kr, dep, out⟩ := genCodesizes_ok hist hl hsum
  have hx18 : x.length ≤ 18 := nodup_lt_length nd (fun s hs => ((mem s).1 hs).1)
  have m17 : 17 ∈ x := (mem 17).2 ⟨by omega, by simp [List.getD_eq_getElem?_getD, hl]⟩
  have hget : ∀ s, s < 17 → (hist ++ [1]).getD s 0 = hist.getD s 0 := fun s hs => by
    simp [List.getD_eq_getElem?_getD, List.getElem?_append_left (show s < hist.length by omega)]
  obtain ⟨s0, hs0, hp0⟩ := hne
  have m0 : s0 ∈ x := (mem s0).2 ⟨by omega, by rw [hget _ hs0]; exact hp0⟩
  -- every size in the group is positive
  have hpos : ∀ s ∈ x, 0 < cs.getD s 0 := by
    intro s hs
    by_contra hz
    have hz : cs.getD s 0 = 0 := by omega
    obtain ⟨t, ht, hts⟩ : ∃ t ∈ x, t ≠ s := by
      by_cases h : s = 17
      · exact ⟨s0, m0, by omega⟩
      · exact ⟨17, m17, by omega⟩
    have hperm := (List.perm_cons_erase hs).trans
      ((List.perm_cons_erase ((List.mem_erase_of_ne hts).2 ht)).cons s)
    have hw : weight cs x = weight cs (s :: t :: (x.erase s).erase t) := perm_sum_eq (hperm.map _)
    rw [kr, weight, List.map_cons, List.map_cons, List.sum_cons, List.sum_cons, hz] at hw
    have := Nat.two_pow_pos (32 - cs.getD t 0)
    simp only [Nat.sub_zero] at hw
    omega
  have hb33 : ∀ i, cs.getD i 0 < 33 := fun i => by
    by_cases hi : i ∈ x
    · have := dep i hi; omega
    · rw [out i hi]; omega
  obtain ⟨bits, e2, l2, z2, w2⟩ := countBits_ok cs l1 hb33
  have hperm : ((List.range 18).filter fun i => 0 < cs.getD i 0).Perm x := by
    rw [List.perm_ext_iff_of_nodup (List.nodup_range.filter _) nd]
    intro s
    simp only [List.mem_filter, List.mem_range, decide_eq_true_eq]
    constructor
    · rintro ⟨_, h⟩; by_contra hs; rw [out s hs] at h; omega
    · intro h; exact ⟨((mem s).1 h).1, hpos s h⟩
  have hw : ∀ w, wsum w bits = (x.map fun i => w (cs.getD i 0)).sum := fun w => by
    rw [w2, sum_ite_filter, perm_sum_eq (hperm.map _)]
  have hbinv : BInv x.length bits := by
    refine ⟨l2, z2, ?_, ?_, ?_⟩
    · intro k hk
      have := le_wsum (fun j => if j = k then 1 else 0) bits k
      rw [hw] at this
      have hz : (x.map fun i => if cs.getD i 0 = k then 1 else 0).sum = 0 := by
        rw [List.sum_eq_zero_iff_forall_eq_nat]
        intro y hy
        obtain ⟨i, hi, rfl⟩ := List.mem_map.1 hy
        have := dep i hi
        rw [if_neg (by omega)]
      simp only [if_true] at this
      omega
    · rw [hw]; exact kr
    · rw [hw]; simp
  obtain ⟨b', e3, l3, z3, h3, k3, t3⟩ := adjustBits_ok x.length hx18 bits hbinv
  -- values
  have hvmem : ∀ s, s ∈ sortInput cs ↔ s < 17 ∧ 0 < hist.getD s 0 := by
    intro s
    rw [sortInput_mem]
    constructor
    · rintro ⟨h1, h2, _⟩
      refine ⟨h1, ?_⟩
      by_contra h0
      rw [out s (fun hm => h0 (by have := ((mem s).1 hm).2; rwa [hget s h1] at this))] at h2
      omega
    · rintro ⟨h1, h2⟩
      have hm : s ∈ x := (mem s).2 ⟨by omega, by rw [hget s h1]; exact h2⟩
      exact ⟨h1, hpos s hm, by have := hb33 s; omega⟩
  have hvlen : (sortInput cs).length + 1 = x.length := by
    have : (17 :: sortInput cs).Perm x := by
      rw [List.perm_ext_iff_of_nodup (List.nodup_cons.2 ⟨by rw [hvmem]; omega, sortInput_nodup cs⟩) nd]
      intro s
      rw [List.mem_cons, hvmem, mem]
      constructor
      · rintro (rfl | ⟨h1, h2⟩)
        · exact (mem 17).1 m17
        · exact ⟨by omega, by rw [hget s h1]; exact h2⟩
      · rintro ⟨h1, h2⟩
        by_cases h17 : s = 17
        · exact Or.inl h17
        · rw [hget s (by omega)] at h2; exact Or.inr ⟨by omega, h2⟩
    have := this.length_eq
    simpa using this
  have hslen : (genSizeTable b').length + 1 = x.length := by
    rw [← t3, ← genSizeTable_sum b' _ l3 z3 h3]; simp
  have hsp : space (genSizeTable b') < 2 ^ 16 := by
    have := wsum_scale b' l3 z3 h3
    omega
  have hlen2 : (sortInput cs).length = (genSizeTable b').length := by omega
  have hpos2 : 0 < (genSizeTable b').length := by
    have : s0 ∈ sortInput cs := (hvmem s0).2 ⟨hs0, hp0⟩
    have := List.length_pos_of_mem this
    omega
  have hrange := genSizeTable_range b'
  obtain ⟨codes, e4, l4, c4⟩ := genCodeTable_ok (genSizeTable b') 0 ((genSizeTable b').headD 0)
    (by cases genSizeTable b' <;> simp) (genSizeTable_sorted b') hrange (by simpa using hsp)
  let G : Nat → Code := fun ssss => match (sortInput cs).idxOf? ssss with
    | none => ⟨0, 0⟩
    | some k => ⟨(genSizeTable b').getD k 0, space ((genSizeTable b').take k)⟩
  have hmap : (List.range 17).mapM (fun ssss => match (sortInput cs).idxOf? ssss with
      | none => (.ok ⟨0, 0⟩ : R Code)
      | some k => Code.fromLsb ((genSizeTable b').getD k 0) (codes.getD k 0)) = .ok ((List.range 17).map G) := by
    apply mapM_ok
    intro s hs
    simp only [G]
    cases hi : (sortInput cs).idxOf? s with
    | none => rfl
    | some k =>
      have hk : k < (sortInput cs).length := by
        rw [List.idxOf?, List.findIdx?_eq_some_iff_getElem] at hi; exact hi.1
      have hk' : k < (genSizeTable b').length := by omega
      have eg : (genSizeTable b').getD k 0 = (genSizeTable b')[k] := by
        rw [List.getD_eq_getElem?_getD, List.getElem?_eq_getElem hk']; rfl
      have hrg := hrange _ (List.getElem_mem hk')
      have hc := c4 k hk'
      simp only [Nat.zero_mul, Nat.zero_add] at hc
      have hle := space_take_le (genSizeTable b') k
      simp only [eg, Code.fromLsb, usub, bind, Except.bind, if_pos hrg.2,
        if_pos (show 16 - (genSizeTable b')[k] < 16 by omega), Nat.shiftLeft_eq, hc]
      rw [Nat.mod_eq_of_lt (by omega)]
  refine ⟨(List.range 17).map G, sortInput cs, genSizeTable b', ?_, ?_, hvmem⟩
  · have hcond : (sortInput cs).length ≤ 17 ∧ (genSizeTable b').length ≤ 17 ∧ 0 < (genSizeTable b').length := by omega
    simp only [buildTable, e1, e2, e3, e4, bind, Except.bind, if_pos hcond]
    exact hmap
  · refine ⟨by simp, hlen2, sortInput_nodup cs, fun v hv => ((hvmem v).1 hv).1, genSizeTable_sorted b', hrange, hsp, ?_, ?_⟩
    · intro k hk
      have hv := ((hvmem _).1 (List.getElem_mem hk)).1
      rw [List.getElem?_map, List.getElem?_range hv]
      simp only [Option.map_some, G]
      have : (sortInput cs).idxOf? (sortInput cs)[k] = some k := by
        rw [List.idxOf?, List.findIdx?_eq_some_iff_getElem]
        refine ⟨hk, by simp, ?_⟩
        intro j hj
        have := (List.pairwise_iff_getElem.1 (sortInput_nodup cs)) j k (by omega) hk hj
        simpa using this
      simp only [this]
      rw [List.getD_eq_getElem?_getD, List.getElem?_eq_getElem (show k < (genSizeTable b').length by omega)]
      rfl
    · intro s hs hns
      rw [List.getElem?_map, List.getElem?_range hs]
      have : (sortInput cs).idxOf? s = none := by
        rw [List.idxOf?, List.findIdx?_eq_none_iff]
        intro y hy
        simp
        rintro rfl; exact hns hy
      simp [G, this]

end Verif.Ljpeg
