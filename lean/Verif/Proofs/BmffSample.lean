import Verif.Proofs.BmffFind
import Verif.Proofs.Base
import Verif.Spec.BmffSample
/-! # Helper lemmas for C69 -/

namespace Verif.Bmff
open Verif.BmffSpec

theorem rising_lt {f c n d : Nat} (rest : List (Nat × Nat × Nat)) (h : Rising f ((c, n, d) :: rest)) : ∀ r ∈ rest, c < r.1 := by
  induction rest generalizing f c n d with
  | nil => intro r hr; cases hr
  | cons x rest ih =>
    obtain ⟨c', n', d'⟩ := x
    obtain ⟨h1, h2, h3⟩ := h
    intro r hr
    rcases List.mem_cons.1 hr with rfl | hr
    · exact h1
    · have := ih h3 r hr
      omega

theorem numbered_ge (runs : List (Nat × Nat × Nat)) : ∀ f, ∀ e ∈ numbered f runs, f ≤ e.2.2.2 := by
  induction runs with
  | nil => intro f e he; cases he
  | cons x rest ih =>
    obtain ⟨c, n, d⟩ := x
    intro f e he
    cases rest with
    | nil => rw [numbered, List.mem_singleton] at he; rw [he]
    | cons y rest =>
      obtain ⟨c', n', d'⟩ := y
      rw [numbered] at he
      rcases List.mem_cons.1 he with rfl | he
      · exact Nat.le_refl _
      · have := ih _ e he
        omega

theorem numbered_pairwise (runs : List (Nat × Nat × Nat)) : ∀ f, Rising f runs → (∀ r ∈ runs, 0 < r.2.1) →
    (numbered f runs).Pairwise (fun a b => a.2.2.2 < b.2.2.2) := by
  induction runs with
  | nil => intro f _ _; exact .nil
  | cons x rest ih =>
    obtain ⟨c, n, d⟩ := x
    intro f hr hp
    cases rest with
    | nil => rw [numbered]; exact List.pairwise_singleton _ _
    | cons y rest =>
      obtain ⟨c', n', d'⟩ := y
      obtain ⟨h1, h2, h3⟩ := hr
      rw [numbered]
      refine .cons ?_ (ih _ h3 (fun r hr => hp r (List.mem_cons_of_mem _ hr)))
      intro e he
      have h4 := numbered_ge _ _ e he
      have h5 : 0 < n := hp (c, n, d) List.mem_cons_self
      have : 0 < (c' - c) * n := Nat.mul_pos (by omega) h5
      show f < e.2.2.2
      omega

theorem perChunk_single (c n d j : Nat) (h : c ≤ j) : perChunk [(c, n, d)] j = n := by
  unfold perChunk
  rw [List.filter_cons, if_pos (decide_eq_true h)]
  rfl

theorem perChunk_head {c n d j : Nat} {rest : List (Nat × Nat × Nat)} (h : c ≤ j) (hr : ∀ r ∈ rest, j < r.1) :
    perChunk ((c, n, d) :: rest) j = n := by
  unfold perChunk
  have : rest.filter (fun r => decide (r.1 ≤ j)) = [] := by
    rw [List.filter_eq_nil_iff]
    intro r hm
    have := hr r hm
    simp only [decide_eq_true_eq]
    omega
  rw [List.filter_cons, if_pos (decide_eq_true h), this]
  rfl

theorem perChunk_tail {x y : Nat × Nat × Nat} {rest : List (Nat × Nat × Nat)} {j : Nat} (h : y.1 ≤ j) :
    perChunk (x :: y :: rest) j = perChunk (y :: rest) j := by
  unfold perChunk
  rw [List.filter_cons (x := x)]
  by_cases hx : decide (x.1 ≤ j) = true
  · rw [if_pos hx, List.filter_cons, if_pos (decide_eq_true h), List.getLast?_cons_cons]
  · rw [if_neg hx]

theorem held_succ (runs : List (Nat × Nat × Nat)) (c k : Nat) : held runs c (k + 1) = held runs c k + perChunk runs (c + k) := by
  unfold held
  rw [List.range_succ, List.map_append, List.sum_append]
  simp

theorem held_const {runs : List (Nat × Nat × Nat)} {c n : Nat} (k : Nat) (h : ∀ i, i < k → perChunk runs (c + i) = n) :
    held runs c k = k * n := by
  induction k with
  | zero => rw [Nat.zero_mul]; rfl
  | succ k ih =>
    rw [held_succ, ih (fun i hi => h i (by omega)), h k (by omega), Nat.succ_mul]

theorem held_add {runs runs' : List (Nat × Nat × Nat)} {c a : Nat} (k : Nat) (h : ∀ i, i < k → perChunk runs (c + a + i) = perChunk runs' (c + a + i)) :
    held runs c (a + k) = held runs c a + held runs' (c + a) k := by
  induction k with
  | zero => rw [Nat.add_zero]; rfl
  | succ k ih =>
    rw [← Nat.add_assoc, held_succ, ih (fun i hi => h i (by omega)), held_succ, ← Nat.add_assoc, h k (by omega), Nat.add_assoc]

/-- The last run whose first sample is not behind `s`. -/
def lastLE (l : List (Nat × Nat × Nat × Nat)) (s : Nat) : Option (Nat × Nat × Nat × Nat) :=
  (l.filter (fun e => e.2.2.2 ≤ s)).getLast?

theorem lastLE_cons {x : Nat × Nat × Nat × Nat} {l : List (Nat × Nat × Nat × Nat)} {s : Nat} {e : Nat × Nat × Nat × Nat}
    (h : lastLE l s = some e) : lastLE (x :: l) s = some e := by
  unfold lastLE at *
  rw [List.filter_cons]
  split
  · cases hl : l.filter (fun e => decide (e.2.2.2 ≤ s)) with
    | nil => rw [hl] at h; cases h
    | cons y ys => rw [List.getLast?_cons_cons, ← hl]; exact h
  · exact h

theorem run_for (runs : List (Nat × Nat × Nat)) : ∀ (f c0 n0 d0 : Nat), Rising f ((c0, n0, d0) :: runs) →
    ∀ (k w : Nat), w < perChunk ((c0, n0, d0) :: runs) (c0 + k) →
    ∃ c1 n1 d1 f1, lastLE (numbered f ((c0, n0, d0) :: runs)) (f + held ((c0, n0, d0) :: runs) c0 k + w) = some (c1, n1, d1, f1) ∧
      c1 ≤ c0 + k ∧ f1 ≤ f + held ((c0, n0, d0) :: runs) c0 k + w ∧ n1 = perChunk ((c0, n0, d0) :: runs) (c0 + k) ∧
      f + held ((c0, n0, d0) :: runs) c0 k + w - f1 = (c0 + k - c1) * n1 + w := by
  induction runs with
  | nil =>
    intro f c0 n0 d0 _ k w hw
    have hp : ∀ i, perChunk [(c0, n0, d0)] (c0 + i) = n0 := fun i => perChunk_single _ _ _ _ (by omega)
    rw [held_const k (fun i _ => hp i), hp k]
    refine ⟨c0, n0, d0, f, ?_, by omega, by omega, rfl, ?_⟩
    · unfold lastLE
      rw [numbered, List.filter_cons, if_pos (by rw [decide_eq_true_eq]; show f ≤ _; omega)]
      rfl
    · rw [show c0 + k - c0 = k from by omega]; omega
  | cons y rest ih =>
    obtain ⟨c', n', d'⟩ := y
    intro f c0 n0 d0 hr k w hw
    obtain ⟨h1, h2, h3⟩ := hr
    have hlow : ∀ j, c0 ≤ j → j < c' → perChunk ((c0, n0, d0) :: (c', n', d') :: rest) j = n0 := by
      intro j ha hb
      refine perChunk_head ha ?_
      intro r hm
      rcases List.mem_cons.1 hm with rfl | hm
      · exact hb
      · have := rising_lt rest h3 r hm
        omega
    by_cases hk : c0 + k < c'
    · have hp := hlow (c0 + k) (by omega) hk
      rw [hp] at hw ⊢
      rw [held_const k (fun i hi => hlow (c0 + i) (by omega) (by omega))]
      have hle : k * n0 + w < (c' - c0) * n0 := by
        have : (k + 1) * n0 ≤ (c' - c0) * n0 := Nat.mul_le_mul_right _ (by omega)
        rw [Nat.succ_mul] at this
        omega
      refine ⟨c0, n0, d0, f, ?_, by omega, by omega, rfl, ?_⟩
      · unfold lastLE
        have hnil : (numbered (f + (c' - c0) * n0) ((c', n', d') :: rest)).filter
            (fun e => decide (e.2.2.2 ≤ f + k * n0 + w)) = [] := by
          rw [List.filter_eq_nil_iff]
          intro e he
          have := numbered_ge _ _ e he
          simp only [decide_eq_true_eq]
          omega
        rw [numbered, List.filter_cons, if_pos (by rw [decide_eq_true_eq]; show f ≤ _; omega), hnil]
        rfl
      · rw [show c0 + k - c0 = k from by omega]; omega
    · obtain ⟨k', rfl⟩ : ∃ k', k = (c' - c0) + k' := ⟨k - (c' - c0), by omega⟩
      have hc : c0 + (c' - c0) = c' := by omega
      have ht : ∀ i, perChunk ((c0, n0, d0) :: (c', n', d') :: rest) (c' + i) = perChunk ((c', n', d') :: rest) (c' + i) :=
        fun i => perChunk_tail (by show c' ≤ _; omega)
      have hheld : held ((c0, n0, d0) :: (c', n', d') :: rest) c0 (c' - c0 + k')
          = (c' - c0) * n0 + held ((c', n', d') :: rest) c' k' := by
        rw [held_add (runs' := (c', n', d') :: rest) k' (by intro i _; rw [hc]; exact ht i), hc,
          held_const _ (fun i hi => hlow (c0 + i) (by omega) (by omega))]
      rw [← Nat.add_assoc, hc, ht] at hw
      obtain ⟨c1, n1, d1, f1, e1, e2, e3, e4, e5⟩ := ih _ c' n' d' h3 k' w hw
      rw [hheld, ← Nat.add_assoc f, ← Nat.add_assoc c0, hc, ht, numbered]
      exact ⟨c1, n1, d1, f1, lastLE_cons e1, e2, e3, e4, e5⟩

theorem split_last {α : Type} {p : α → Bool} {l : List α} {e : α} (h : (l.filter p).getLast? = some e) :
    ∃ a b, l = a ++ e :: b ∧ p e = true ∧ ∀ x ∈ b, p x = false := by
  induction l with
  | nil => cases h
  | cons x l ih =>
    cases hl : l.filter p with
    | nil =>
      rw [List.filter_cons, hl] at h
      by_cases hx : p x = true
      · rw [if_pos hx] at h
        cases h
        refine ⟨[], l, rfl, hx, ?_⟩
        intro y hy
        exact Bool.eq_false_iff.2 (List.filter_eq_nil_iff.1 hl y hy)
      · rw [if_neg hx] at h; cases h
    | cons y ys =>
      have : (l.filter p).getLast? = some e := by
        rw [List.filter_cons, hl] at h
        rw [hl]
        split at h
        · rwa [List.getLast?_cons_cons] at h
        · exact h
      obtain ⟨a, b, h1, h2, h3⟩ := ih this
      exact ⟨x :: a, b, by rw [h1]; rfl, h2, h3⟩

theorem idx_append {α : Type} (a : List α) (e : α) (b : List α) : idx (a ++ e :: b) a.length = .ok e := by
  unfold idx
  rw [List.getElem?_append_right (Nat.le_refl _), Nat.sub_self]
  rfl

theorem numbered_head {f c n d : Nat} (rest : List (Nat × Nat × Nat)) : ∃ t, numbered f ((c, n, d) :: rest) = (c, n, d, f) :: t := by
  cases rest with
  | nil => exact ⟨_, rfl⟩
  | cons y rest => obtain ⟨c', n', d'⟩ := y; exact ⟨_, rfl⟩

theorem entryFor_ok {l : List (Nat × Nat × Nat × Nat)} {s : Nat} {e : Nat × Nat × Nat × Nat} (hs : 0 < s)
    (h0 : ∃ c n d t, l = (c, n, d, 1) :: t) (hp : l.Pairwise (fun a b => a.2.2.2 < b.2.2.2)) (h : lastLE l s = some e) :
    entryFor (l.map quad) s = .ok (quad e) := by
  obtain ⟨a, b, hl, he, hb⟩ := split_last h
  obtain ⟨c, n, d, t, ht⟩ := h0
  have he' : e.2.2.2 ≤ s := of_decide_eq_true he
  have ha : ∀ x ∈ a, x.2.2.2 < e.2.2.2 := by
    rw [hl] at hp
    intro x hx
    exact (List.pairwise_append.1 hp).2.2 x hx e List.mem_cons_self
  have hb' : ∀ x ∈ b, s < x.2.2.2 := by
    intro x hx
    have := of_decide_eq_false (hb x hx)
    omega
  unfold entryFor
  have c1 : assert' (decide (s > 0)) = .ok () := by rw [decide_eq_true hs]; rfl
  have c2 : assert' (!(l.map quad).isEmpty) = .ok () := by rw [ht]; rfl
  have c3 : idx (l.map quad) 0 = .ok ⟨c, n, d, 1⟩ := by rw [ht]; rfl
  have c4 : assert' ((⟨c, n, d, 1⟩ : Run).firstSample == 1) = .ok () := rfl
  simp only [c1, c2, c3, c4, bind, Except.bind]
  rw [hl, List.map_append, List.map_cons]
  have fa : (a.map quad).find? (fun x => decide (x.firstSample = s)) = none := by
    rw [List.find?_eq_none]
    intro x hx
    obtain ⟨y, hy, rfl⟩ := List.mem_map.1 hx
    have := ha y hy
    simp only [decide_eq_true_eq]
    show ¬ y.2.2.2 = s
    omega
  by_cases hes : e.2.2.2 = s
  · have : (a.map quad ++ quad e :: b.map quad).find? (fun x => decide (x.firstSample = s)) = some (quad e) := by
      rw [List.find?_append, fa, List.find?_cons]
      have : decide ((quad e).firstSample = s) = true := decide_eq_true hes
      rw [this]
      rfl
    rw [this]
  · have : (a.map quad ++ quad e :: b.map quad).find? (fun x => decide (x.firstSample = s)) = none := by
      rw [List.find?_append, fa, List.find?_cons]
      have h1 : decide ((quad e).firstSample = s) = false := decide_eq_false hes
      have h2 : (b.map quad).find? (fun x => decide (x.firstSample = s)) = none := by
        rw [List.find?_eq_none]
        intro x hx
        obtain ⟨y, hy, rfl⟩ := List.mem_map.1 hx
        have := hb' y hy
        simp only [decide_eq_true_eq]
        show ¬ y.2.2.2 = s
        omega
      rw [h1, h2]
      rfl
    rw [this]
    have hf : (a.map quad ++ quad e :: b.map quad).filter (fun x => decide (x.firstSample < s)) = a.map quad ++ [quad e] := by
      rw [List.filter_append, List.filter_cons]
      have h1 : (a.map quad).filter (fun x => decide (x.firstSample < s)) = a.map quad := by
        rw [List.filter_eq_self]
        intro x hx
        obtain ⟨y, hy, rfl⟩ := List.mem_map.1 hx
        have := ha y hy
        simp only [decide_eq_true_eq]
        show y.2.2.2 < s
        omega
      have h2 : decide ((quad e).firstSample < s) = true := by
        rw [decide_eq_true_eq]; show e.2.2.2 < s; omega
      have h3 : (b.map quad).filter (fun x => decide (x.firstSample < s)) = [] := by
        rw [List.filter_eq_nil_iff]
        intro x hx
        obtain ⟨y, hy, rfl⟩ := List.mem_map.1 hx
        have := hb' y hy
        simp only [decide_eq_true_eq]
        show ¬ y.2.2.2 < s
        omega
      rw [h1, h2, h3]
      rfl
    rw [hf]
    have hu : usub (a.map quad ++ [quad e]).length 1 = .ok (a.map quad).length := by
      rw [usub, if_pos (by rw [List.length_append]; simp)]
      rw [List.length_append]; simp
    simp only [hu]
    exact idx_append _ _ _

theorem sum_loop {sizes : List Nat} {f : Nat → Nat → R Nat} (a : Nat) (w : Nat) (hw : a + w ≤ sizes.length)
    (hf : ∀ i acc, i < w → acc + sizes.getD (a + i) 0 < 2 ^ 32 → f i acc = .ok (acc + sizes.getD (a + i) 0))
    (hb : ((sizes.drop a).take w).sum < 2 ^ 32) :
    forN w f 0 = .ok ((sizes.drop a).take w).sum := by
  induction w with
  | zero => rfl
  | succ w ih =>
    have e : (sizes.drop a).take (w + 1) = (sizes.drop a).take w ++ [sizes.getD (a + w) 0] := by
      rw [List.take_add_one, List.getElem?_drop, List.getD_eq_getElem?_getD, List.getElem?_eq_getElem (by omega)]
      rfl
    rw [e, List.sum_append, List.sum_singleton] at hb ⊢
    rw [forN_succ, ih (by omega) (fun i acc hi => hf i acc (by omega)) (by omega)]
    exact hf w _ (by omega) hb

theorem sampleOffset_ok {runs : List (Nat × Nat × Nat)} (h1 : ∀ r ∈ runs.head?, r.1 = 1) (hr : Rising 1 runs)
    (hpos : ∀ r ∈ runs, 0 < r.2.1) {uniform : Nat} {stored sizes co : List Nat}
    (hz : ∀ i, i < sizes.length → sampleSize uniform stored (i + 1) = .ok (sizes.getD i 0))
    {s c w : Nat} (hs : InChunk runs s c w) (hc : c ≤ co.length) (hc32 : c < 2 ^ 32) (hss : s ≤ sizes.length)
    (hb : ((sizes.drop (s - 1 - w)).take w).sum < 2 ^ 32) (hb64 : offsetIn sizes (co.getD (c - 1) 0) s w < 2 ^ 64) :
    sampleOffset ((numbered 1 runs).map quad) uniform stored co s
      = .ok (offsetIn sizes (co.getD (c - 1) 0) s w, sizes.getD (s - 1) 0) := by
  obtain ⟨hc1, hw, hs⟩ := hs
  cases runs with
  | nil => cases hw
  | cons x rest =>
    obtain ⟨c0, n0, d0⟩ := x
    have hc0 : c0 = 1 := h1 _ rfl
    subst hc0
    obtain ⟨k, rfl⟩ : ∃ k, c = 1 + k := ⟨c - 1, by omega⟩
    rw [show 1 + k - 1 = k from by omega] at hs hb64 ⊢
    obtain ⟨c1, n1, d1, f1, e1, e2, e3, e4, e5⟩ := run_for rest 1 1 n0 d0 hr k w hw
    rw [← hs] at e1 e3 e5
    obtain ⟨t, ht⟩ := numbered_head (f := 1) (c := 1) (n := n0) (d := d0) rest
    have hent := entryFor_ok (by omega) ⟨_, _, _, t, ht⟩ (numbered_pairwise _ 1 hr hpos) e1
    have hn1 : 0 < n1 := by omega
    have hf1 : 1 ≤ f1 := by
      have hm := (List.mem_filter.1 (List.mem_of_getLast? e1)).1
      exact numbered_ge _ _ _ hm
    have hws : w ≤ s - 1 := by omega
    have hdiv : (s - f1) / n1 = 1 + k - c1 := by
      rw [e5, Nat.mul_comm, Nat.mul_add_div hn1, Nat.div_eq_of_lt (by omega), Nat.add_zero]
    have hmod : (s - f1) % n1 = w := by
      rw [e5, Nat.mul_comm, Nat.mul_add_mod, Nat.mod_eq_of_lt (by omega)]
    unfold sampleOffset
    have a1 : assert' (decide (s > 0)) = .ok () := by rw [decide_eq_true (show s > 0 from by omega)]; rfl
    have a2 : usub s 1 = .ok (s - 1) := by rw [usub, if_pos (by omega)]
    have a3 : usub (quad (c1, n1, d1, f1)).firstSample 1 = .ok (f1 - 1) := by
      show usub f1 1 = _
      rw [usub, if_pos hf1]
    have a4 : usub (s - 1) (f1 - 1) = .ok (s - f1) := by rw [usub, if_pos (by omega)]; congr 1; omega
    have a5 : ¬ (quad (c1, n1, d1, f1)).perChunk = 0 := by show ¬ n1 = 0; omega
    have a6 : chkU32 ((quad (c1, n1, d1, f1)).firstChunk + (s - f1) / (quad (c1, n1, d1, f1)).perChunk) = .ok (1 + k) := by
      show chkU32 (c1 + (s - f1) / n1) = _
      rw [hdiv, chkU32, show c1 + (1 + k - c1) = 1 + k from by omega, if_pos hc32]
    have a7 : usub (1 + k) 1 = .ok k := by rw [usub, if_pos (by omega)]; congr 1; omega
    have a8 : idx co k = .ok (co.getD k 0) := by
      unfold idx
      rw [List.getElem?_eq_getElem (by omega), List.getD_eq_getElem?_getD, List.getElem?_eq_getElem (by omega)]
      rfl
    have a9 : (s - (quad (c1, n1, d1, f1)).firstSample) % (quad (c1, n1, d1, f1)).perChunk = w := hmod
    have a10 : forN w (fun i acc => do
        let s' ← usub s w
        let z ← sampleSize uniform stored (s' + i)
        chkU32 (acc + z)) 0 = .ok ((sizes.drop (s - 1 - w)).take w).sum := by
      refine sum_loop (s - 1 - w) w (by omega) ?_ hb
      intro i acc hi hacc
      have b1 : usub s w = .ok (s - w) := by rw [usub, if_pos (by omega)]
      have b2 : sampleSize uniform stored (s - w + i) = .ok (sizes.getD (s - 1 - w + i) 0) := by
        rw [← hz (s - 1 - w + i) (by omega)]
        congr 1
        omega
      simp only [b1, b2, bind, Except.bind]
      rw [chkU32, if_pos hacc]
    have a11 : sampleSize uniform stored s = .ok (sizes.getD (s - 1) 0) := by
      rw [← hz (s - 1) (by omega)]
      congr 1
      omega
    simp only [a1, hent, a2, a3, a4, a6, a7, a8, a9, a11, bind, Except.bind, if_neg a5]
    have a10' := a10
    simp only [bind, Except.bind] at a10'
    rw [a10']
    exact if_pos hb64

end Verif.Bmff
