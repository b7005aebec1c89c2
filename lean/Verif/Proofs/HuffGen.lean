import Verif.Model.HuffBuilder
import Verif.Proofs.Base
import Mathlib.Tactic.Tauto
import Mathlib.Data.List.Perm.Subperm
/-! `gen_codesizes` produces code sizes with Kraft sum one. -/

namespace Verif.Ljpeg
open Verif

/-- value of the fold over the first `n` indices -/
private def minFold (freq : List Nat) (excl : Option Nat) (n : Nat) : Option (Nat × Nat) :=
  (List.range n).foldl (fun best i =>
    let f := freq.getD i 0
    if f > 0 ∧ some i ≠ excl then
      match best with
      | none => some (i, f)
      | some (_, bf) => if f ≤ bf then some (i, f) else best
    else best) none

private theorem minFold_spec (freq : List Nat) (excl : Option Nat) (n : Nat) :
    match minFold freq excl n with
    | none => ∀ i, i < n → 0 < freq.getD i 0 → some i = excl
    | some (i, f) => i < n ∧ freq.getD i 0 = f ∧ 0 < f ∧ some i ≠ excl ∧
        (∀ j, j < n → 0 < freq.getD j 0 → some j ≠ excl → f ≤ freq.getD j 0) := by
  induction n with
  | zero => simp [minFold]
  | succ n ih =>
    have e : minFold freq excl (n + 1) =
        (if freq.getD n 0 > 0 ∧ some n ≠ excl then
          match minFold freq excl n with
          | none => some (n, freq.getD n 0)
          | some (_, bf) => if freq.getD n 0 ≤ bf then some (n, freq.getD n 0) else minFold freq excl n
        else minFold freq excl n) := by
      simp only [minFold, List.range_succ, List.foldl_append, List.foldl_cons, List.foldl_nil]
    rw [e]
    cases hm : minFold freq excl n with
    | none =>
      rw [hm] at ih
      simp only at ih ⊢
      by_cases hc : freq.getD n 0 > 0 ∧ some n ≠ excl
      · rw [if_pos hc]
        simp only
        refine ⟨by omega, trivial, hc.1, hc.2, ?_⟩
        intro j hj hp hne
        rcases Nat.lt_or_ge j n with h | h
        · exact absurd (ih j h hp) hne
        · have : j = n := by omega
          subst this; omega
      · rw [if_neg hc]
        simp only
        intro j hj hp
        rcases Nat.lt_or_ge j n with h | h
        · exact ih j h hp
        · have : j = n := by omega
          subst this
          by_cases he : some j = excl
          · exact he
          · exact absurd ⟨hp, he⟩ hc
    | some p =>
      obtain ⟨i, f⟩ := p
      rw [hm] at ih
      simp only at ih ⊢
      obtain ⟨h1, h2, h3, h4, h5⟩ := ih
      by_cases hc : freq.getD n 0 > 0 ∧ some n ≠ excl
      · rw [if_pos hc]
        by_cases hle : freq.getD n 0 ≤ f
        · rw [if_pos hle]
          simp only
          refine ⟨by omega, trivial, hc.1, hc.2, ?_⟩
          intro j hj hp hne
          rcases Nat.lt_or_ge j n with h | h
          · exact Nat.le_trans hle (h5 j h hp hne)
          · have : j = n := by omega
            subst this; omega
        · rw [if_neg hle]
          simp only
          refine ⟨by omega, h2, h3, h4, ?_⟩
          intro j hj hp hne
          rcases Nat.lt_or_ge j n with h | h
          · exact h5 j h hp hne
          · have : j = n := by omega
            subst this; omega
      · rw [if_neg hc]
        simp only
        refine ⟨by omega, h2, h3, h4, ?_⟩
        intro j hj hp hne
        rcases Nat.lt_or_ge j n with h | h
        · exact h5 j h hp hne
        · have : j = n := by omega
          subst this; exact absurd ⟨hp, hne⟩ hc

theorem findMin_none {freq : List Nat} {excl : Option Nat} (h : findMin freq excl = none) :
    ∀ i, 0 < freq.getD i 0 → some i = excl := by
  intro i hi
  have hs := minFold_spec freq excl freq.length
  rw [show minFold freq excl freq.length = none from h] at hs
  have hl : i < freq.length := by
    rcases Nat.lt_or_ge i freq.length with h | h
    · exact h
    · simp [List.getD_eq_getElem?_getD, h] at hi
  exact hs i hl hi

theorem findMin_some {freq : List Nat} {excl : Option Nat} {i f : Nat} (h : findMin freq excl = some (i, f)) :
    i < freq.length ∧ freq.getD i 0 = f ∧ 0 < f ∧ some i ≠ excl ∧
      (∀ j, j < freq.length → 0 < freq.getD j 0 → some j ≠ excl → f ≤ freq.getD j 0) := by
  have hs := minFold_spec freq excl freq.length
  rw [show minFold freq excl freq.length = some (i, f) from h] at hs
  exact hs

/-- `others` links the members of the list in order. -/
def Chain (others : List (Option Nat)) : List Nat → Prop
  | [] => False
  | [a] => others[a]? = some none
  | a :: b :: r => others[a]? = some (some b) ∧ Chain others (b :: r)

theorem getD_set (l : List Nat) (i j v : Nat) :
    (l.set i v).getD j 0 = if i = j ∧ i < l.length then v else l.getD j 0 := by
  simp only [List.getD_eq_getElem?_getD, List.getElem?_set]
  by_cases h : i = j
  · subst h
    by_cases h2 : i < l.length
    · simp [h2]
    · simp [h2]
  · simp [h]

theorem walk_ok (others : List (Option Nat)) (a : Nat) (r : List Nat) (cs : List Nat) (fuel : Nat)
    (hc : Chain others (a :: r)) (hn : (a :: r).Nodup) (hl : ∀ s ∈ a :: r, s < cs.length)
    (hf : (a :: r).length ≤ fuel) :
    ∃ cs', walk fuel others cs a = .ok (cs', (a :: r).getLast (by simp)) ∧ cs'.length = cs.length ∧
      ∀ i, cs'.getD i 0 = cs.getD i 0 + (if i ∈ a :: r then 1 else 0) := by
  induction r generalizing a cs fuel with
  | nil =>
    cases fuel with
    | zero => simp at hf
    | succ fuel =>
      have ha : a < cs.length := hl a (by simp)
      simp only [Chain] at hc
      refine ⟨cs.set a (cs[a] + 1), ?_, by simp, ?_⟩
      · simp [walk, upd_lt _ _ _ ha, bind, Except.bind, idx, hc, List.getElem?_eq_getElem ha]
      · intro i
        rw [getD_set]
        by_cases h : a = i
        · subst h; simp [ha]
        · have : i ≠ a := fun e => h e.symm
          simp [h, this]
  | cons b r ih =>
    cases fuel with
    | zero => simp at hf
    | succ fuel =>
      have ha : a < cs.length := hl a (by simp)
      simp only [Chain] at hc
      obtain ⟨cs', h1, h2, h3⟩ := ih b (cs.set a (cs[a] + 1)) fuel hc.2 (List.nodup_cons.1 hn).2
        (by intro s hs; rw [List.length_set]; exact hl s (by simp at hs ⊢; tauto)) (by simp at hf ⊢; omega)
      refine ⟨cs', ?_, by simpa using h2, ?_⟩
      · have : walk (fuel + 1) others cs a = walk fuel others (cs.set a (cs[a] + 1)) b := by
          simp [walk, upd_lt _ _ _ ha, bind, Except.bind, idx, hc.1, List.getElem?_eq_getElem ha]
        rw [this, h1]; rfl
      · intro i
        rw [h3, getD_set]
        have hna : a ∉ b :: r := (List.nodup_cons.1 hn).1
        by_cases h : a = i
        · subst h; simp [ha, hna]
        · have h' : i ≠ a := fun e => h e.symm
          simp only [h, false_and, if_false, List.mem_cons, h', false_or]

/-- weight of a list of symbols -/
def weight (cs : List Nat) (x : List Nat) : Nat := (x.map (fun s => 2 ^ (32 - cs.getD s 0))).sum

structure GInv (init : Nat → Prop) (g : Gen) (gs : List (List Nat)) : Prop where
  lenF : g.freq.length = 18
  lenC : g.codesize.length = 18
  lenO : g.others.length = 18
  nodup : gs.flatten.Nodup
  mem : ∀ s, s ∈ gs.flatten ↔ s < 18 ∧ init s
  heads : ∀ i, 0 < g.freq.getD i 0 ↔ ∃ x ∈ gs, x.head? = some i
  chain : ∀ x ∈ gs, Chain g.others x
  kraft : ∀ x ∈ gs, weight g.codesize x = 2 ^ 32
  depth : ∀ x ∈ gs, ∀ s ∈ x, g.codesize.getD s 0 < x.length
  out : ∀ s, s ∉ gs.flatten → g.codesize.getD s 0 = 0
  total : g.freq.sum < 2 ^ 64

theorem GInv.perm {init g gs gs'} (h : GInv init g gs) (p : gs.Perm gs') : GInv init g gs' where
  lenF := h.lenF
  lenC := h.lenC
  lenO := h.lenO
  nodup := (p.flatten.nodup_iff).1 h.nodup
  mem s := by rw [← p.flatten.mem_iff]; exact h.mem s
  heads i := by rw [h.heads]; constructor <;> rintro ⟨x, hx, e⟩ <;> exact ⟨x, by simpa [p.mem_iff] using hx, e⟩
  chain x hx := h.chain x (p.mem_iff.2 hx)
  kraft x hx := h.kraft x (p.mem_iff.2 hx)
  depth x hx := h.depth x (p.mem_iff.2 hx)
  out s hs := h.out s (by rw [p.flatten.mem_iff]; exact hs)
  total := h.total

theorem chain_congr {o o' : List (Option Nat)} {x : List Nat} (h : ∀ s ∈ x, o[s]? = o'[s]?) (hc : Chain o x) :
    Chain o' x := by
  induction x with
  | nil => exact hc
  | cons a r ih =>
    cases r with
    | nil => simp only [Chain] at hc ⊢; rw [← h a (by simp)]; exact hc
    | cons b r =>
      simp only [Chain] at hc ⊢
      exact ⟨by rw [← h a (by simp)]; exact hc.1, ih (fun s hs => h s (by simp [hs])) hc.2⟩

theorem chain_append {o : List (Option Nat)} (a : Nat) (r : List Nat) (b : Nat) (r2 : List Nat)
    (h1 : Chain o (a :: r)) (h2 : Chain o (b :: r2)) (hn : (a :: r ++ b :: r2).Nodup)
    (hl : ∀ s ∈ a :: r, s < o.length) :
    Chain (o.set ((a :: r).getLast (by simp)) (some b)) (a :: r ++ b :: r2) := by
  induction r generalizing a with
  | nil =>
    have ha : a < o.length := hl a (by simp)
    simp only [List.getLast_singleton, List.singleton_append, Chain]
    refine ⟨by simp [ha], chain_congr ?_ h2⟩
    intro s hs
    have : a ≠ s := by rintro rfl; exact absurd hs (by simpa using (List.nodup_cons.1 hn).1)
    rw [List.getElem?_set_ne this]
  | cons c r ih =>
    simp only [Chain] at h1
    have hn' := (List.nodup_cons.1 hn)
    have := ih c h1.2 hn'.2 (fun s hs => hl s (by simp at hs ⊢; tauto))
    simp only [List.cons_append, Chain]
    refine ⟨?_, by simpa using this⟩
    have hne : (a :: c :: r).getLast (by simp) ≠ a := by
      intro e
      have : (a :: c :: r).getLast (by simp) ∈ c :: r := by
        rw [List.getLast_cons (by simp)]; exact List.getLast_mem _
      rw [e] at this
      exact hn'.1 (by simp at this ⊢; tauto)
    rw [List.getElem?_set_ne hne]; exact h1.1


theorem nodup_lt_length {l : List Nat} {n : Nat} (h : l.Nodup) (hl : ∀ s ∈ l, s < n) : l.length ≤ n := by
  have := (h.subperm (l₂ := List.range n) (fun s hs => List.mem_range.2 (hl s hs))).length_le
  simpa using this

theorem sum_set (l : List Nat) (i v : Nat) (h : i < l.length) : (l.set i v).sum + l.getD i 0 = l.sum + v := by
  induction l generalizing i with
  | nil => simp at h
  | cons a l ih =>
    cases i with
    | zero => simp; omega
    | succ i =>
      have := ih i (by simpa using h)
      simp at this ⊢; omega

theorem weight_bump {cs cs' x : List Nat} (h : ∀ s ∈ x, cs'.getD s 0 = cs.getD s 0 + 1 ∧ cs.getD s 0 < 32) :
    2 * weight cs' x = weight cs x := by
  induction x with
  | nil => rfl
  | cons a x ih =>
    have h1 := h a (by simp)
    have h2 := ih (fun s hs => h s (by simp [hs]))
    simp only [weight, List.map_cons, List.sum_cons] at h2 ⊢
    rw [h1.1, show 32 - cs.getD a 0 = (32 - (cs.getD a 0 + 1)) + 1 by omega, Nat.pow_succ]
    omega

theorem weight_congr {cs cs' x : List Nat} (h : ∀ s ∈ x, cs'.getD s 0 = cs.getD s 0) : weight cs' x = weight cs x := by
  unfold weight
  congr 1
  exact List.map_congr_left (fun s hs => by rw [h s hs])

theorem weight_append (cs x y : List Nat) : weight cs (x ++ y) = weight cs x + weight cs y := by
  simp [weight]

theorem chain_ne_nil {o x} (h : Chain o x) : x ≠ [] := by rintro rfl; exact h

/-- merging the first two groups -/
theorem merge_ok {init g v1 r1 v2 r2 rest f1 f2} (h : GInv init g ((v1 :: r1) :: (v2 :: r2) :: rest))
    (m1 : findMin g.freq none = some (v1, f1)) (m2 : findMin g.freq (some v1) = some (v2, f2)) :
    ∃ g', genStep g = .ok (some g') ∧ GInv init g' ((v1 :: r1 ++ v2 :: r2) :: rest) := by
  obtain ⟨l1, e1, p1, _, _⟩ := findMin_some m1
  obtain ⟨l2, e2, p2, n2, _⟩ := findMin_some m2
  have hne : v1 ≠ v2 := by rintro rfl; exact n2 rfl
  have hnd := h.nodup
  simp only [List.flatten_cons] at hnd
  have hnd12 : (v1 :: r1 ++ v2 :: r2).Nodup := by
    rw [← List.append_assoc] at hnd; exact (List.nodup_append.1 hnd).1
  have hlt : ∀ s ∈ ((v1 :: r1) :: (v2 :: r2) :: rest).flatten, s < 18 := fun s hs => ((h.mem s).1 hs).1
  have hlt1 : ∀ s ∈ v1 :: r1, s < 18 := fun s hs => hlt s (by simp only [List.flatten_cons, List.mem_append]; tauto)
  have hlt2 : ∀ s ∈ v2 :: r2, s < 18 := fun s hs => hlt s (by simp only [List.flatten_cons, List.mem_append]; tauto)
  have hlen : (v1 :: r1 ++ v2 :: r2).length ≤ 18 := nodup_lt_length hnd12 (by
    intro s hs; rcases List.mem_append.1 hs with h | h
    · exact hlt1 s h
    · exact hlt2 s h)
  have hlen1 : (v1 :: r1).length ≤ 18 := by simp at hlen ⊢; omega
  have hlen2 : (v2 :: r2).length ≤ 18 := by simp at hlen ⊢; omega
  have c1 := h.chain _ (by simp : (v1 :: r1) ∈ _)
  have c2 := h.chain _ (by simp : (v2 :: r2) ∈ _)
  -- frequencies
  have s1 := sum_set g.freq v1 (f1 + f2) l1
  have s2 := sum_set (g.freq.set v1 (f1 + f2)) v2 0 (by simpa using l2)
  rw [getD_set, if_neg (by simp [hne])] at s2
  have htot := h.total
  have hz := sum_set g.freq v1 0 l1
  have hz2 := sum_set (g.freq.set v1 0) v2 0 (by simpa using l2)
  rw [getD_set, if_neg (by simp [hne])] at hz2
  have hlt64 : f1 + f2 < 2 ^ 64 := by omega
  -- walks
  obtain ⟨cs1, w1, lc1, g1⟩ := walk_ok g.others v1 r1 g.codesize 18 c1 (List.nodup_append.1 hnd12).1
    (by rw [h.lenC]; exact hlt1) hlen1
  have hjoin := chain_append v1 r1 v2 r2 c1 c2 hnd12 (by rw [h.lenO]; exact hlt1)
  have hlast : (v1 :: r1).getLast (by simp) ∈ v1 :: r1 := List.getLast_mem _
  have hdisj : ∀ s, s ∈ v1 :: r1 → s ∈ v2 :: r2 → False := fun s a b => (List.nodup_append.1 hnd12).2.2 s a s b rfl
  have c2' : Chain (g.others.set ((v1 :: r1).getLast (by simp)) (some v2)) (v2 :: r2) := by
    refine chain_congr ?_ c2
    intro s hs
    rw [List.getElem?_set_ne]
    intro e
    rw [e] at hlast; exact hdisj s hlast hs
  obtain ⟨cs2, w2, lc2, g2⟩ := walk_ok (g.others.set ((v1 :: r1).getLast (by simp)) (some v2)) v2 r2 cs1 18 c2'
    (List.nodup_append.1 hnd12).2.1 (by rw [lc1, h.lenC]; exact hlt2) hlen2
  have hcs : ∀ i, cs2.getD i 0 = g.codesize.getD i 0 + (if i ∈ v1 :: r1 ++ v2 :: r2 then 1 else 0) := by
    intro i
    rw [g2, g1]
    by_cases ha : i ∈ v1 :: r1
    · have hb : i ∉ v2 :: r2 := fun hb => hdisj i ha hb
      have : i ∈ v1 :: r1 ++ v2 :: r2 := List.mem_append_left _ ha
      simp only [if_pos ha, if_neg hb, if_pos this]
    · by_cases hb : i ∈ v2 :: r2
      · have : i ∈ v1 :: r1 ++ v2 :: r2 := List.mem_append_right _ hb
        simp only [if_neg ha, if_pos hb, if_pos this]
      · have : i ∉ v1 :: r1 ++ v2 :: r2 := by rw [List.mem_append]; tauto
        simp only [if_neg ha, if_neg hb, if_neg this]
  have hd1 := h.depth _ (by simp : (v1 :: r1) ∈ _)
  have hd2 := h.depth _ (by simp : (v2 :: r2) ∈ _)
  have hoth : ∀ x ∈ rest, ∀ s ∈ x, s ∉ v1 :: r1 ++ v2 :: r2 := by
    intro x hx s hs hmem
    rw [← List.append_assoc] at hnd
    exact (List.nodup_append.1 hnd).2.2 s hmem s (List.mem_flatten.2 ⟨x, hx, hs⟩) rfl
  refine ⟨⟨(g.freq.set v1 (f1 + f2)).set v2 0, cs2, g.others.set ((v1 :: r1).getLast (by simp)) (some v2)⟩, ?_, ?_⟩
  · have hl1 : (v1 :: r1).getLast (by simp) < g.others.length := by rw [h.lenO]; exact hlt1 _ hlast
    simp only [genStep, m1, m2, if_pos hlt64]
    rw [upd_lt _ _ _ l1]
    simp only [bind, Except.bind]
    rw [upd_lt _ _ _ (by simpa using l2)]
    simp only [w1]
    rw [upd_lt _ _ _ hl1]
    simp only [w2]
  · constructor
    · simp [h.lenF]
    · simp only; rw [lc2, lc1, h.lenC]
    · simp [h.lenO]
    · simpa only [List.flatten_cons, List.append_assoc] using hnd
    · intro s
      rw [← h.mem s]
      simp only [List.flatten_cons, List.append_assoc]
    · intro i
      simp only
      rw [getD_set, getD_set]
      have hh := h.heads i
      by_cases hi2 : v2 = i
      · subst hi2
        have : v2 < (g.freq.set v1 (f1 + f2)).length := by simpa using l2
        simp only [this, true_and, if_true]
        constructor
        · intro hlt0; omega
        · rintro ⟨x, hx, ex⟩
          exfalso
          rcases List.mem_cons.1 hx with rfl | hx
          · simp at ex; exact hne ex
          · exact hoth x hx v2 (List.mem_of_head? ex) (by simp)
      · rw [if_neg (by tauto)]
        by_cases hi1 : v1 = i
        · subst hi1
          rw [if_pos ⟨rfl, l1⟩]
          constructor
          · intro _; exact ⟨v1 :: r1 ++ v2 :: r2, by simp, by simp⟩
          · intro _; omega
        · rw [if_neg (by tauto), hh]
          constructor
          · rintro ⟨x, hx, ex⟩
            rcases List.mem_cons.1 hx with rfl | hx
            · simp at ex; exact absurd ex hi1
            · rcases List.mem_cons.1 hx with rfl | hx
              · simp at ex; exact absurd ex hi2
              · exact ⟨x, by simp [hx], ex⟩
          · rintro ⟨x, hx, ex⟩
            rcases List.mem_cons.1 hx with rfl | hx
            · simp at ex; exact absurd ex hi1
            · exact ⟨x, by simp [hx], ex⟩
    · intro x hx
      rcases List.mem_cons.1 hx with rfl | hx
      · exact hjoin
      · refine chain_congr ?_ (h.chain x (by simp [hx]))
        intro s hs
        simp only
        rw [List.getElem?_set_ne]
        intro e
        exact hoth x hx s hs (List.mem_append_left _ (by rw [← e]; exact hlast))
    · intro x hx
      simp only
      rcases List.mem_cons.1 hx with rfl | hx
      · have k1 := h.kraft _ (by simp : (v1 :: r1) ∈ _)
        have k2 := h.kraft _ (by simp : (v2 :: r2) ∈ _)
        have b1 : 2 * weight cs2 (v1 :: r1) = weight g.codesize (v1 :: r1) := weight_bump (by
          intro s hs
          refine ⟨by rw [hcs, if_pos (List.mem_append_left _ hs)], ?_⟩
          have := hd1 s hs; omega)
        have b2 : 2 * weight cs2 (v2 :: r2) = weight g.codesize (v2 :: r2) := weight_bump (by
          intro s hs
          refine ⟨by rw [hcs, if_pos (List.mem_append_right _ hs)], ?_⟩
          have := hd2 s hs; omega)
        rw [weight_append]; omega
      · rw [← h.kraft x (by simp [hx])]
        exact weight_congr (fun s hs => by rw [hcs, if_neg (hoth x hx s hs)]; rfl)
    · intro x hx s hs
      simp only
      rcases List.mem_cons.1 hx with rfl | hx
      · rw [hcs, if_pos hs, List.length_append]
        rcases List.mem_append.1 hs with hs | hs
        · have := hd1 s hs; simp at this ⊢; omega
        · have := hd2 s hs; simp at this ⊢; omega
      · rw [hcs, if_neg (hoth x hx s hs)]; exact h.depth x (by simp [hx]) s hs
    · intro s hs
      simp only at hs ⊢
      rw [hcs, if_neg (by intro hm; exact hs (by simp only [List.flatten_cons, List.mem_append] at hm ⊢; tauto))]
      exact h.out s (by intro hm; exact hs (by simpa only [List.flatten_cons, List.append_assoc] using hm))
    · simp only; omega

theorem genStep_ok {init g gs} (h : GInv init g gs) (hne : gs ≠ []) :
    (genStep g = .ok none ∧ gs.length = 1) ∨
    ∃ g' gs', genStep g = .ok (some g') ∧ GInv init g' gs' ∧ gs'.length + 1 = gs.length ∧ gs' ≠ [] := by
  have headOf : ∀ x ∈ gs, ∃ a r, x = a :: r := by
    intro x hx
    have := chain_ne_nil (h.chain x hx)
    cases x with
    | nil => exact absurd rfl this
    | cons a r => exact ⟨a, r, rfl⟩
  cases m1 : findMin g.freq none with
  | none =>
    exfalso
    obtain ⟨x, hx⟩ := List.exists_mem_of_ne_nil gs hne
    obtain ⟨a, r, rfl⟩ := headOf x hx
    exact absurd (findMin_none m1 a ((h.heads a).2 ⟨_, hx, rfl⟩)) (by simp)
  | some p =>
    obtain ⟨v1, f1⟩ := p
    obtain ⟨l1, e1, p1, _, _⟩ := findMin_some m1
    obtain ⟨x1, hx1, hh1⟩ := (h.heads v1).1 (by rw [e1]; exact p1)
    obtain ⟨a, r1, rfl⟩ := headOf x1 hx1
    obtain rfl : a = v1 := by simpa using hh1
    have perm1 := List.perm_cons_erase hx1
    have h' := h.perm perm1
    cases m2 : findMin g.freq (some a) with
    | none =>
      left
      refine ⟨by simp [genStep, m1, m2], ?_⟩
      rw [perm1.length_eq]
      cases hr : gs.erase (a :: r1) with
      | nil => rfl
      | cons y ys =>
        exfalso
        rw [hr] at h'
        have hy : y ∈ gs := List.mem_of_mem_erase (by rw [hr]; simp)
        obtain ⟨b, r2, rfl⟩ := headOf y hy
        have := findMin_none m2 b ((h.heads b).2 ⟨_, hy, rfl⟩)
        obtain rfl : b = a := by simpa using this
        have hnd := h'.nodup
        simp [List.nodup_cons] at hnd
    | some q =>
      obtain ⟨v2, f2⟩ := q
      right
      obtain ⟨l2, e2, p2, n2, _⟩ := findMin_some m2
      have hne' : v2 ≠ a := by rintro rfl; exact n2 rfl
      obtain ⟨x2, hx2, hh2⟩ := (h.heads v2).1 (by rw [e2]; exact p2)
      obtain ⟨b, r2, rfl⟩ := headOf x2 hx2
      obtain rfl : b = v2 := by simpa using hh2
      have hx2' : (b :: r2) ∈ gs.erase (a :: r1) :=
        (List.mem_erase_of_ne (by intro e; simp at e; exact hne' e.1)).2 hx2
      have perm2 := perm1.trans ((List.perm_cons_erase hx2').cons (a :: r1))
      obtain ⟨g', s1, s2⟩ := merge_ok (h.perm perm2) m1 m2
      exact ⟨g', _, s1, s2, by rw [perm2.length_eq]; simp, by simp⟩

theorem genLoop_ok {init g gs} (fuel : Nat) (h : GInv init g gs) (hne : gs ≠ []) (hf : gs.length ≤ fuel) :
    ∃ g' x, genLoop fuel g = .ok g' ∧ GInv init g' [x] := by
  induction fuel generalizing g gs with
  | zero => simp at hf; exact absurd hf hne
  | succ fuel ih =>
    rcases genStep_ok h hne with ⟨e, hl⟩ | ⟨g', gs', e, h', hl, hne'⟩
    · obtain ⟨x, rfl⟩ := List.length_eq_one_iff.1 hl
      exact ⟨g, x, by simp [genLoop, e, bind, Except.bind], h⟩
    · obtain ⟨g2, x, e2, h2⟩ := ih h' hne' (by omega)
      exact ⟨g2, x, by simp [genLoop, e, bind, Except.bind, e2], h2⟩

/-- The code sizes of the symbols that occur (and of the reserved symbol 17) form a complete prefix code. -/
theorem genCodesizes_ok (hist : List Nat) (hl : hist.length = 17) (hsum : hist.sum + 1 < 2 ^ 64) :
    ∃ cs x, genCodesizes hist = .ok cs ∧ cs.length = 18 ∧ x.Nodup ∧
      (∀ s, s ∈ x ↔ s < 18 ∧ 0 < (hist ++ [1]).getD s 0) ∧
      weight cs x = 2 ^ 32 ∧ (∀ s ∈ x, cs.getD s 0 < x.length) ∧ (∀ s, s ∉ x → cs.getD s 0 = 0) := by
  let f0 := hist ++ [1]
  let gs := ((List.range 18).filter (fun s => 0 < f0.getD s 0)).map (fun s => [s])
  have hflat : gs.flatten = (List.range 18).filter (fun s => 0 < f0.getD s 0) := by
    simp [gs, List.flatten_eq_flatMap, List.flatMap_map]
  have hlen0 : f0.length = 18 := by simp [f0, hl]
  have hinit : GInv (fun s => 0 < f0.getD s 0) ⟨f0, List.replicate 18 0, List.replicate 18 none⟩ gs := by
    constructor
    · exact hlen0
    · simp
    · simp
    · rw [hflat]; exact List.nodup_range.filter _
    · intro s; rw [hflat]; simp
    · intro i
      simp only [gs, List.mem_map, List.mem_filter, List.mem_range, decide_eq_true_eq]
      constructor
      · intro hp
        refine ⟨[i], ⟨i, ⟨?_, hp⟩, rfl⟩, rfl⟩
        rcases Nat.lt_or_ge i 18 with h | h
        · exact h
        · simp [List.getD_eq_getElem?_getD, hlen0, h] at hp
      · rintro ⟨x, ⟨s, ⟨_, hp⟩, rfl⟩, e⟩
        simp at e; subst e; exact hp
    · intro x hx
      simp only [gs, List.mem_map, List.mem_filter, List.mem_range] at hx
      obtain ⟨s, ⟨hs, _⟩, rfl⟩ := hx
      show (List.replicate 18 none)[s]? = some none
      rw [List.getElem?_replicate, if_pos hs]
    · intro x hx
      simp only [gs, List.mem_map] at hx
      obtain ⟨s, _, rfl⟩ := hx
      simp only [weight, List.map_cons, List.map_nil, List.getD_eq_getElem?_getD, List.getElem?_replicate]
      split <;> rfl
    · intro x hx t ht
      simp only [gs, List.mem_map] at hx
      obtain ⟨s, _, rfl⟩ := hx
      simp only [List.getD_eq_getElem?_getD, List.getElem?_replicate, List.length_singleton]
      split <;> simp
    · intro s _
      simp only [List.getD_eq_getElem?_getD, List.getElem?_replicate]
      split <;> simp
    · simpa [f0] using hsum
  have hne : gs ≠ [] := by
    have : 17 ∈ gs.flatten := by rw [hflat]; simp [f0, List.getD_eq_getElem?_getD, hl]
    intro e; rw [e] at this; simp at this
  have hlen : gs.length ≤ 19 := by
    have := List.length_filter_le (fun s => decide (0 < f0.getD s 0)) (List.range 18)
    simp [gs] at this ⊢; omega
  obtain ⟨g', x, e, hg⟩ := genLoop_ok 19 hinit hne hlen
  refine ⟨g'.codesize, x, by simp [genCodesizes, bind, Except.bind, f0] at e ⊢; rw [e], hg.lenC, ?_, ?_, hg.kraft x (by simp),
    hg.depth x (by simp), ?_⟩
  · simpa using hg.nodup
  · intro s; have := hg.mem s; simp only [List.flatten_cons, List.flatten_nil, List.append_nil] at this; exact this
  · intro s hs; exact hg.out s (by simpa using hs)

end Verif.Ljpeg
