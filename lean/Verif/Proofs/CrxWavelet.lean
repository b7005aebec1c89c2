import Verif.Model.CrxWavelet
import Verif.Spec.Wavelet
import Verif.Proofs.Base

/-! Proofs about the inverse wavelet transform of CR3: one line. -/

namespace Verif.Crx

open Verif.Wav

theorem i32_ok (v : Int) (h1 : -2147483648 ≤ v) (h2 : v ≤ 2147483647) : i32 v = .ok v := by
  rw [i32, if_pos ⟨h1, h2⟩]

theorem idx_some {α} (l : List α) (i : Nat) (v : α) (h : l[i]? = some v) : idx l i = .ok v := by
  simp [idx, h]

/-- All values are in a range in which no sum of the transform overflows. -/
def Bd (B : Int) (x : Int → Int) : Prop := ∀ i, -B ≤ x i ∧ x i ≤ B

/-- `x` is the symmetric extension of its samples `0 .. w-1`, except towards a neighbour. -/
structure Sig (l r : Bool) (w : Nat) (x : Int → Int) : Prop where
  left : l = false → ∀ k, x (-k) = x k
  right : r = false → ∀ k, x (w - 1 + k) = x (w - 1 - k)
  one : w = 1 → ∀ k, x k = x 0

/-- The list starts with the values of `g` at `0 .. n-1`. -/
def Cov (n : Nat) (l : List Int) (g : Int → Int) : Prop := ∀ j < n, l[j]? = some (g j)

def rowOf (w : Nat) (x : Int → Int) : List Int := (List.range w).map fun (i : Nat) => x i

theorem rowOf_length (w x) : (rowOf w x).length = w := by simp [rowOf]

theorem rowOf_get (w x) (i : Nat) (h : i < w) : (rowOf w x)[i]? = some (x i) := by
  simp [rowOf, h]

theorem eq_rowOf (w : Nat) (x : Int → Int) (l : List Int) (hl : l.length = w)
    (h : ∀ i < w, l[i]? = some (x i)) : l = rowOf w x := by
  apply List.ext_getElem?
  intro i
  by_cases hi : i < w
  · rw [h i hi, rowOf_get w x i hi]
  · rw [List.getElem?_eq_none (by omega), List.getElem?_eq_none (by rw [rowOf_length]; omega)]

theorem high_bd {B x} (h : Bd B x) : Bd (2 * B + 1) (high x) := by
  intro n
  have := h (2 * n + 1); have := h (2 * n); have := h (2 * n + 2)
  unfold high; omega

theorem low_bd {B x} (h : Bd B x) : Bd (2 * B + 2) (low x) := by
  intro n
  have := h (2 * n); have := high_bd h (n - 1); have := high_bd h n
  unfold low; omega

theorem even2_ok (lo h0 h1 : Int) (C : Int) (hC : C ≤ 1000000000)
    (b0 : -C ≤ h0 ∧ h0 ≤ C) (b1 : -C ≤ h1 ∧ h1 ≤ C) (r1 : -1000000000 ≤ lo - (h0 + h1 + 2) / 4)
    (r2 : lo - (h0 + h1 + 2) / 4 ≤ 1000000000) : even2 lo h0 h1 = .ok (lo - (h0 + h1 + 2) / 4) := by
  unfold even2
  rw [i32_ok _ (by omega) (by omega)]
  show (do let a ← i32 (h0 + h1 + 2); i32 (lo - a / 4)) = _
  rw [i32_ok _ (by omega) (by omega)]
  exact i32_ok _ (by omega) (by omega)

theorem even1_ok (lo h : Int) (b0 : -1000000000 ≤ h ∧ h ≤ 1000000000)
    (r1 : -1000000000 ≤ lo - (h + 1) / 2) (r2 : lo - (h + 1) / 2 ≤ 1000000000) : even1 lo h = .ok (lo - (h + 1) / 2) := by
  unfold even1
  rw [i32_ok _ (by omega) (by omega)]
  exact i32_ok _ (by omega) (by omega)

theorem odd2_ok (h a b : Int) (b0 : -1000000000 ≤ a ∧ a ≤ 1000000000) (b1 : -1000000000 ≤ b ∧ b ≤ 1000000000)
    (r1 : -1000000000 ≤ h + (a + b) / 2) (r2 : h + (a + b) / 2 ≤ 1000000000) : odd2 h a b = .ok (h + (a + b) / 2) := by
  unfold odd2
  rw [i32_ok _ (by omega) (by omega)]
  exact i32_ok _ (by omega) (by omega)

/- The bound under which one line is reconstructed without overflow -/
scoped notation "C0" => (400000000 : Int)

/-- `low` minus the correction is the even sample. -/
theorem even2_sig {x} (hB : Bd C0 x) (n : Int) : even2 (low x n) (high x (n - 1)) (high x n) = .ok (x (2 * n)) := by
  have h0 := high_bd hB (n - 1)
  have h1 := high_bd hB n
  have h2 := hB (2 * n)
  have e : low x n - (high x (n - 1) + high x n + 2) / 4 = x (2 * n) := by unfold low; omega
  rw [even2_ok _ _ _ _ (by decide) h0 h1 (by rw [e]; omega) (by rw [e]; omega), e]

/-- The same where the neighbouring `high` coefficients are equal. -/
theorem even1_sig {x} (hB : Bd C0 x) (n : Int) (hm : high x (n - 1) = high x n) : even1 (low x n) (high x n) = .ok (x (2 * n)) := by
  have h1 := high_bd hB n
  have h2 := hB (2 * n)
  have e : low x n - (high x n + 1) / 2 = x (2 * n) := by unfold low; rw [hm]; omega
  rw [even1_ok _ _ (by omega) (by rw [e]; omega) (by rw [e]; omega), e]

theorem even1_sig' {x} (hB : Bd C0 x) (n : Int) (hm : high x (n - 1) = high x n) :
    even1 (low x n) (high x (n - 1)) = .ok (x (2 * n)) := by rw [hm]; exact even1_sig hB n hm

theorem odd2_sig {x} (hB : Bd C0 x) (n : Int) : odd2 (high x n) (x (2 * n + 2)) (x (2 * n)) = .ok (x (2 * n + 1)) := by
  have h0 := hB (2 * n)
  have h1 := hB (2 * n + 1)
  have h2 := hB (2 * n + 2)
  have e : high x n + (x (2 * n + 2) + x (2 * n)) / 2 = x (2 * n + 1) := by unfold high; omega
  rw [odd2_ok _ _ _ (by omega) (by omega) (by rw [e]; omega) (by rw [e]; omega), e]

theorem Sig.high_left {l r w x} (h : Sig l r w x) (hl : l = false) : high x (-1) = high x 0 := by
  have a := h.left hl 1
  have b := h.left hl 2
  simp only [high]
  simp only [Int.reduceNeg, Int.reduceMul, Int.reduceAdd] at *
  rw [a, b]; omega

/-- Odd width: the last two `high` coefficients around the last sample are equal. -/
theorem Sig.high_right {l r w x} (h : Sig l r w x) (hr : r = false) (n : Int) (hw : (w : Int) = 2 * n + 1) :
    high x (n - 1) = high x n := by
  have a := h.right hr 1
  have b := h.right hr 2
  simp only [high]
  rw [show (w : Int) - 1 + 1 = 2 * n + 1 by omega, show (w : Int) - 1 - 1 = 2 * (n - 1) + 1 by omega] at a
  rw [show (w : Int) - 1 + 2 = 2 * n + 2 by omega, show (w : Int) - 1 - 2 = 2 * (n - 1) by omega] at b
  rw [a, b, show 2 * (n - 1) + 2 = 2 * n by omega]; omega

/-- Even width: the sample after the last one is the last but one. -/
theorem Sig.even_right {l r w x} (h : Sig l r w x) (hr : r = false) (n : Int) (hw : (w : Int) = 2 * n + 2) :
    x (2 * n + 2) = x (2 * n) := by
  have a := h.right hr 1
  rw [show (w : Int) - 1 + 1 = 2 * n + 2 by omega, show (w : Int) - 1 - 1 = 2 * n by omega] at a
  exact a

theorem low_const {x} (h : ∀ k, x k = x 0) : low x 0 = x 0 := by
  simp only [low, high]
  rw [h (2 * 0 + 1), h (2 * 0), h (2 * 0 + 2), h (2 * (0 - 1) + 1), h (2 * (0 - 1)), h (2 * (0 - 1) + 2)]
  omega

/-- Number of low coefficients that a line of `w` samples needs -/
def nlo (r : Bool) (w : Nat) : Nat := if r then w / 2 + 1 else (w + 1) / 2

/-- Number of high coefficients -/
def nhi (l r : Bool) (w : Nat) : Nat := l.toNat + (if r then w / 2 + 1 else w / 2)

theorem bind_ok {α β} (a : α) (f : α → R β) : (Except.ok a >>= f) = f a := rfl

theorem hFirst_ok {l r w x} {lo hi line : List Int} (hs : Sig l r w x) (hB : Bd C0 x) (hw : 3 ≤ w) (hl : line.length = w)
    (hlo : Cov (nlo r w) lo (low x)) (hhi : Cov (nhi l r w) hi (fun n => high x (n - l.toNat))) :
    hFirst l lo hi line = .ok (line.set 0 (x 0), l.toNat) := by
  have a := hlo 0 (by unfold nlo; split <;> omega)
  have b := hhi 0 (by unfold nhi; split <;> omega)
  cases l with
  | true =>
    have c := hhi 1 (by unfold nhi; split <;> simp <;> omega)
    simp only [hFirst, if_true, idx_some _ _ _ a, idx_some _ _ _ b, idx_some _ _ _ c, bind_ok]
    have := even2_sig hB 0
    simp only [Int.zero_sub, Int.mul_zero] at this
    simp only [Bool.toNat_true, Int.natCast_zero, Int.zero_sub, Int.natCast_one, Int.sub_self, this, bind_ok,
      upd_lt _ _ _ (show 0 < line.length by omega)]
  | false =>
    simp only [hFirst, Bool.false_eq_true, if_false, idx_some _ _ _ a, idx_some _ _ _ b, bind_ok]
    have := even1_sig hB 0 (hs.high_left rfl)
    simp only [Int.mul_zero] at this
    simp only [Bool.toNat_false, Int.natCast_zero, Int.sub_zero, this, bind_ok,
      upd_lt _ _ _ (show 0 < line.length by omega)]

/-- The samples `0 .. n-1` are done. -/
def LineDone (w n : Nat) (x : Int → Int) (line : List Int) : Prop := line.length = w ∧ ∀ i < n, line[i]? = some (x i)

theorem LineDone.set {w n x line} (h : LineDone w n x line) (hn : n < w) : LineDone w (n + 1) x (line.set n (x n)) := by
  refine ⟨by rw [List.length_set, h.1], fun i hi => ?_⟩
  by_cases e : i = n
  · subst e; rw [List.getElem?_set_self (by rw [h.1]; omega)]
  · rw [List.getElem?_set_ne (by omega)]; exact h.2 i (by omega)

theorem LineDone.set2 {w n x line} (h : LineDone w n x line) (hn : n + 1 < w) {u v : Int} (hu : u = x n) (hv : v = x (n + 1)) :
    ∃ l1 l2, upd line n u = .ok l1 ∧ upd l1 (n + 1) v = .ok l2 ∧ LineDone w (n + 2) x l2 := by
  subst hu hv
  have h1 := h.set (by omega)
  have h2 := h1.set (by omega)
  refine ⟨_, _, upd_lt _ _ _ (by rw [h.1]; omega), upd_lt _ _ _ (by rw [h1.1]; omega), ?_⟩
  exact h2

section
variable {l r : Bool} {w : Nat} {x : Int → Int} {lo hi line : List Int}

theorem hStep_ok (hB : Bd C0 x) (k : Nat) (hk : 2 * k + 2 < w) (hd : LineDone w (2 * k + 1) x line)
    (hlo : lo[1 + k]? = some (low x (k + 1))) (h0 : hi[l.toNat + k]? = some (high x k))
    (h1 : hi[l.toNat + k + 1]? = some (high x (k + 1))) :
    ∃ line', hStep lo hi l.toNat k line = .ok line' ∧ LineDone w (2 * (k + 1) + 1) x line' := by
  obtain ⟨l1, l2, e1, e2, d⟩ := hd.set2 (by omega) (u := x (2 * k + 1)) (v := x (2 * (k + 1) : Int))
    (by first | rfl | (congr 1; omega)) (by first | rfl | (congr 1; omega))
  refine ⟨l2, ?_, d⟩
  have a := even2_sig hB (k + 1)
  have b := odd2_sig hB k
  rw [show (k : Int) + 1 - 1 = k by omega] at a
  rw [show 2 * (k : Int) + 2 = 2 * (k + 1) by omega] at b
  have c := hd.2 (2 * k) (by omega)
  rw [show ((2 * k : Nat) : Int) = 2 * (k : Int) by omega] at c
  simp only [hStep, idx_some _ _ _ hlo, idx_some _ _ _ h0, idx_some _ _ _ h1, bind_ok, a, idx_some _ _ _ c, b, e1]
  exact e2

theorem hRight_ok (site : Site) (hsite : site = .single → w % 2 = 1) (hB : Bd C0 x) (k : Nat)
    (hk : w = 2 * k + 2 ∨ w = 2 * k + 3) (hd : LineDone w (2 * k + 1) x line)
    (hlo : lo[1 + k]? = some (low x (k + 1))) (h0 : hi[l.toNat + k]? = some (high x k))
    (h1 : hi[l.toNat + k + 1]? = some (high x (k + 1))) :
    ∃ line', hRight site w lo hi l.toNat k line = .ok line' ∧ LineDone w w x line' := by
  have a := even2_sig hB (k + 1)
  have b := odd2_sig hB k
  rw [show (k : Int) + 1 - 1 = k by omega] at a
  rw [show 2 * (k : Int) + 2 = 2 * (k + 1) by omega] at b
  have c := hd.2 (2 * k) (by omega)
  rw [show ((2 * k : Nat) : Int) = 2 * (k : Int) by omega] at c
  have hd1 := hd.set (by omega)
  rw [show ((2 * k + 1 : Nat) : Int) = 2 * (k : Int) + 1 by omega] at hd1
  simp only [hRight, idx_some _ _ _ hlo, idx_some _ _ _ h0, idx_some _ _ _ h1, bind_ok, a, idx_some _ _ _ c, b]
  rw [upd_lt _ _ _ (by rw [hd.1]; omega)]
  simp only [bind_ok]
  rcases hk with hk | hk
  · rw [if_neg (by rintro (h | h); omega; have := hsite h; omega)]
    exact ⟨_, rfl, by rw [hk] at hd1 ⊢; exact hd1⟩
  · rw [if_pos (by omega)]
    have hd2 := hd1.set (by omega)
    rw [show ((2 * k + 1 + 1 : Nat) : Int) = 2 * (k + 1 : Int) by omega] at hd2
    exact ⟨_, upd_lt _ _ _ (by rw [hd1.1]; omega), by rw [hk] at hd2 ⊢; exact hd2⟩

theorem oddFirst_ok (hB : Bd C0 x) (k : Int) (hm : high x k = high x (k + 1)) :
    oddFirst (high x k) (low x (k + 1)) (x (2 * k)) = .ok (x (2 * k + 1)) := by
  have b0 := hB (2 * k)
  have b1 := hB (2 * k + 1)
  have b2 := hB (2 * (k + 1))
  have b3 := high_bd hB k
  have b4 := low_bd hB (k + 1)
  have e : low x (k + 1) - (high x k + 1) / 2 = x (2 * (k + 1)) := by
    unfold low; rw [show k + 1 - 1 = k by omega, ← hm]; omega
  have e2 : high x k + (x (2 * k) + x (2 * (k + 1))) / 2 = x (2 * k + 1) := by
    unfold high; rw [show 2 * (k + 1) = 2 * k + 2 by omega]; omega
  unfold oddFirst
  rw [i32_ok _ (by omega) (by omega)]
  simp only [bind_ok]
  rw [i32_ok _ (by omega) (by omega)]
  simp only [bind_ok]
  rw [i32_ok _ (by omega) (by omega)]
  simp only [bind_ok]
  rw [show x (2 * k) + low x (k + 1) - (high x k + 1) / 2 = x (2 * k) + x (2 * (k + 1)) by omega, e2]
  exact i32_ok _ (by omega) (by omega)

theorem hOdd_ok (site : Site) (hB : Bd C0 x) (k : Nat)
    (hk : w = 2 * k + 3) (hd : LineDone w (2 * k + 1) x line) (hm : high x k = high x (k + 1))
    (hlo : lo[1 + k]? = some (low x (k + 1))) (h0 : hi[l.toNat + k]? = some (high x k)) :
    ∃ line', hOdd site lo hi l.toNat k line = .ok line' ∧ LineDone w w x line' := by
  have a := even1_sig' hB (k + 1) (by rw [show (k : Int) + 1 - 1 = k by omega]; exact hm)
  have b := odd2_sig hB k
  rw [show (k : Int) + 1 - 1 = k by omega] at a
  rw [show 2 * (k : Int) + 2 = 2 * (k + 1) by omega] at b
  have c := hd.2 (2 * k) (by omega)
  rw [show ((2 * k : Nat) : Int) = 2 * (k : Int) by omega] at c
  obtain ⟨l1, l2, e1, e2, d⟩ := hd.set2 (by omega) (u := x (2 * k + 1)) (v := x (2 * (k + 1) : Int))
    (by first | rfl | (congr 1; omega)) (by first | rfl | (congr 1; omega))
  refine ⟨l2, ?_, by rw [hk] at d ⊢; exact d⟩
  have f : oddEnd site (high x k) (low x (k + 1)) (x (2 * k)) (x (2 * (k + 1))) = .ok (x (2 * k + 1)) := by
    unfold oddEnd; split
    · exact oddFirst_ok hB k hm
    · exact b
  simp only [hOdd, idx_some _ _ _ hlo, idx_some _ _ _ h0, bind_ok, a, idx_some _ _ _ c, f, e1]
  exact e2

theorem hEven_ok (hB : Bd C0 x) (k : Nat)
    (hk : w = 2 * k + 2) (hd : LineDone w (2 * k + 1) x line) (hm : x (2 * k + 2) = x (2 * k))
    (h0 : hi[l.toNat + k]? = some (high x k)) :
    ∃ line', hEven hi l.toNat k line = .ok line' ∧ LineDone w w x line' := by
  have c := hd.2 (2 * k) (by omega)
  rw [show ((2 * k : Nat) : Int) = 2 * (k : Int) by omega] at c
  have hd1 := hd.set (by omega)
  rw [show ((2 * k + 1 : Nat) : Int) = 2 * (k : Int) + 1 by omega] at hd1
  have e : x (2 * k) + high x k = x (2 * k + 1) := by unfold high; rw [hm]; omega
  have b := hB (2 * k + 1)
  refine ⟨_, ?_, by rw [hk] at hd1 ⊢; exact hd1⟩
  simp only [hEven, idx_some _ _ _ h0, idx_some _ _ _ c, bind_ok, e]
  rw [i32_ok _ (by omega) (by omega)]
  exact upd_lt _ _ _ (by rw [hd.1]; omega)

/-- One line: from its coefficients the code makes its samples. -/
theorem horiz_ok (site : Site) (f : Flags) (hs : Sig f.left f.right w x) (hB : Bd C0 x) (hw : w = 1 ∨ 3 ≤ w)
    (hsite : site = .single → f.right = true → w % 2 = 1) (hl : line.length = w)
    (hlo : Cov (nlo f.right w) lo (low x)) (hhi : Cov (nhi f.left f.right w) hi (fun n => high x (n - f.left.toNat))) :
    horiz site f w lo hi line = .ok (rowOf w x) := by
  rcases hw with hw | hw
  · subst hw
    have a := hlo 0 (by unfold nlo; split <;> omega)
    simp only [horiz, Nat.le_refl, if_true, idx_some _ _ _ a, bind_ok]
    rw [upd_lt _ _ _ (by omega)]
    congr 1
    match line, hl with
    | [_], _ => simp [rowOf]; exact low_const (hs.one rfl)
  · have hN : usub w 3 = .ok (w - 3) := by rw [usub, if_pos hw]
    have a := fun k (hk : k + 1 < nlo f.right w) => hlo (1 + k) (by omega)
    have b := fun k (hk : f.left.toNat + k < nhi f.left f.right w) => hhi (f.left.toNat + k) (by omega)
    have a' : ∀ k, k + 1 < nlo f.right w → lo[1 + k]? = some (low x (k + 1)) := by
      intro k hk; rw [a k hk]; congr 2; omega
    have b' : ∀ k, f.left.toNat + k < nhi f.left f.right w → hi[f.left.toNat + k]? = some (high x k) := by
      intro k hk; rw [b k hk]; simp only []; congr 2; omega
    have b'' : ∀ k, f.left.toNat + k + 1 < nhi f.left f.right w → hi[f.left.toNat + k + 1]? = some (high x (k + 1)) := by
      intro k hk; rw [Nat.add_assoc, b' (k + 1) (by omega)]; rfl
    have hc := forN_inv ((w - 3 + 1) / 2) (hStep lo hi f.left.toNat) (fun k ln => LineDone w (2 * k + 1) x ln) (line.set 0 (x 0))
      (by
        have : LineDone w 0 x line := ⟨hl, fun i hi => by omega⟩
        exact this.set (by omega))
      (by
        intro k s hk hd
        refine hStep_ok hB k (by omega) hd (a' k ?_) (b' k ?_) (b'' k ?_)
        · unfold nlo; split <;> omega
        · unfold nhi; split <;> omega
        · unfold nhi; split <;> omega)
    obtain ⟨ln, e, hd⟩ := hc
    have fin : ∃ ln', (if f.right then hRight site w lo hi f.left.toNat ((w - 3 + 1) / 2) ln
        else if w % 2 = 1 then hOdd site lo hi f.left.toNat ((w - 3 + 1) / 2) ln
        else hEven hi f.left.toNat ((w - 3 + 1) / 2) ln) = .ok ln' ∧ LineDone w w x ln' := by
      generalize hk : (w - 3 + 1) / 2 = k at hd ⊢
      cases hr : f.right with
      | true =>
        rw [if_pos rfl]
        refine hRight_ok site (fun h => hsite h hr) hB k (by omega) hd (a' k ?_) (b' k ?_) (b'' k ?_)
        · unfold nlo; rw [hr]; simp only [if_true]; omega
        · unfold nhi; rw [hr]; simp only [if_true]; omega
        · unfold nhi; rw [hr]; simp only [if_true]; omega
      | false =>
        rw [if_neg (by simp)]
        split
        · rename_i ho
          refine hOdd_ok site hB k (by omega) hd ?_ (a' k ?_) (b' k ?_)
          · have := hs.high_right hr (k + 1) (by omega)
            rw [show (k : Int) + 1 - 1 = k by omega] at this
            exact this
          · unfold nlo; rw [hr]; simp only [Bool.false_eq_true, if_false]; omega
          · unfold nhi; rw [hr]; simp only [Bool.false_eq_true, if_false]; omega
        · rename_i ho
          refine hEven_ok hB k (by omega) hd (hs.even_right hr k (by omega)) (b' k ?_)
          · unfold nhi; rw [hr]; simp only [Bool.false_eq_true, if_false]; omega
    obtain ⟨ln', e', hd'⟩ := fin
    rw [horiz, if_neg (by omega)]
    rw [hFirst_ok hs hB hw hl hlo hhi]
    simp only [bind_ok, hN, e, e']
    congr 1
    exact eq_rowOf w x ln' hd'.1 hd'.2

end

end Verif.Crx
