import Verif.Proofs.Crw
import Verif.Proofs.JpegScan
import Verif.Proofs.Srw
/-! # Canon CRW: pixels and files -/

namespace Verif.Crw
open Verif Verif.Ljpeg Verif.Pumps Verif.Spec Verif.Spec.Jpeg
open Verif.Orf (ok_bind)

theorem mod_step (w k : Nat) (hw : 0 < w) (h : (k + 1) % w ≠ 0) : (k + 1) % w = k % w + 1 := by
  have h1 := Nat.div_add_mod k w
  have h2 := Nat.mod_lt k hw
  rcases Nat.lt_or_ge (k % w + 1) w with h3 | h3
  · rw [← h1, Nat.add_assoc, Nat.mul_add_mod, Nat.mod_eq_of_lt h3, h1]
  · exfalso
    apply h
    rw [show k + 1 = w * (k / w + 1) by rw [Nat.mul_add, Nat.mul_one]; omega, Nat.mul_mod_right]

/-- The base for the even or odd positions. -/
def St.bs (st : St) (k : Nat) : Int := if k % 2 = 0 then st.base0 else st.base1

/-- `k` samples are done. -/
structure Pix (w N : Nat) (x : Nat → Nat) (k : Nat) (st : St) : Prop where
  pnum : st.pnum = k
  len : st.out.length = N
  done : ∀ j, j < k → st.out[j]? = some (x j)
  bases : k % w ≠ 0 → st.bs (k + 1) = x (k - 1) ∧ st.bs k = (if k % w = 1 then 512 else x (k - 2) : Nat)

theorem savePixel_ok {w N : Nat} {x : Nat → Nat} (hw : 0 < w) (hx : ∀ k, k < N → x k < 65536) {diffs : List Int} {b i : Nat} {st : St} (hk : 64 * b + i < N)
    (h : Pix w N x (64 * b + i) st) (hd : diffs[i]? = some (Crw.diff w x (64 * b + i))) :
    ∃ st', savePixel w diffs b i st = .ok st' ∧ Pix w N x (64 * b + i + 1) st' ∧ st'.p = st.p ∧ st'.carry = st.carry := by
  obtain ⟨k, hkd⟩ : ∃ k, k = 64 * b + i := ⟨_, rfl⟩
  rw [← hkd] at h hk hd ⊢
  have hi2 : i % 2 = k % 2 := by omega
  have hxk := hx k hk
  have hv : (if i % 2 = 0 then (if st.pnum % w = 0 then 512 else st.base0) else (if st.pnum % w = 0 then 512 else st.base1)) + Crw.diff w x k = (x k : Int) := by
    rw [h.pnum, hi2]
    unfold Crw.diff
    by_cases h0 : k % w = 0
    · rw [if_pos h0, if_pos h0, if_pos (show k % w < 2 by omega)]
      split <;> omega
    · rw [if_neg h0, if_neg h0]
      have hb := (h.bases h0).2
      unfold St.bs at hb
      rw [hb]
      by_cases h1 : k % w = 1
      · rw [if_pos h1, if_pos (show k % w < 2 by omega)]; omega
      · rw [if_neg h1, if_neg (show ¬ k % w < 2 by omega)]; omega
  unfold savePixel
  rw [if_neg (by omega)]
  simp only
  rw [idx, hd, ok_bind, hv, chkI32, if_pos (by omega), ok_bind, ← hkd, upd_lt _ _ _ (by rw [h.len]; exact hk), ok_bind]
  refine ⟨_, rfl, ⟨?_, ?_, ?_, ?_⟩, rfl, rfl⟩
  · simp only; rw [h.pnum]
  · simp only; rw [List.length_set, h.len]
  · intro j hj
    simp only
    have ha : asU16 (x k : Int) = x k := by unfold asU16; omega
    rw [ha]
    by_cases hjk : j = k
    · rw [hjk, List.getElem?_set_self (by rw [h.len]; exact hk)]
    · rw [List.getElem?_set_ne (by omega), h.done j (by omega)]
  · intro hne
    have hs := mod_step w k hw hne
    have e1 : (k + 1 + 1) % 2 = k % 2 := by omega
    simp only [St.bs]
    rw [e1, h.pnum, hi2, hs, show k + 1 - 1 = k by omega, show k + 1 - 2 = k - 1 by omega]
    by_cases h0 : k % w = 0
    · rw [if_pos (show k % w + 1 = 1 by omega)]
      rcases Nat.mod_two_eq_zero_or_one k with h2 | h2
      · rw [if_pos h2, if_pos h2, if_neg (show ¬ (k + 1) % 2 = 0 by omega), if_pos h2, if_pos h0]
        exact ⟨rfl, rfl⟩
      · rw [if_neg (show ¬ k % 2 = 0 by omega), if_neg (show ¬ k % 2 = 0 by omega), if_pos (show (k + 1) % 2 = 0 by omega),
          if_neg (show ¬ k % 2 = 0 by omega), if_pos h0]
        exact ⟨rfl, rfl⟩
    · rw [if_neg (show ¬ k % w + 1 = 1 by omega)]
      have hb := (h.bases h0).1
      unfold St.bs at hb
      rcases Nat.mod_two_eq_zero_or_one k with h2 | h2
      · rw [if_neg (show ¬ (k + 1) % 2 = 0 by omega)] at hb
        rw [if_pos h2, if_pos h2, if_neg (show ¬ (k + 1) % 2 = 0 by omega), if_pos h2, if_neg h0]
        exact ⟨rfl, hb⟩
      · rw [if_pos (show (k + 1) % 2 = 0 by omega)] at hb
        rw [if_neg (show ¬ k % 2 = 0 by omega), if_neg (show ¬ k % 2 = 0 by omega), if_pos (show (k + 1) % 2 = 0 by omega),
          if_neg (show ¬ k % 2 = 0 by omega), if_neg h0]
        exact ⟨rfl, hb⟩

/-- Tables that read the codes of number `n`. -/
structure Tabs (n : Nat) (t0 t1 : HuffTable) : Prop where
  r0 : Reads (Crw.firstTable n) t0
  f0 : ∀ k, k < 12 → k ∈ (Crw.firstTable n).vals
  r1 : Reads (Crw.otherTable n) t1
  f1 : Full (Crw.otherTable n)

theorem cat_le {d : Int} {n : Nat} (h : d.natAbs < 2 ^ n) : catOf d ≤ n := by
  unfold catOf
  split
  · omega
  · have := (Nat.log2_lt (by omega)).2 h
    omega

theorem diff_bound {w N k : Nat} {x : Nat → Nat} (hx : ∀ k, k < N → x k < 1024) (hk : k < N) : (Crw.diff w x k).natAbs < 1024 := by
  have h1 := hx k hk
  have h2 := hx (k - 2) (by omega)
  unfold Crw.diff
  split <;> omega

/-- First differences of the block before. -/
def carryOf (w : Nat) (x : Nat → Nat) (b : Nat) : Int := if b = 0 then 0 else Crw.diff w x (64 * (b - 1))

theorem block_ok {n w N : Nat} {x : Nat → Nat} {t0 t1 : HuffTable} (hT : Tabs n t0 t1) (hw : 0 < w) (hx : ∀ k, k < N → x k < 1024) {b : Nat} {st : St}
    (hb : 64 * (b + 1) ≤ N) (h : Pix w N x (64 * b) st) (hc : st.carry = carryOf w x b) (rest : List Bool)
    (hr : st.p.Rep (Crw.blockBits n (Crw.diff w x (64 * b) - carryOf w x b) ((List.range 63).map fun i => Crw.diff w x (64 * b + 1 + i)) ++ rest)) :
    ∃ st', block t0 t1 w b st = .ok st' ∧ (Pix w N x (64 * (b + 1)) st' ∧ st'.carry = carryOf w x (b + 1)) ∧ st'.p.Rep rest := by
  have hd0 := diff_bound (w := w) hx (show 64 * b < N by omega)
  have hcb : (carryOf w x b).natAbs < 1024 := by
    unfold carryOf
    split
    · omega
    · exact diff_bound hx (by omega)
  obtain ⟨p', e, r⟩ := blockLoop_ok hT.r0 hT.f0 hT.r1 hT.f1 _ _ (cat_le (n := 11) (by omega)) (by
    intro d hd
    obtain ⟨i, hi, rfl⟩ := List.mem_map.1 hd
    rw [List.mem_range] at hi
    exact cat_le (n := 10) (diff_bound hx (by omega))) (by simp) st.p rest hr
  unfold block
  rw [e, ok_bind]
  simp only [idx, List.getElem?_cons_zero, ok_bind]
  rw [hc, show Crw.diff w x (64 * b) - carryOf w x b + carryOf w x b = Crw.diff w x (64 * b) by omega, chkI32, if_pos (by omega), ok_bind, List.set_cons_zero]
  have hdiffs : ∀ i, i < 64 → (Crw.diff w x (64 * b) :: (List.range 63).map fun i => Crw.diff w x (64 * b + 1 + i))[i]? = some (Crw.diff w x (64 * b + i)) := by
    intro i hi
    cases i with
    | zero => rfl
    | succ i =>
      rw [List.getElem?_cons_succ, List.getElem?_map, List.getElem?_range (by omega), Option.map_some]
      congr 2
      omega
  obtain ⟨st', e', i', p1, c1⟩ := forN_inv 64 (fun i st => savePixel w (Crw.diff w x (64 * b) :: (List.range 63).map fun i => Crw.diff w x (64 * b + 1 + i)) b i st)
    (fun i s => Pix w N x (64 * b + i) s ∧ s.p = p' ∧ s.carry = Crw.diff w x (64 * b)) { st with p := p', carry := Crw.diff w x (64 * b) }
    ⟨⟨h.pnum, h.len, h.done, h.bases⟩, rfl, rfl⟩ (by
      rintro i s hi ⟨hs, hp, hcr⟩
      obtain ⟨s', e1, e2, e3, e4⟩ := savePixel_ok hw (fun k hk => by have := hx k hk; omega) (show 64 * b + i < N by omega) hs (hdiffs i hi)
      exact ⟨s', e1, e2, by rw [e3, hp], by rw [e4, hcr]⟩)
  refine ⟨st', e', ⟨?_, ?_⟩, ?_⟩
  · rwa [show 64 * (b + 1) = 64 * b + 64 by omega]
  · rw [c1, carryOf, if_neg (by omega), Nat.add_sub_cancel]
  · rw [p1]; exact r

/-! ## Low bits -/

theorem withLow_ok (w v c j : Nat) (hv : v < 4096) (hc : (c >>> (2 * j)) &&& 0x03 = v % 4) : withLow w (v / 4) c j = Crw.adjusted w v := by
  unfold withLow Crw.adjusted
  have : ((v / 4) <<< 2) % 65536 ||| ((c >>> (2 * j)) &&& 0x03) = v := by
    rw [hc, Nat.mod_eq_of_lt (by rw [Nat.shiftLeft_eq]; omega), ← Nat.shiftLeft_add_eq_or_of_lt (by omega), Nat.shiftLeft_eq]
    omega
  rw [this]

theorem lowFour_ok {w N : Nat} {x : Nat → Nat} (hx : ∀ k, k < N → x k < 4096) {file : List Nat} {i : Nat} {out : List Nat} (hi : 4 * (i + 1) ≤ N)
    (hf : file[26 + i]? = some (x (4 * i) % 4 + 4 * (x (4 * i + 1) % 4) + 16 * (x (4 * i + 2) % 4) + 64 * (x (4 * i + 3) % 4)))
    (hl : out.length = N) (h : ∀ k, k < N → out[k]? = some (if k < 4 * i then Crw.adjusted w (x k) else x k / 4)) :
    ∃ out', lowFour file w i out = .ok out' ∧ out'.length = N ∧ ∀ k, k < N → out'[k]? = some (if k < 4 * (i + 1) then Crw.adjusted w (x k) else x k / 4) := by
  unfold lowFour
  rw [idx, hf, ok_bind]
  obtain ⟨out', e, l', h'⟩ := forN_inv 4 (fun j out => do
      let o ← idx out (4 * i + j)
      upd out (4 * i + j) (withLow w o (x (4 * i) % 4 + 4 * (x (4 * i + 1) % 4) + 16 * (x (4 * i + 2) % 4) + 64 * (x (4 * i + 3) % 4)) j))
    (fun j out => out.length = N ∧ ∀ k, k < N → out[k]? = some (if k < 4 * i + j then Crw.adjusted w (x k) else x k / 4)) out ⟨hl, h⟩ (by
      rintro j s hj ⟨hl, hs⟩
      have hk : 4 * i + j < N := by omega
      rw [idx, hs _ hk, if_neg (by omega), ok_bind, withLow_ok w _ _ j (hx _ hk), upd_lt _ _ _ (by rw [hl]; exact hk)]
      · refine ⟨_, rfl, by rw [List.length_set, hl], fun k hk' => ?_⟩
        by_cases hkk : k = 4 * i + j
        · rw [hkk, List.getElem?_set_self (by rw [hl]; exact hk), if_pos (by omega)]
        · rw [List.getElem?_set_ne (by omega), hs k hk']
          by_cases hlt : k < 4 * i + j
          · rw [if_pos hlt, if_pos (by omega)]
          · rw [if_neg hlt, if_neg (by omega)]
      · have hand : ∀ y, y &&& 0x03 = y % 4 := fun y => Nat.and_two_pow_sub_one_eq_mod y 2
        rw [hand, Nat.shiftRight_eq_div_pow]
        have hj4 : j = 0 ∨ j = 1 ∨ j = 2 ∨ j = 3 := by omega
        rcases hj4 with rfl | rfl | rfl | rfl
        · simp only [Nat.mul_zero, Nat.pow_zero, Nat.add_zero]; omega
        · simp only [Nat.mul_one]; omega
        · simp only [Nat.reduceMul, Nat.reducePow]; omega
        · simp only [Nat.reduceMul, Nat.reducePow]; omega)
  exact ⟨out', e, l', h'⟩

/-! ## Files -/

theorem tables_ok (n : Nat) (hn : n < 3) :
    ∃ f s t0 t1, idx firstTree n = .ok f ∧ idx secondTree n = .ok s ∧ createTable f = .ok t0 ∧ createTable s = .ok t1 ∧ Tabs n t0 t1 := by
  have h1 : ∀ n, n < 3 → (∃ e, idx firstTree n = .ok ((Crw.firstTable n).counts ++ ((Crw.firstTable n).vals ++ e)) ∧ (Crw.firstTable n).vals.length + e.length ≤ 256) ∧
      ∃ e, idx secondTree n = .ok ((Crw.otherTable n).counts ++ ((Crw.otherTable n).vals ++ e)) ∧ (Crw.otherTable n).vals.length + e.length ≤ 256 := by
    intro n hn
    have : n = 0 ∨ n = 1 ∨ n = 2 := by omega
    rcases this with rfl | rfl | rfl
    · exact ⟨⟨[], by decide, by decide⟩, ⟨[255, 255], by decide +kernel, by decide +kernel⟩⟩
    · exact ⟨⟨[], by decide, by decide⟩, ⟨[255, 255], by decide +kernel, by decide +kernel⟩⟩
    · exact ⟨⟨[], by decide, by decide⟩, ⟨[255, 255], by decide +kernel, by decide +kernel⟩⟩
  have h2 : ∀ n, n < 3 → ((Crw.firstTable n).counts.length = 16 ∧ (Crw.firstTable n).counts.sum = (Crw.firstTable n).vals.length ∧
      hpos 16 (lensOf 0 (Crw.firstTable n).counts) ≤ 2 ^ 16 ∧ (∀ v ∈ (Crw.firstTable n).vals, v < 256) ∧ ∀ k, k < 12 → k ∈ (Crw.firstTable n).vals) ∧
      ((Crw.otherTable n).counts.length = 16 ∧ (Crw.otherTable n).counts.sum = (Crw.otherTable n).vals.length ∧
      hpos 16 (lensOf 0 (Crw.otherTable n).counts) ≤ 2 ^ 16 ∧ (∀ v ∈ (Crw.otherTable n).vals, v < 256) ∧ Full (Crw.otherTable n)) := by
    decide +kernel
  obtain ⟨⟨e0, a1, a2⟩, ⟨e1, b1, b2⟩⟩ := h1 n hn
  obtain ⟨⟨c1, c2, c3, c4, c5⟩, ⟨d1, d2, d3, d4, d5⟩⟩ := h2 n hn
  obtain ⟨t0, g1, g2⟩ := createTable_ok (Crw.firstTable n) e0 c1 c2 a2 c3 c4
  obtain ⟨t1, g3, g4⟩ := createTable_ok (Crw.otherTable n) e1 d1 d2 b2 d3 d4
  exact ⟨_, _, t0, t1, a1, b1, g1, g3, g2, c5, g4, d5⟩

theorem blocks_ok {n w h : Nat} {x : Nat → Nat} {t0 t1 : HuffTable} (hT : Tabs n t0 t1) (hw : 0 < w) (hx : ∀ k, k < w * h → x k < 1024) (h64 : w * h % 64 = 0)
    (p : PumpJPEG) (rest : List Bool) (hr : p.Rep (Crw.scan n w h x ++ rest)) :
    ∃ st, forN ((List.replicate (w * h) 0).length / 64) (fun b st => block t0 t1 w b st) ⟨p, 0, 0, 0, 0, List.replicate (w * h) 0⟩ = .ok st ∧
      st.out.length = w * h ∧ ∀ k, k < w * h → st.out[k]? = some (x k) := by
  rw [List.length_replicate]
  obtain ⟨st, e, i, _⟩ := forN_read (fun b st => block t0 t1 w b st)
    (fun b => Crw.blockBits n (Crw.diff w x (64 * b) - (if b = 0 then 0 else Crw.diff w x (64 * (b - 1)))) ((List.range 63).map fun i => Crw.diff w x (64 * b + 1 + i)))
    (fun b st => Pix w (w * h) x (64 * b) st ∧ st.carry = carryOf w x b) (fun st l => st.p.Rep l) (w * h / 64) (by
      rintro b st rest hb ⟨i1, i2⟩ hr
      exact block_ok hT hw hx (by omega) i1 i2 rest hr) ⟨p, 0, 0, 0, 0, List.replicate (w * h) 0⟩ rest
    ⟨⟨rfl, by simp, by intro j hj; omega, by intro h0; simp at h0⟩, rfl⟩ hr
  refine ⟨st, e, i.1.len, fun k hk => i.1.done k (by omega)⟩

/-- The whole file. -/
theorem doDecode_ok (file : List Nat) (low : Bool) (n w h : Nat) (x : Nat → Nat) (hn : n < 3) (hw : 0 < w) (h64 : w * h % 64 = 0)
    (hx : ∀ k, k < w * h → x k < if low then 4096 else 1024)
    (hlow : low = true → ∀ i, i < w * h / 4 → file[26 + i]? = some (x (4 * i) % 4 + 4 * (x (4 * i + 1) % 4) + 16 * (x (4 * i + 2) % 4) + 64 * (x (4 * i + 3) % 4)))
    (hlen : 540 + (if low then w * h / 4 else 0) ≤ file.length) (rest : List Bool)
    (hr : (PumpJPEG.new (file.drop (540 + if low then w * h / 4 else 0))).Rep (Crw.scan n w h (fun k => if low then x k / 4 else x k) ++ rest)) :
    ∃ out, doDecode file low n w h = .ok out ∧ out.length = w * h ∧ ∀ k, k < w * h → out[k]? = some (if low then Crw.adjusted w (x k) else x k) := by
  obtain ⟨f, s, t0, t1, a1, a2, a3, a4, hT⟩ := tables_ok n hn
  have hoff : 540 + (if low then 1 else 0) * h * w / 4 = 540 + if low then w * h / 4 else 0 := by
    cases low
    · simp
    · simp [Nat.mul_comm]
  unfold doDecode
  rw [a1, ok_bind, a2, ok_bind, a3, ok_bind, a4, ok_bind]
  simp only
  rw [hoff, if_neg (by omega)]
  obtain ⟨st, e, l, hs⟩ := blocks_ok hT hw (by
    intro k hk
    have := hx k hk
    cases low
    · simpa using this
    · simp only [if_true] at this ⊢; omega) h64 _ rest hr
  rw [e, ok_bind]
  cases low with
  | false => exact ⟨st.out, rfl, l, by simpa using hs⟩
  | true =>
    simp only [if_true] at hs hx ⊢
    rw [l]
    obtain ⟨out, e2, l2, h2⟩ := forN_inv (w * h / 4) (fun i out => lowFour file w i out)
      (fun i out => out.length = w * h ∧ ∀ k, k < w * h → out[k]? = some (if k < 4 * i then Crw.adjusted w (x k) else x k / 4)) st.out
      ⟨l, by intro k hk; rw [if_neg (by omega)]; exact hs k hk⟩ (by
        rintro i s hi ⟨l1, h1⟩
        exact lowFour_ok hx (by omega) (hlow rfl i hi) l1 h1)
    exact ⟨out, e2, l2, fun k hk => by rw [h2 k hk, if_pos (by omega)]⟩

end Verif.Crw
