import Verif.Model.CrxQuant
import Verif.Spec.CrxQuant
import Verif.Proofs.CrxNoRef
import Verif.Proofs.CrxBytes
import Verif.Proofs.Grid

namespace Verif.Crx

open CrxSpec

theorem riceQp_ok (k n : Nat) (r : List Bool) (hk : k ≤ 7) (hn : n < 256) : riceQp k (qpCode k n ++ r) = .ok (n, r) := by
  unfold qpCode
  by_cases h : n / 2 ^ k < 23
  · rw [if_pos h, List.append_assoc, List.cons_append, riceQp, unary_replicate]
    simp only [bind, Except.bind]
    rw [if_neg (show ¬ 23 ≤ n / 2 ^ k by omega)]
    by_cases h0 : 0 < k
    · rw [if_pos h0, assert', if_pos (by simp; omega)]
      dsimp only
      rw [getBits_ok _ _ _ (by omega)]
      dsimp only
      have e : (n / 2 ^ k) <<< k = n / 2 ^ k * 2 ^ k := Nat.shiftLeft_eq _ _
      have hl : n / 2 ^ k * 2 ^ k ≤ n := Nat.div_mul_le_self n (2 ^ k)
      have hlt : n % 2 ^ k < 2 ^ k := Nat.mod_lt _ (Nat.two_pow_pos k)
      rw [Nat.mod_eq_of_lt (by rw [e]; omega), ← Nat.shiftLeft_add_eq_or_of_lt hlt, e,
        Nat.mul_comm, Nat.div_add_mod]
    · have : k = 0 := by omega
      subst this
      simp [bitsMSB]
  · rw [if_neg h, List.append_assoc, List.cons_append, riceQp, unary_replicate]
    simp only [bind, Except.bind]
    rw [if_pos (show 23 ≤ 23 by omega), getBits_ok 8 _ _ (by omega), Nat.mod_eq_of_lt hn]

theorem predictK_7 (k n : Nat) (hk : k < 32) : predictK k n 7 = .ok (adapt7 k n) := by
  have h := predictK_adapt k n hk
  unfold predictK at h ⊢
  unfold adapt7
  cases ha : assert' (decide (k < 32)) with
  | error e => rw [ha] at h; simp [bind, Except.bind] at h
  | ok u =>
    rw [ha] at h
    simp only [bind, Except.bind] at h ⊢
    revert h
    generalize usub _ _ = m
    intro h
    cases m with
    | error e => simp at h
    | ok v =>
      simp only [Except.ok.injEq, Nat.lt_irrefl, if_false] at h
      simp [h]

theorem predictQp_ok (a b c : Int) (h : ∀ x ∈ [a, b, c], -64 ≤ x ∧ x < 64) : predictQp a b (b - c) (c - a) = .ok (median a b c) := by
  have ha := h a (by simp)
  have hb := h b (by simp)
  have hc := h c (by simp)
  unfold predictQp median
  have e : i32 (a + (b - c)) = .ok (a + (b - c)) := i32_ok _ (by omega) (by omega)
  rw [e]
  by_cases h1 : c - a < 0 <;> by_cases h2 : b - c < 0 <;> by_cases h3 : a < b <;>
    simp only [h1, h2, h3, decide_true, decide_false, Bool.xor_true, Bool.xor_false, Bool.not_true, Bool.not_false, Bool.false_eq_true, if_true, if_false,
      Except.ok.injEq] <;> omega

/-- The values that are coded -/
def QpV (v : Int) : Prop := -64 ≤ v ∧ v < 64

theorem zigzag_qp (v x : Int) (hv : QpV v) (hx : QpV x) : zigzag (v - x) < 256 := by
  unfold QpV at *
  unfold zigzag
  split <;> omega

theorem median_qp (a b c : Int) (ha : QpV a) (hb : QpV b) : QpV (median a b c) := by
  unfold QpV median at *
  omega

theorem drop_cons_get {α : Type} (l : List α) (j : Nat) (h : j < l.length) : l.drop j = l[j] :: l.drop (j + 1) := List.drop_eq_getElem_cons h

/-- A row that is filled up to column `j` -/
def filled (border : Int) (row junk : List Int) (j : Nat) : List Int := border :: row.take j ++ junk.drop j

theorem filled_put (border : Int) (row junk : List Int) (j : Nat) (hj : j < row.length) (hl : row.length < junk.length) :
    upd (filled border row junk j) (j + 1) row[j] = .ok (filled border row junk (j + 1)) := by
  unfold filled
  rw [upd_lt _ _ _ (by simp; omega)]
  congr 1
  simp only [List.cons_append, List.set_cons_succ]
  rw [List.set_append_right _ _ (by simp; omega), drop_cons_get junk j (by omega)]
  simp only [List.length_take]
  rw [show j - min j row.length = 0 by omega, List.set_cons_zero]
  have : row.take (j + 1) = row.take j ++ [row[j]] := by rw [List.take_add_one, List.getElem?_eq_getElem hj]; rfl
  rw [this, List.append_assoc]
  rfl

/-- Sample `j` of a border and a row -/
def atB (border : Int) (row : List Int) (i : Nat) : Int := if i = 0 then border else row.getD (i - 1) 0

theorem filled_idx (border : Int) (row junk : List Int) (j i : Nat) (hj : j ≤ row.length) (hi : i ≤ j) :
    idx (filled border row junk j) i = .ok (atB border row i) := by
  unfold filled
  rw [idx_lt _ _ (by simp; omega)]
  congr 1
  cases i with
  | zero => simp [atB]
  | succ i =>
    simp only [List.cons_append, List.getElem_cons_succ, atB, if_neg (Nat.succ_ne_zero i), Nat.add_sub_cancel]
    rw [List.getElem_append_left (by simp; omega)]
    simp [List.getD_eq_getElem?_getD, List.getElem?_eq_getElem (show i < row.length by omega)]

theorem atB_qp (border : Int) (row : List Int) (hb : QpV border) (hr : ∀ v ∈ row, QpV v) (i : Nat) : QpV (atB border row i) := by
  unfold atB
  split
  · exact hb
  · rw [List.getD_eq_getElem?_getD]
    cases h : row[i - 1]? with
    | none => simp [QpV]
    | some v => exact hr v (List.mem_of_getElem? h)

theorem atB_succ (border : Int) (row : List Int) (j : Nat) (h : j < row.length) : atB border row (j + 1) = row[j] := by
  simp [atB, List.getD_eq_getElem?_getD, List.getElem?_eq_getElem h]

/-- The first row -/
theorem qpTop_row (row junk : List Int) (hr : ∀ v ∈ row, QpV v) (hl : row.length < junk.length) (k : Nat) (hk : k ≤ 7) (line0 : List Int) (rest : List Bool) :
    forN row.length qpTop { k, bits := (encQpTop 0 row k).1 ++ rest, line0, line1 := filled 0 row junk 0 } =
      .ok { k := (encQpTop 0 row k).2, bits := rest, line0, line1 := filled 0 row junk row.length } ∧ (encQpTop 0 row k).2 ≤ 7 := by
  obtain ⟨s, h1, h2, h3, h4, h5, h6⟩ := forN_inv row.length qpTop (fun j s => s.line0 = line0 ∧ s.line1 = filled 0 row junk j ∧ s.k ≤ 7 ∧
      s.bits = (encQpTop (atB 0 row j) (row.drop j) s.k).1 ++ rest ∧ (encQpTop (atB 0 row j) (row.drop j) s.k).2 = (encQpTop 0 row k).2)
    { k, bits := (encQpTop 0 row k).1 ++ rest, line0, line1 := filled 0 row junk 0 } ⟨rfl, rfl, hk, rfl, rfl⟩ (by
      rintro j s hj ⟨i1, i2, i3, i4, i5⟩
      have hx := atB_qp 0 row (by simp [QpV]) hr j
      have hv := hr row[j] (List.getElem_mem hj)
      have hz := zigzag_qp _ _ hv hx
      rw [drop_cons_get row j hj, encQpTop] at i4 i5
      dsimp only at i4 i5
      rw [List.append_assoc] at i4
      refine ⟨⟨adapt7 s.k (zigzag (row[j] - atB 0 row j)), (encQpTop row[j] (row.drop (j + 1)) (adapt7 s.k (zigzag (row[j] - atB 0 row j)))).1 ++ rest,
        line0, filled 0 row junk (j + 1)⟩, ?_, rfl, rfl, by unfold adapt7; exact Nat.min_le_right _ _, by rw [atB_succ _ _ _ hj], by rw [atB_succ _ _ _ hj]; exact i5⟩
      unfold qpTop
      rw [i2, filled_idx _ _ _ _ _ (by omega) (Nat.le_refl _), i4]
      simp only [bind, Except.bind]
      rw [riceQp_ok _ _ _ i3 hz]
      simp only
      rw [predictK_7 _ _ (by omega)]
      simp only
      rw [errSigned_zigzag, show atB 0 row j + (row[j] - atB 0 row j) = row[j] by omega,
        i32_ok row[j] (by unfold QpV at hv; omega) (by unfold QpV at hv; omega)]
      simp only
      rw [filled_put _ _ _ _ hj hl, i1])
  rw [List.drop_length] at h5 h6
  simp only [encQpTop, List.nil_append] at h5 h6
  refine ⟨?_, by rw [← h6]; exact h4⟩
  rw [h1, ← h6, ← h5, ← h2, ← h3]

/-- Any other row -/
theorem qpStep_row (corner : Int) (above row junk e : List Int) (hc : QpV corner) (ha : ∀ v ∈ above, QpV v) (hr : ∀ v ∈ row, QpV v)
    (hal : above.length = row.length) (he : e ≠ [])
    (hl : row.length < junk.length) (k : Nat) (hk : k ≤ 7) (rest : List Bool) :
    let up := fun i => if i = 0 then corner else above.getD (i - 1) 0
    let left := above.headD 0
    let enc := encQpRow up 0 left row k
    ∃ dh, forN row.length (qpStep row.length) (left - corner, { k, bits := enc.1 ++ rest, line0 := corner :: above ++ e, line1 := filled left row junk 0 }) =
      .ok (dh, { k := enc.2, bits := rest, line0 := corner :: above ++ e, line1 := filled left row junk row.length }) ∧ enc.2 ≤ 7 := by
  intro up left enc
  have hleft : QpV left := by
    show QpV (above.headD 0)
    cases above with
    | nil => simp [QpV]
    | cons a l => exact ha a (by simp)
  have hup : ∀ i, up i = atB corner above i := fun i => rfl
  have hup1 : up 1 = left := by
    show (if 1 = 0 then corner else above.getD (1 - 1) 0) = above.headD 0
    rw [if_neg (by omega)]
    cases above <;> rfl
  have hidx : ∀ i, i ≤ row.length → idx (corner :: above ++ e) i = .ok (up i) := by
    intro i hi
    rw [idx_lt _ _ (by simp; omega)]
    congr 1
    cases i with
    | zero => rfl
    | succ i =>
      rw [hup, atB_succ _ _ _ (by omega)]
      simp only [List.cons_append, List.getElem_cons_succ]
      rw [List.getElem_append_left (by omega)]
  obtain ⟨s, h1, h0, h2, h3, h4, h5, h6⟩ := forN_inv row.length (qpStep row.length) (fun j s => (j < row.length → s.1 = up (j + 1) - up j) ∧
      s.2.line0 = corner :: above ++ e ∧ s.2.line1 = filled left row junk j ∧ s.2.k ≤ 7 ∧
      s.2.bits = (encQpRow up j (atB left row j) (row.drop j) s.2.k).1 ++ rest ∧ (encQpRow up j (atB left row j) (row.drop j) s.2.k).2 = enc.2)
    (left - corner, { k, bits := enc.1 ++ rest, line0 := corner :: above ++ e, line1 := filled left row junk 0 })
    ⟨fun _ => by rw [Nat.zero_add, hup1]; rfl, rfl, rfl, hk, rfl, rfl⟩ (by
      rintro j s hj ⟨i0, i1, i2, i3, i4, i5⟩
      have hx := atB_qp left row hleft hr j
      have hv := hr row[j] (List.getElem_mem hj)
      have hb := atB_qp corner above hc ha (j + 1)
      have hcc := atB_qp corner above hc ha j
      have hd := atB_qp corner above hc ha (j + 2)
      rw [← hup] at hb hcc hd
      have hm := median_qp _ _ (up j) hx hb
      have hz := zigzag_qp _ _ hv hm
      rw [drop_cons_get row j hj, encQpRow] at i4 i5
      dsimp only at i4 i5
      rw [List.append_assoc] at i4
      generalize hn : zigzag (row[j] - median (atB left row j) (up (j + 1)) (up j)) = n at i4 i5 hz
      have hlast : (row.drop (j + 1) = []) ↔ j + 1 = row.length := by
        rw [List.drop_eq_nil_iff]; omega
      have had : ∃ dh', qpAdapt (decide (j + 1 = row.length)) s.2.k n (up (j + 1)) (if j + 1 = row.length then e.headD 0 else up (j + 2)) (up (j + 1) - up j) = .ok (dh',
          adapt7 s.2.k (if row.drop (j + 1) = [] then n else (n + 2 * (up (j + 2) - up (j + 1)).natAbs) / 2)) ∧
          (j + 1 < row.length → dh' = up (j + 1 + 1) - up (j + 1)) := by
        unfold qpAdapt
        by_cases hlst : j + 1 = row.length
        · rw [if_pos (hlast.mpr hlst), if_neg (by simp [hlst])]
          rw [predictK_7 _ _ (by omega)]
          exact ⟨_, rfl, by omega⟩
        · rw [if_neg (fun h => hlst (hlast.mp h)), if_pos (by simp [hlst]), if_neg hlst]
          unfold QpV at hb hd
          rw [i32_ok _ (by omega) (by omega)]
          simp only [bind, Except.bind]
          rw [assert', if_pos (decide_eq_true (by omega))]
          simp only
          rw [assert', if_pos (decide_eq_true (by omega))]
          simp only
          rw [predictK_7 _ _ (by omega), Nat.shiftRight_eq_div_pow]
          exact ⟨_, rfl, fun _ => rfl⟩
      obtain ⟨dh', had, hdh⟩ := had
      refine ⟨(dh', ⟨adapt7 s.2.k (if row.drop (j + 1) = [] then n else (n + 2 * (up (j + 2) - up (j + 1)).natAbs) / 2),
        (encQpRow up (j + 1) row[j] (row.drop (j + 1)) (adapt7 s.2.k (if row.drop (j + 1) = [] then n else (n + 2 * (up (j + 2) - up (j + 1)).natAbs) / 2))).1 ++ rest,
        corner :: above ++ e, filled left row junk (j + 1)⟩), ?_, hdh, rfl, rfl, by unfold adapt7; exact Nat.min_le_right _ _,
        by rw [atB_succ _ _ _ hj], by rw [atB_succ _ _ _ hj]; exact i5⟩
      unfold qpStep
      have hidx2 : idx (corner :: above ++ e) (j + 2) = .ok (if j + 1 = row.length then e.headD 0 else up (j + 2)) := by
        split
        · next h =>
          cases e with
          | nil => exact absurd rfl he
          | cons a e =>
            rw [idx_lt _ _ (by simp; omega)]
            congr 1
            simp only [List.cons_append, List.getElem_cons_succ]
            rw [List.getElem_append_right (by omega)]
            simp [hal, ← h]
        · exact hidx _ (by omega)
      rw [i1, i2, filled_idx _ _ _ _ _ (by omega) (Nat.le_refl _), hidx _ (by omega), hidx _ (by omega), hidx2, i0 hj]
      simp only [bind, Except.bind]
      rw [i32_ok _ (by unfold QpV at *; omega) (by unfold QpV at *; omega)]
      simp only
      rw [predictQp_ok _ _ _ (by
        intro x hx'
        simp only [List.mem_cons, List.not_mem_nil, or_false] at hx'
        rcases hx' with h | h | h <;> rw [h] <;> assumption)]
      simp only
      rw [i4, riceQp_ok _ _ _ i3 hz]
      simp only
      rw [← hn, errSigned_zigzag, hn, show ∀ m : Int, m + (row[j] - m) = row[j] from fun m => by omega,
        i32_ok row[j] (by unfold QpV at hv; omega) (by unfold QpV at hv; omega)]
      simp only
      rw [filled_put _ _ _ _ hj hl]
      simp only
      rw [had]
      simp only [i1])
  rw [List.drop_length] at h5 h6
  simp only [encQpRow, List.nil_append] at h5 h6
  refine ⟨s.1, ?_, by rw [← h6]; exact h4⟩
  rw [h1, ← h6, ← h5, ← h2, ← h3]

theorem filled_end (border : Int) (row junk : List Int) (hl : junk.length = row.length + 1) :
    ∃ j, filled border row junk row.length = border :: row ++ [j] := by
  obtain ⟨j, hj⟩ := drop_len_one junk row.length hl.symm
  exact ⟨j, by rw [filled, hj, List.take_length]⟩

theorem qpClose_ok (border : Int) (row : List Int) (j : Int) (hb : QpV border) (hr : ∀ v ∈ row, QpV v) (s : QpState)
    (h : s.line1 = border :: row ++ [j]) : ∃ e, qpClose row.length s = .ok { s with line1 := border :: row ++ [e] } := by
  have ha := atB_qp border row hb hr row.length
  have e1 : idx s.line1 row.length = .ok (atB border row row.length) := by
    have := filled_idx border row [] row.length row.length (Nat.le_refl _) (Nat.le_refl _)
    rw [h, idx_lt _ _ (by simp; omega)]
    rw [filled, idx_lt _ _ (by simp)] at this
    simp only [List.take_length, List.drop_nil, List.append_nil] at this
    rw [← this]
    congr 1
    rw [List.getElem_append_left (by simp)]
  refine ⟨atB border row row.length + 1, ?_⟩
  unfold qpClose
  rw [e1]
  simp only [bind, Except.bind]
  rw [i32_ok _ (by unfold QpV at ha; omega) (by unfold QpV at ha; omega)]
  simp only
  rw [h, upd_lt _ _ _ (by simp)]
  simp

theorem qpOut_ok (border : Int) (row e : List Int) (hr : ∀ v ∈ row, QpV v) (s : QpState) (h : s.line1 = border :: row ++ e) :
    qpOut row.length s = .ok (row.map (· + 4)) := by
  unfold qpOut
  rw [mapM_ok_of _ (fun c => row.getD c 0 + 4) (List.range row.length) (by
    intro c hc
    have hc := List.mem_range.mp hc
    have hv := hr row[c] (List.getElem_mem hc)
    have : idx s.line1 (c + 1) = .ok row[c] := by
      rw [h, idx_lt _ _ (by simp; omega)]
      congr 1
      simp only [List.cons_append, List.getElem_cons_succ]
      rw [List.getElem_append_left hc]
    rw [this]
    simp only [bind, Except.bind]
    rw [i32_ok _ (by unfold QpV at hv; omega) (by unfold QpV at hv; omega)]
    simp [List.getD_eq_getElem?_getD, List.getElem?_eq_getElem hc])]
  congr 1
  apply List.ext_getElem
  · simp
  · intro i h1 h2
    simp only [List.length_map, List.length_range] at h1
    simp [List.getD_eq_getElem?_getD, List.getElem?_eq_getElem h1]

theorem qpRows_rest (n : Nat) (hn : 0 < n) : ∀ (rows : List (List Int)) (r : Nat) (corner : Int) (above : List Int) (e x : Int) (junk : List Int) (k : Nat)
    (rest : List Bool), 0 < r → (∀ row ∈ rows, row.length = n ∧ ∀ v ∈ row, QpV v) → above.length = n → QpV corner → (∀ v ∈ above, QpV v) →
    junk.length = n + 1 → k ≤ 7 →
    qpRows n rows.length r { k, bits := encQpRest corner above rows k ++ rest, line0 := corner :: above ++ [e], line1 := x :: junk } =
      .ok (rows.map (·.map (· + 4)))
  | [], _, _, _, _, _, _, _, _, _, _, _, _, _, _, _ => rfl
  | row :: rows, r, corner, above, e, x, junk, k, rest, hr0, hrows, hal, hc, hab, hj, hk => by
    have hrow := hrows row (by simp)
    have hl := hrow.1
    subst hl
    rw [encQpRest]
    obtain ⟨dh, h1, h2⟩ := qpStep_row corner above row junk [e] hc hab hrow.2 hal (by simp) (by omega) k hk
      (encQpRest (above.headD 0) row rows (encQpRow (fun i => if i = 0 then corner else above.getD (i - 1) 0) 0 (above.headD 0) row k).2 ++ rest)
    obtain ⟨j, hj'⟩ := filled_end (above.headD 0) row junk hj
    have hleft : QpV (above.headD 0) := by
      cases above with
      | nil => simp [QpV]
      | cons a l => exact hab a (by simp)
    have hb : idx (corner :: above ++ [e]) 1 = .ok (above.headD 0) := by
      cases above with
      | nil => simp at hal; omega
      | cons a l => rfl
    obtain ⟨e', hcl⟩ := qpClose_ok (above.headD 0) row j hleft hrow.2
      { k := (encQpRow (fun i => if i = 0 then corner else above.getD (i - 1) 0) 0 (above.headD 0) row k).2,
        bits := encQpRest (above.headD 0) row rows (encQpRow (fun i => if i = 0 then corner else above.getD (i - 1) 0) 0 (above.headD 0) row k).2 ++ rest,
        line0 := corner :: above ++ [e], line1 := filled (above.headD 0) row junk row.length } hj'
    rw [List.length_cons, qpRows]
    have hq : qpRow row.length r ⟨k, ((encQpRow (fun i => if i = 0 then corner else above.getD (i - 1) 0) 0 (above.headD 0) row k).1 ++
        encQpRest (above.headD 0) row rows (encQpRow (fun i => if i = 0 then corner else above.getD (i - 1) 0) 0 (above.headD 0) row k).2) ++ rest,
        corner :: above ++ [e], x :: junk⟩ =
      .ok { k := (encQpRow (fun i => if i = 0 then corner else above.getD (i - 1) 0) 0 (above.headD 0) row k).2,
            bits := encQpRest (above.headD 0) row rows (encQpRow (fun i => if i = 0 then corner else above.getD (i - 1) 0) 0 (above.headD 0) row k).2 ++ rest,
            line0 := corner :: above ++ [e], line1 := above.headD 0 :: row ++ [e'] } := by
      unfold qpRow
      rw [if_neg (by omega), hb]
      simp only [bind, Except.bind]
      rw [show upd (x :: junk) 0 (above.headD 0) = .ok (filled (above.headD 0) row junk 0) from rfl]
      simp only
      rw [show idx (corner :: above ++ [e]) 0 = .ok corner from rfl]
      simp only
      unfold QpV at hleft hc
      rw [i32_ok _ (by omega) (by omega)]
      simp only
      rw [List.append_assoc, h1]
      simp only
      rw [hcl]
    rw [hq]
    simp only [bind, Except.bind]
    rw [qpOut_ok _ row [e'] hrow.2 _ rfl]
    simp only
    rw [show corner :: above ++ [e] = corner :: (above ++ [e]) from rfl,
      qpRows_rest row.length hn rows (r + 1) (above.headD 0) row e' corner (above ++ [e]) _ rest (by omega) (fun l hl => hrows l (by simp [hl])) rfl hleft
        hrow.2 (by simp [hal]) h2]
    rfl

theorem qpRows_ok (n : Nat) (hn : 0 < n) (rows : List (List Nat)) (hr : ∀ row ∈ rows, row.length = n ∧ ∀ v ∈ row, v < 68) (rest : List Bool) :
    qpRows n rows.length 0 { k := 0, bits := encQp rows ++ rest, line0 := List.replicate (n + 2) 0, line1 := List.replicate (n + 2) 0 } =
      .ok (rows.map (·.map fun (v : Nat) => (v : Int))) := by
  cases rows with
  | nil => rfl
  | cons row0 rows0 =>
    have hv : ∀ row ∈ (row0 :: rows0).map (·.map fun (v : Nat) => (v : Int) - 4), row.length = n ∧ ∀ v ∈ row, QpV v := by
      intro row h
      rw [List.mem_map] at h
      obtain ⟨a, ha, e⟩ := h
      subst e
      have := hr a ha
      refine ⟨by simp [this.1], ?_⟩
      intro v hv
      rw [List.mem_map] at hv
      obtain ⟨b, hb, e⟩ := hv
      have := this.2 b hb
      subst e
      unfold QpV
      omega
    have hback : ((row0 :: rows0).map (·.map fun (v : Nat) => (v : Int) - 4)).map (·.map (· + 4)) = (row0 :: rows0).map (·.map fun (v : Nat) => (v : Int)) := by
      rw [List.map_map]
      apply List.map_congr_left
      intro a _
      simp [List.map_map, Function.comp_def]
    unfold encQp
    rw [← hback]
    rw [List.map_cons] at hv ⊢
    generalize row0.map (fun (v : Nat) => (v : Int) - 4) = row at hv ⊢
    have hlen : rows0.length = (rows0.map (·.map fun (v : Nat) => (v : Int) - 4)).length := by simp
    rw [List.length_cons, hlen]
    generalize rows0.map (·.map fun (v : Nat) => (v : Int) - 4) = rows at hv ⊢
    dsimp only
    have hrow := hv row (by simp)
    have hl := hrow.1
    subst hl
    obtain ⟨h1, h2⟩ := qpTop_row row (List.replicate (row.length + 1) 0) hrow.2 (by simp) 0 (by omega) (List.replicate (row.length + 2) 0)
      (encQpRest 0 row rows (encQpTop 0 row 0).2 ++ rest)
    obtain ⟨j, hj'⟩ := filled_end 0 row (List.replicate (row.length + 1) 0) (by simp)
    obtain ⟨e', hcl⟩ := qpClose_ok 0 row j (by simp [QpV]) hrow.2
      { k := (encQpTop 0 row 0).2, bits := encQpRest 0 row rows (encQpTop 0 row 0).2 ++ rest,
        line0 := List.replicate (row.length + 2) 0, line1 := filled 0 row (List.replicate (row.length + 1) 0) row.length } hj'
    have hq : qpRow row.length 0 ⟨0, ((encQpTop 0 row 0).1 ++ encQpRest 0 row rows (encQpTop 0 row 0).2) ++ rest,
        List.replicate (row.length + 2) 0, List.replicate (row.length + 2) 0⟩ =
      .ok { k := (encQpTop 0 row 0).2, bits := encQpRest 0 row rows (encQpTop 0 row 0).2 ++ rest,
            line0 := List.replicate (row.length + 2) 0, line1 := 0 :: row ++ [e'] } := by
      unfold qpRow
      rw [if_pos rfl]
      rw [show upd (List.replicate (row.length + 2) (0 : Int)) 0 0 = .ok (filled 0 row (List.replicate (row.length + 1) 0) 0) from rfl]
      simp only [bind, Except.bind]
      rw [List.append_assoc, h1]
      simp only
      rw [hcl]
    rw [qpRows, hq]
    simp only [bind, Except.bind]
    rw [qpOut_ok _ row [e'] hrow.2 _ rfl]
    simp only
    rw [show List.replicate (row.length + 2) (0 : Int) = 0 :: List.replicate (row.length + 1) 0 from rfl,
      qpRows_rest row.length hn rows (0 + 1) 0 row e' 0 (List.replicate (row.length + 1) 0) _ rest (by omega) (fun l hl => hv l (by simp [hl])) rfl (by simp [QpV])
        hrow.2 (by simp) h2]
    rfl

theorem qLookup_ok (n : Nat) (h : n < 68) : qLookup (n : Int) = .ok (qStep n) := by
  have : ∀ n : Nat, n < 68 → qLookup (n : Int) = .ok (qStep n) := by decide
  exact this n h

theorem qpAt_ok (rows : List (List Nat)) (n : Nat) (hr : ∀ row ∈ rows, row.length = n ∧ ∀ v ∈ row, v < 68) (r c : Nat) (h1 : r < rows.length) (h2 : c < n) :
    qpAt (rows.map (·.map fun (v : Nat) => (v : Int))) r c = .ok (((rows.getD r []).getD c 0 : Nat) : Int) ∧ (rows.getD r []).getD c 0 < 68 := by
  have hrow := hr rows[r] (List.getElem_mem h1)
  have e : rows.getD r [] = rows[r] := by simp [List.getD_eq_getElem?_getD, List.getElem?_eq_getElem h1]
  have hc : c < rows[r].length := by omega
  have e2 : rows[r].getD c 0 = rows[r][c] := by simp [List.getD_eq_getElem?_getD, List.getElem?_eq_getElem hc]
  rw [e, e2]
  refine ⟨?_, hrow.2 _ (List.getElem_mem hc)⟩
  unfold qpAt
  rw [idx_lt _ _ (by simpa using h1)]
  simp only [bind, Except.bind, List.getElem_map]
  rw [idx_lt _ _ (by simpa using hc)]
  simp

theorem qEntry1_ok (rows : List (List Nat)) (n : Nat) (hr : ∀ row ∈ rows, row.length = n ∧ ∀ v ∈ row, v < 68) (r c : Nat) (h1 : r < rows.length) (h2 : c < n) :
    qEntry1 (rows.map (·.map fun (v : Nat) => (v : Int))) r c = .ok (qStep (qpMean rows 1 r c)) := by
  obtain ⟨a, b⟩ := qpAt_ok rows n hr r c h1 h2
  unfold qEntry1
  rw [a]
  simp only [bind, Except.bind]
  rw [qLookup_ok _ b]
  unfold qpMean
  simp only [List.range_one, List.map_cons, List.map_nil, List.sum_cons, List.sum_nil]
  rw [show min (1 * r + 0) (rows.length - 1) = r by omega]
  simp

theorem qEntry2_ok (rows : List (List Nat)) (n : Nat) (hr : ∀ row ∈ rows, row.length = n ∧ ∀ v ∈ row, v < 68) (r c : Nat) (h1 : 0 < rows.length) (h2 : c < n) :
    qEntry2 (rows.map (·.map fun (v : Nat) => (v : Int))) rows.length r c = .ok (qStep (qpMean rows 2 r c)) := by
  obtain ⟨a1, b1⟩ := qpAt_ok rows n hr (min (2 * r) (rows.length - 1)) c (by omega) h2
  obtain ⟨a2, b2⟩ := qpAt_ok rows n hr (min (2 * r + 1) (rows.length - 1)) c (by omega) h2
  have e : qpMean rows 2 r c = ((rows.getD (min (2 * r) (rows.length - 1)) []).getD c 0 + (rows.getD (min (2 * r + 1) (rows.length - 1)) []).getD c 0) / 2 := by
    unfold qpMean
    simp [List.range_succ]
  rw [e]
  unfold qEntry2
  rw [a1, a2]
  generalize (rows.getD (min (2 * r) (rows.length - 1)) []).getD c 0 = x at *
  generalize (rows.getD (min (2 * r + 1) (rows.length - 1)) []).getD c 0 = y at *
  simp only [bind, Except.bind]
  rw [i32_ok _ (by omega) (by omega)]
  simp only
  rw [show ((x : Int) + y).tdiv 2 = (((x + y) / 2 : Nat) : Int) by
    rw [Int.tdiv_eq_ediv_of_nonneg (by omega)]; omega]
  exact qLookup_ok _ (by omega)

theorem qEntry3_ok (rows : List (List Nat)) (n : Nat) (hr : ∀ row ∈ rows, row.length = n ∧ ∀ v ∈ row, v < 68) (r c : Nat) (h1 : 0 < rows.length) (h2 : c < n) :
    qEntry3 (rows.map (·.map fun (v : Nat) => (v : Int))) rows.length r c = .ok (qStep (qpMean rows 4 r c)) := by
  obtain ⟨a1, b1⟩ := qpAt_ok rows n hr (min (4 * r) (rows.length - 1)) c (by omega) h2
  obtain ⟨a2, b2⟩ := qpAt_ok rows n hr (min (4 * r + 1) (rows.length - 1)) c (by omega) h2
  obtain ⟨a3, b3⟩ := qpAt_ok rows n hr (min (4 * r + 2) (rows.length - 1)) c (by omega) h2
  obtain ⟨a4, b4⟩ := qpAt_ok rows n hr (min (4 * r + 3) (rows.length - 1)) c (by omega) h2
  have e : qpMean rows 4 r c = ((rows.getD (min (4 * r) (rows.length - 1)) []).getD c 0 + (rows.getD (min (4 * r + 1) (rows.length - 1)) []).getD c 0 +
      (rows.getD (min (4 * r + 2) (rows.length - 1)) []).getD c 0 + (rows.getD (min (4 * r + 3) (rows.length - 1)) []).getD c 0) / 4 := by
    unfold qpMean
    simp [List.range_succ, Nat.add_assoc]
  rw [e]
  unfold qEntry3
  rw [a1, a2, a3, a4]
  generalize (rows.getD (min (4 * r) (rows.length - 1)) []).getD c 0 = x at *
  generalize (rows.getD (min (4 * r + 1) (rows.length - 1)) []).getD c 0 = y at *
  generalize (rows.getD (min (4 * r + 2) (rows.length - 1)) []).getD c 0 = z at *
  generalize (rows.getD (min (4 * r + 3) (rows.length - 1)) []).getD c 0 = w at *
  simp only [bind, Except.bind]
  rw [i32_ok _ (by omega) (by omega)]
  simp only
  rw [i32_ok _ (by omega) (by omega)]
  simp only
  rw [i32_ok _ (by omega) (by omega)]
  simp only
  rw [if_neg (by omega), show ((x : Int) + y + z + w).tdiv 4 = (((x + y + z + w) / 4 : Nat) : Int) by
    rw [Int.tdiv_eq_ediv_of_nonneg (by omega)]; omega]
  exact qLookup_ok _ (by omega)

theorem qTable_ok (w h : Nat) (f : Nat → Nat → R Nat) (g : Nat → Nat → Nat) (hf : ∀ r c, r < h → c < w → f r c = .ok (g r c)) :
    qTable w h f = .ok { tbl := ((List.range h).map fun r => (List.range w).map fun c => g r c).flatten, width := w } := by
  unfold qTable
  rw [mapM_ok_of _ (fun r => (List.range w).map fun c => g r c) (List.range h) (by
    intro r hr
    rw [mapM_ok_of _ (fun c => g r c) (List.range w) (by
      intro c hc
      exact hf r c (List.mem_range.mp hr) (List.mem_range.mp hc))])]
  rfl

theorem qLevel_ok (pw ph : Nat) (hph : 0 < ph) (rows : List (List Nat)) (hl : rows.length = (ph + 1) / 2)
    (hr : ∀ row ∈ rows, row.length = (pw + 7) / 8 ∧ ∀ v ∈ row, v < 68) (level : Nat) (h1 : 1 ≤ level) (h3 : level ≤ 3) :
    qLevel pw ph (rows.map (·.map fun (v : Nat) => (v : Int))) level =
      .ok { tbl := (qpSteps pw ph rows level).flatten, width := (pw + 7) / 8 } := by
  unfold qLevel
  have : level = 1 ∨ level = 2 ∨ level = 3 := by omega
  rcases this with h | h | h
  · subst h
    rw [if_neg (by omega), if_neg (by omega), if_pos rfl]
    exact qTable_ok _ _ _ (fun r c => qStep (qpMean rows 1 r c)) fun r c h1 h2 => qEntry1_ok rows _ hr r c (by omega) h2
  · subst h
    rw [if_neg (by omega), if_pos rfl, ← hl]
    exact qTable_ok _ _ _ (fun r c => qStep (qpMean rows 2 r c)) fun r c h1 h2 => qEntry2_ok rows _ hr r c (by omega) h2
  · subst h
    rw [if_pos rfl, ← hl]
    exact qTable_ok _ _ _ (fun r c => qStep (qpMean rows 4 r c)) fun r c h1 h2 => qEntry3_ok rows _ hr r c (by omega) h2

theorem qpTables_ok (levels pw ph : Nat) (h0 : 0 < levels) (h3 : levels ≤ 3) (hpw : 0 < pw) (hph : 0 < ph) (rows : List (List Nat))
    (hl : rows.length = (ph + 1) / 2) (hr : ∀ row ∈ rows, row.length = (pw + 7) / 8 ∧ ∀ v ∈ row, v < 68) (tail : List Nat) :
    qpTables levels pw ph (toBytes (encQp rows) ++ tail) =
      .ok ((List.range levels).map fun i => { tbl := (qpSteps pw ph rows (levels - i)).flatten, width := (pw + 7) / 8 }) := by
  obtain ⟨pad, hp, _, _⟩ := toBytes_spec _ (encQp rows) (Nat.le_refl _)
  unfold qpTables
  have hb : bytesMSB (toBytes (encQp rows) ++ tail) = encQp rows ++ (pad ++ bytesMSB tail) := by
    rw [← List.append_assoc, ← hp]
    simp [bytesMSB]
  rw [hb, ← hl]
  dsimp only
  rw [qpRows_ok _ (by omega) rows hr]
  simp only [bind, Except.bind]
  unfold makeQstep
  rw [assert', if_pos (decide_eq_true ⟨h3, h0⟩)]
  simp only [bind, Except.bind]
  exact mapM_ok_of _ _ _ fun i hi => qLevel_ok pw ph hph rows hl hr _ (by have := List.mem_range.mp hi; omega) (by omega)

end Verif.Crx
