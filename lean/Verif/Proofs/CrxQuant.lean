import Verif.Model.CrxQuant
import Verif.Spec.CrxQuant
import Verif.Proofs.CrxNoRef
import Verif.Proofs.CrxPlane

namespace Verif.Crx

open CrxSpec Wav

/-- The first `k` values are multiplied by their factors. -/
def scaled (f : Nat → Int) (line : List Int) (k : Nat) : List Int := line.mapIdx fun i v => if i < k then v * f i else v

theorem scaled_zero (f : Nat → Int) (line : List Int) : scaled f line 0 = line := by
  apply List.ext_getElem
  · simp [scaled]
  · intro i h1 h2; simp [scaled]

theorem scaled_all (f : Nat → Int) (line : List Int) : scaled f line line.length = line.mapIdx fun i v => v * f i := by
  apply List.ext_getElem
  · simp [scaled]
  · intro i h1 h2
    simp only [scaled, List.length_mapIdx] at h1
    simp [scaled, h1]

theorem scaled_length (f : Nat → Int) (line : List Int) (k : Nat) : (scaled f line k).length = line.length := by simp [scaled]

theorem scaled_set (f : Nat → Int) (line : List Int) (k : Nat) (hk : k < line.length) :
    (scaled f line k).set k (line[k] * f k) = scaled f line (k + 1) := by
  apply List.ext_getElem
  · rw [List.length_set, scaled_length, scaled_length]
  · intro i h1 h2
    rw [List.getElem_set]
    simp only [scaled, List.getElem_mapIdx]
    split
    · next e => subst e; simp
    · next e =>
      by_cases hi : i < k
      · rw [if_pos hi, if_pos (by omega)]
      · rw [if_neg hi, if_neg (by omega)]

/-- The band with a line in its buffer of which the first `k` values are scaled -/
def SB (p : Band) (left e : Int) (f : Nat → Int) (line : List Int) (k : Nat) : Band := { p with line1 := left :: scaled f line k ++ [e] }

theorem mulAt_SB (p : Band) (left e : Int) (f : Nat → Int) (line : List Int) (k : Nat) (hk : k < line.length)
    (hw : p.width = line.length) (hi : -2147483648 ≤ line[k] * f k ∧ line[k] * f k ≤ 2147483647) :
    mulAt (SB p left e f line k) k (f k) = .ok (SB p left e f line (k + 1)) := by
  have hs := scaled_length f line k
  unfold mulAt
  rw [assert', if_pos (decide_eq_true (by show k < p.width; omega))]
  simp only [bind, Except.bind]
  have e1 : idx (SB p left e f line k).line1 (1 + k) = .ok line[k] := by
    show idx (left :: scaled f line k ++ [e]) (1 + k) = _
    rw [idx_lt _ _ (by simp [hs]; omega)]
    have : (left :: scaled f line k ++ [e])[1 + k]'(by simp [hs]; omega) = (scaled f line k)[k]'(by omega) := by
      simp only [Nat.add_comm 1 k, List.cons_append, List.getElem_cons_succ]
      rw [List.getElem_append_left (by omega)]
    rw [this]
    simp [scaled]
  rw [e1]
  simp only
  rw [i32_ok _ hi.1 hi.2]
  simp only
  have e2 : upd (SB p left e f line k).line1 (1 + k) (line[k] * f k) = .ok (left :: scaled f line (k + 1) ++ [e]) := by
    show upd (left :: scaled f line k ++ [e]) (1 + k) _ = _
    rw [upd_lt _ _ _ (by simp [hs]; omega)]
    congr 1
    rw [← scaled_set f line k hk, Nat.add_comm 1 k]
    simp only [List.cons_append, List.set_cons_succ]
    rw [List.set_append_left _ _ (by omega)]
  rw [e2]
  rfl

/-- The products fit into 32 bits. -/
def FitsI32 (f : Nat → Int) (line : List Int) : Prop := ∀ k (hk : k < line.length), -2147483648 ≤ line[k] * f k ∧ line[k] * f k ≤ 2147483647

theorem mulRange_SB (p : Band) (left e : Int) (f : Nat → Int) (line : List Int) (hw : p.width = line.length) (hi : FitsI32 f line) (a n : Nat)
    (g : Nat → Band → R Band) (hg : ∀ j q, j < n → g j q = mulAt q (a + j) (f (a + j)))
    (hn : a + n ≤ line.length) : forN n g (SB p left e f line a) = .ok (SB p left e f line (a + n)) := by
  obtain ⟨s, h1, h2⟩ := forN_inv n g (fun j s => s = SB p left e f line (a + j)) (SB p left e f line a) rfl (by
    intro j s hj hs
    subst hs
    refine ⟨_, ?_, rfl⟩
    rw [hg j _ hj, mulAt_SB p left e f line (a + j) (by omega) hw (hi _ (by omega))]
    rfl)
  rw [h1, h2]

theorem qScale_ok (q : Nat) (h : q < 36) : qScale q = .ok (qStep q) := by
  have : ∀ q < 36, qScale q = .ok (qStep q) := by decide
  exact this q h

theorem qScale_large (q : Nat) (h : 36 ≤ q) (s : Nat) : qScale q ≠ .ok s := by
  rw [qScale, if_pos (by omega)]
  intro e; cases e

/-- What it means that the line `r` of a band is scaled by `f`. -/
def ScalesBy (b : BandInfo) (qs : Option QStep) (w r : Nat) (f : Nat → Int) : Prop :=
  ∀ (p : Band) (left e : Int) (line : List Int), p.width = w → line.length = w → p.curLine = r + 1 → FitsI32 f line →
    p.line1 = left :: line ++ [e] → scaleLine b qs p = .ok { p with line1 := left :: (line.mapIdx fun i v => v * f i) ++ [e] }

theorem SB_start (p : Band) (left e : Int) (f : Nat → Int) (line : List Int) (h : p.line1 = left :: line ++ [e]) : p = SB p left e f line 0 := by
  unfold SB
  rw [scaled_zero, ← h]

theorem mapIdx_one (line : List Int) : (line.mapIdx fun _ v => v * (1 : Int)) = line := by
  apply List.ext_getElem <;> simp

theorem scales_param (b : BandInfo) (r : Nat) (h : b.qParam < 36) : ScalesBy b none b.width r fun _ => qStep b.qParam := by
  intro p left e line hw hl _ hi h1
  show scaleParam b p = _
  unfold scaleParam
  rw [qScale_ok _ h]
  simp only [bind, Except.bind]
  by_cases hs : qStep b.qParam = 1
  · rw [if_neg (by simpa using hs)]
    congr 1
    simp only [hs, Int.ofNat_one]
    rw [mapIdx_one, ← h1]
  · rw [if_pos (by simpa using hs)]
    have := mulRange_SB p left e (fun _ => (qStep b.qParam : Int)) line (by omega) hi 0 b.width (fun i p => mulAt p i (qStep b.qParam : Nat))
      (fun j q _ => by rw [Nat.zero_add]) (by omega)
    rw [← SB_start _ _ _ _ _ h1] at this
    rw [this, Nat.zero_add, ← hl]
    unfold SB
    rw [scaled_all]

theorem quantVal_ok (b : BandInfo) (t : Nat) (h : t * b.multi < 4294967296)
    (h2 : -2147483648 ≤ b.base + ((t * b.multi / 8 : Nat) : Int) ∧ b.base + ((t * b.multi / 8 : Nat) : Int) ≤ 2147483647) :
    quantVal b t = .ok (bandStep b.base b.multi t) := by
  unfold quantVal
  rw [assert', if_pos (by simpa using h)]
  simp only [bind, Except.bind]
  have e : (t * b.multi) >>> 3 = t * b.multi / 8 := by rw [Nat.shiftRight_eq_div_pow]
  rw [e, i32_ok _ h2.1 h2.2]
  rfl

/-- An entry of a table can be used with a band: no overflow. -/
def EntryOK (b : BandInfo) (t : Nat) : Prop :=
  t * b.multi < 4294967296 ∧ -2147483648 ≤ b.base + ((t * b.multi / 8 : Nat) : Int) ∧ b.base + ((t * b.multi / 8 : Nat) : Int) ≤ 2147483647

theorem scaleCols_ok (b : BandInfo) (tbl : List Nat) (p : Band) (left e : Int) (f : Nat → Int) (line : List Int) (hw : p.width = line.length)
    (hi : FitsI32 f line) (col : Nat → R Nat) (a n : Nat) (hn : a + n ≤ line.length)
    (hc : ∀ i, a ≤ i → i < a + n → ∃ c t, col i = .ok c ∧ idx tbl c = .ok t ∧ EntryOK b t ∧ f i = bandStep b.base b.multi t) :
    scaleCols b tbl col a n (SB p left e f line a) = .ok (SB p left e f line (a + n)) := by
  unfold scaleCols
  refine mulRange_SB p left e f line hw hi a n _ ?_ hn
  intro j q hj
  obtain ⟨c, t, h1, h2, h3, h4⟩ := hc (a + j) (by omega) (by omega)
  rw [h1]
  simp only [bind, Except.bind]
  rw [h2]
  simp only
  rw [quantVal_ok b t h3.1 h3.2, ← h4]

/-- Line `r` of a band is scaled by row `row` of the table `steps`. -/
theorem scales_table (b : BandInfo) (q : QStep) (r row : Nat) (steps : List (List Nat))
    (htbl : q.tbl = steps.flatten) (hwid : ∀ l ∈ steps, l.length = q.width) (hrow : row < steps.length) (hr : subbandRow b r = .ok row)
    (hcs : b.colStart + b.colEnd < b.width) (hcol : (b.width - b.colEnd - b.colStart - 1) / 2 ^ b.shift < q.width)
    (hent : ∀ c < q.width, EntryOK b ((steps.getD row []).getD c 0)) :
    ScalesBy b (some q) b.width r fun i =>
      bandStep b.base b.multi ((steps.getD row []).getD (tableCol b.colStart (b.width - b.colEnd - b.colStart) b.shift i) 0) := by
  intro p left e line hw hl hc hi h1
  generalize hf : (fun i => bandStep b.base b.multi ((steps.getD row []).getD (tableCol b.colStart (b.width - b.colEnd - b.colStart) b.shift i) 0)) = f at hi ⊢
  show scaleTable b q p = _
  unfold scaleTable
  have flat : ∀ (st : List (List Nat)) (row c : Nat), (∀ l ∈ st, l.length = q.width) → row < st.length → c < q.width →
      q.width * row + c < st.flatten.length ∧ idx (st.flatten.drop (q.width * row)) c = .ok ((st.getD row []).getD c 0) := by
    intro st
    induction st with
    | nil => intro row c _ h; simp at h
    | cons l st ih =>
      intro row c hl hr hc
      have h0 := hl l (by simp)
      cases row with
      | zero =>
        refine ⟨by simp [h0]; omega, ?_⟩
        simp only [Nat.mul_zero, List.drop_zero, List.flatten_cons]
        rw [idx_lt _ _ (by simp; omega), List.getElem_append_left (by omega)]
        simp [List.getD_eq_getElem?_getD, List.getElem?_eq_getElem (show c < l.length by omega)]
      | succ row =>
        obtain ⟨i1, i2⟩ := ih row c (fun l h => hl l (by simp [h])) (by simpa using hr) hc
        refine ⟨by rw [List.flatten_cons, List.length_append, h0, Nat.mul_succ]; omega, ?_⟩
        rw [List.flatten_cons, Nat.mul_succ, Nat.add_comm, List.drop_append, h0, List.drop_eq_nil_of_le (by omega), List.nil_append, Nat.add_sub_cancel_left, i2]
        simp
  rw [show usub p.curLine 1 = .ok r by rw [hc, usub, if_pos (by omega), Nat.add_sub_cancel]]
  simp only [bind, Except.bind]
  rw [hr]
  simp only
  rw [assert', if_pos (by
    have := (flat steps row 0 hwid hrow (Nat.lt_of_le_of_lt (Nat.zero_le _) hcol)).1
    rw [htbl]
    exact decide_eq_true (by omega))]
  simp only
  have hidx : ∀ i c, c = tableCol b.colStart (b.width - b.colEnd - b.colStart) b.shift i → c < q.width →
      ∃ t, idx (q.tbl.drop (q.width * row)) c = .ok t ∧ EntryOK b t ∧ f i = bandStep b.base b.multi t := by
    intro i c hc hlt
    refine ⟨_, ?_, hent c hlt, ?_⟩
    · rw [htbl, (flat steps row c hwid hrow hlt).2]
    · rw [← hf, hc]
  have hle : ∀ i, tableCol b.colStart (b.width - b.colEnd - b.colStart) b.shift i < q.width := by
    intro i
    exact Nat.lt_of_le_of_lt (Nat.div_le_div_right (Nat.min_le_right _ _)) hcol
  have s1 := scaleCols_ok b (q.tbl.drop (q.width * row)) p left e f line (by omega) hi (fun _ => .ok 0) 0 b.colStart (by omega) (by
    intro i _ h2
    obtain ⟨t, t1, t2, t3⟩ := hidx i 0 (by unfold tableCol; rw [show i - b.colStart = 0 by omega]; simp) (Nat.lt_of_le_of_lt (Nat.zero_le _) hcol)
    exact ⟨0, t, rfl, t1, t2, t3⟩)
  rw [← SB_start _ _ _ _ _ h1] at s1
  rw [s1]
  simp only
  rw [usub, if_pos (by omega)]
  simp only
  have s2 := scaleCols_ok b (q.tbl.drop (q.width * row)) p left e f line (by omega) hi (fun i => do
    let d ← usub i b.colStart
    .ok (d >>> b.shift)) b.colStart (b.width - b.colEnd - b.colStart) (by omega) (by
    intro i h2 h3
    obtain ⟨t, t1, t2, t3⟩ := hidx i ((i - b.colStart) / 2 ^ b.shift) (by unfold tableCol; congr 1; omega)
      (Nat.lt_of_le_of_lt (Nat.div_le_div_right (by omega)) hcol)
    refine ⟨_, t, ?_, t1, t2, t3⟩
    simp only [usub, if_pos h2, bind, Except.bind]
    rw [Nat.shiftRight_eq_div_pow])
  simp only [bind, Except.bind] at s2
  rw [Nat.zero_add, s2]
  simp only
  rw [usub, if_pos (by omega)]
  simp only
  rw [usub, if_pos (by omega)]
  simp only
  have s3 := scaleCols_ok b (q.tbl.drop (q.width * row)) p left e f line (by omega) hi
    (fun _ => .ok ((b.width - b.colEnd - b.colStart - 1) >>> b.shift)) (b.width - b.colEnd) (b.width - (b.width - b.colEnd)) (by omega) (by
    intro i h2 h3
    obtain ⟨t, t1, t2, t3⟩ := hidx i ((b.width - b.colEnd - b.colStart - 1) / 2 ^ b.shift) (by unfold tableCol; congr 1; omega) hcol
    exact ⟨_, t, by rw [Nat.shiftRight_eq_div_pow], t1, t2, t3⟩)
  rw [show b.colStart + (b.width - b.colEnd - b.colStart) = b.width - b.colEnd by omega, s3,
    show b.width - b.colEnd + (b.width - (b.width - b.colEnd)) = line.length by omega]
  unfold SB
  rw [scaled_all]

end Verif.Crx
