import Verif.Model.Linearize
import Verif.Spec.Curve
import Verif.Proofs.Packed
import Verif.Props.Float
/-! # C16: dithered lookup stays near the curve -/

namespace Verif.Props
open Verif Verif.Spec Verif.Linearize

/-- `q` is a dithered value for the curve at `p`: within a quarter of the spread of the curve's value (twice that above zero). -/
def Near (table : List Nat) (p q : Nat) : Prop :=
  q < 2 ^ 16 ∧
  (at' table p = 0 → q ≤ 2 * ((spread table p + 2) / 4)) ∧
  (0 < at' table p → at' table p ≤ q + (spread table p + 2) / 4 ∧ q ≤ at' table p + (spread table p + 2) / 4)

/-- The table entry for `i`. -/
def entryAt (table : List Nat) (i : Nat) : Nat × Nat × Nat :=
  (at' table i, if at' table i = 0 then 0 else at' table i - (spread table i + 2) / 4, spread table i)

theorem at'_mem (table : List Nat) (h : table ≠ []) (i : Nat) : at' table i ∈ table := by
  have hl : 0 < table.length := List.length_pos_iff.mpr h
  rw [at', getD_lt' _ _ (by omega)]
  exact List.getElem_mem _

theorem ext_get (table : List Nat) (k last : Nat) (h : table.getLast? = some last) (i : Nat) (hi : i < table.length + k) :
    idx (table ++ List.replicate k last) i = .ok (at' table i) := by
  have hne : table ≠ [] := by intro h'; rw [h'] at h; simp at h
  have hl : 0 < table.length := List.length_pos_iff.mpr hne
  rw [idx_lt _ _ (by rw [List.length_append, List.length_replicate]; exact hi), List.getElem_append]
  congr 1
  split
  · rename_i h1
    rw [at', Nat.min_eq_left (by omega), getD_lt' _ _ h1]
  · rename_i h1
    rw [List.getElem_replicate, at', Nat.min_eq_right (by omega), getD_lt' _ _ (by omega)]
    rw [List.getLast?_eq_getElem?, List.getElem?_eq_getElem (by omega)] at h
    exact (Option.some.inj h).symm

theorem gentle_all (table : List Nat) (hg : Gentle table) (i : Nat) :
    spread table i + 2 < 2 ^ 16 ∧ (at' table i = 0 ∨ (spread table i + 2) / 4 ≤ at' table i) ∧
      at' table i + (spread table i + 2) / 4 < 2 ^ 16 := by
  obtain ⟨g1, g2, g3, g4⟩ := hg
  have hl : 0 < table.length := List.length_pos_iff.mpr g1
  by_cases hi : i < table.length
  · exact g4 i hi
  · have h1 : spread table i = 0 := by
      rw [spread, at', at', Nat.min_eq_right (by omega), Nat.min_eq_right (by omega), Nat.sub_self]
    have := g2 _ (at'_mem table g1 i)
    rw [h1]
    omega

theorem entry_ok (table : List Nat) (hg : Gentle table) (k last : Nat) (h : table.getLast? = some last) (i : Nat) (hi : i < table.length + k) :
    entry (table ++ List.replicate k last) i = .ok (entryAt table i) := by
  obtain ⟨s1, s2, s3⟩ := gentle_all table hg i
  obtain ⟨g1, g2, g3, _⟩ := hg
  have hl : 0 < table.length := List.length_pos_iff.mpr g1
  have hlen : (table ++ List.replicate k last).length = table.length + k := by rw [List.length_append, List.length_replicate]
  have hlow : lower (table ++ List.replicate k last) i (at' table i) = .ok (at' table (i - 1)) := by
    rw [lower]; split
    · exact ext_get table k last h _ (by omega)
    · rw [show i = 0 by omega]
  have hup : upper (table ++ List.replicate k last) i (at' table i) = .ok (at' table (i + 1)) := by
    rw [upper, hlen]
    split
    · exact ext_get table k last h _ (by omega)
    · rw [at', at', Nat.min_eq_right (by omega), Nat.min_eq_right (by omega)]
  have hmono : at' table (i - 1) ≤ at' table (i + 1) := by
    cases i with
    | zero => exact g3 0
    | succ i => exact Nat.le_trans (g3 i) (g3 (i + 1))
  rw [entry, ext_get table k last h i hi]
  simp only [bind, Except.bind]
  rw [hlow]
  simp only []
  rw [hup]
  simp only []
  rw [usub, if_pos hmono]
  simp only []
  rw [show at' table (i + 1) - at' table (i - 1) = spread table i from rfl, entryAt]
  by_cases h0 : at' table i = 0
  · rw [if_pos h0, if_pos h0]
  · rw [if_neg h0, if_neg h0]
    have : (spread table i + 2) / 4 ≤ at' table i := by rcases s2 with s2 | s2; exact absurd s2 h0; exact s2
    simp only [assert', decide_eq_true s1, if_true]
    rw [usub, if_pos this]

theorem new_ok (table : List Nat) (hg : Gentle table) (k last : Nat) (h : table.getLast? = some last) :
    new (table ++ List.replicate k last) = .ok ((List.range (table.length + k)).map (entryAt table)) := by
  rw [new, List.length_append, List.length_replicate]
  exact mapM_ok_of _ _ _ (fun i hi => entry_ok table hg k last h i (List.mem_range.mp hi))

/-- The size of the expanded table. -/
theorem newWithBits_ok (table : List Nat) (hg : Gentle table) (bits : Nat) :
    newWithBits table bits = .ok ((List.range (max table.length (2 ^ bits))).map (entryAt table)) := by
  obtain ⟨last, h⟩ : ∃ last, table.getLast? = some last := by
    cases h : table.getLast? with
    | none => exact absurd (List.getLast?_eq_none_iff.mp h) hg.1
    | some x => exact ⟨x, rfl⟩
  rw [newWithBits.eq_def, h]
  simp only []
  split
  · have := new_ok table hg 0 last h
    rw [List.replicate_zero, List.append_nil] at this
    rw [this, Nat.max_eq_left (by omega), Nat.add_zero]
  · rw [new_ok table hg _ last h]
    congr 3
    omega

theorem dither_ok (table : List Nat) (hg : Gentle table) (n : Nat) (p rand : Nat) (hp : p < n) (hr : rand < 2 ^ 32) :
    ∃ q rand', dither ((List.range n).map (entryAt table)) p rand = .ok (q, rand') ∧ Near table p q ∧ rand' < 2 ^ 32 := by
  obtain ⟨s1, s2, s3⟩ := gentle_all table hg p
  have hb : at' table p < 2 ^ 16 := hg.2.1 _ (at'_mem table hg.1 p)
  have hidx : idx ((List.range n).map (entryAt table)) p = .ok (entryAt table p) := by
    rw [idx_lt _ _ (by simpa using hp)]; simp
  have hand : rand &&& 2047 = rand % 2048 := Nat.and_two_pow_sub_one_eq_mod rand 11
  have hand' : rand &&& 65535 = rand % 65536 := Nat.and_two_pow_sub_one_eq_mod rand 16
  rw [dither, hidx]
  simp only [bind, Except.bind, entryAt, hand, hand', Nat.shiftRight_eq_div_pow]
  have hbnd : spread table p * (rand % 2048) ≤ spread table p * 2047 := Nat.mul_le_mul_left _ (by omega)
  have hm : (spread table p * (rand % 2048) + 1024) / 2 ^ 12 ≤ 2 * ((spread table p + 2) / 4) := by
    generalize spread table p = s at *
    generalize s * (rand % 2048) = t at *
    omega
  have hrand : 15700 * (rand % 65536) + rand / 2 ^ 16 < 2 ^ 32 := by omega
  have hbnd2 : spread table p * (rand % 2048) + 1024 < 2 ^ 32 := by omega
  generalize (spread table p * (rand % 2048) + 1024) / 2 ^ 12 = m at hm ⊢
  generalize hc : at' table p = c at s2 s3 hb ⊢
  generalize hq : (spread table p + 2) / 4 = q at *
  have hsum : (if c = 0 then 0 else c - q) + m < 2 ^ 16 := by
    split <;> omega
  have hA : (if c = 0 then 0 else c - q) + m < 2 ^ 32 := by omega
  simp only [assert', decide_eq_true hA, decide_eq_true hbnd2, decide_eq_true hrand, if_true]
  refine ⟨_, _, rfl, ?_, hrand⟩
  rw [Nat.mod_eq_of_lt hsum]
  refine ⟨hsum, ?_, ?_⟩
  · rw [hc, hq]; intro h; rw [if_pos h]; omega
  · rw [hc, hq]; intro h; rw [if_neg (by omega)]; omega

theorem ditherRow_ok (table : List Nat) (hg : Gentle table) (n : Nat) (row : List Nat) (hrow : ∀ p ∈ row, p < n) :
    ∀ rand, rand < 2 ^ 32 → ∃ out, ditherRow ((List.range n).map (entryAt table)) rand row = .ok out ∧ out.length = row.length ∧
      ∀ c, c < row.length → Near table (row.getD c 0) (out.getD c 0) := by
  induction row with
  | nil => intro rand _; exact ⟨[], rfl, rfl, by simp⟩
  | cons p ps ih =>
    intro rand hr
    obtain ⟨q, rand', h1, h2, h3⟩ := dither_ok table hg n p rand (hrow p List.mem_cons_self) hr
    obtain ⟨out, h4, h5, h6⟩ := ih (fun x hx => hrow x (List.mem_cons_of_mem _ hx)) rand' h3
    refine ⟨q :: out, ?_, by simp [h5], ?_⟩
    · rw [ditherRow, h1]
      simp only [bind, Except.bind]
      rw [h4]
    · intro c hc
      cases c with
      | zero => simpa using h2
      | succ c => simpa using h6 c (by simpa using hc)

/-- **C16.** Linearising an image through a gentle curve replaces every sample by a value within a quarter of the local spread
of the curve (so between the neighbouring curve values wherever the curve is at least that far from both), for every image with at least
two columns, without any arithmetic overflow. Missing: curves that are not gentle, for which the claim is false, see
`C16_steep_curve_panics`, `C16_white_wraps_to_black` and `C16_outside_neighbours`. -/
theorem C16_linearization_partial (points : List Nat) (hg : Gentle points) (bits w : Nat) (hw : 2 ≤ w) (rows : List (List Nat))
    (hrow : ∀ row ∈ rows, row.length = w ∧ ∀ p ∈ row, p < max points.length (2 ^ bits) ∧ p < 2 ^ 16) :
    ∃ out, applyLinearization rows points bits = .ok out ∧ out.length = rows.length ∧
      ∀ r c, r < rows.length → c < w → (out.getD r []).length = w ∧ Near points ((rows.getD r []).getD c 0) ((out.getD r []).getD c 0) := by
  have hrows : ∀ rows : List (List Nat), (∀ row ∈ rows, row.length = w ∧ ∀ p ∈ row, p < max points.length (2 ^ bits) ∧ p < 2 ^ 16) →
      ∃ out, rows.mapM (linearizeRow ((List.range (max points.length (2 ^ bits))).map (entryAt points))) = .ok out ∧ out.length = rows.length ∧
      ∀ r c, r < rows.length → c < w → (out.getD r []).length = w ∧ Near points ((rows.getD r []).getD c 0) ((out.getD r []).getD c 0) := by
    intro rows
    induction rows with
    | nil => intro _; exact ⟨[], rfl, rfl, by simp⟩
    | cons row rows ih =>
      intro h
      obtain ⟨hl, hp⟩ := h row List.mem_cons_self
      obtain ⟨out, h1, h2, h3⟩ := ih (fun x hx => h x (List.mem_cons_of_mem _ hx))
      have a0 : row[0] < 2 ^ 16 := (hp _ (List.getElem_mem (by omega))).2
      have a1 : row[1] < 2 ^ 16 := (hp _ (List.getElem_mem (by omega))).2
      obtain ⟨o, h4, h5, h6⟩ := ditherRow_ok points hg _ row (fun p hm => (hp p hm).1) (row[0] + row[1] * 2 ^ 16) (by omega)
      refine ⟨o :: out, ?_, by simp [h2], ?_⟩
      · rw [List.mapM_cons, h1, linearizeRow, idx_lt _ _ (by omega), idx_lt _ _ (by omega)]
        simp only [bind, Except.bind]
        rw [h4]
        rfl
      · intro r c hr hc
        cases r with
        | zero => exact ⟨by simpa using h5.trans hl, by simpa using h6 c (by omega)⟩
        | succ r => simpa using h3 r c (by simpa using hr) hc
  rw [applyLinearization, if_neg hg.1, newWithBits_ok points hg bits]
  exact hrows rows hrow

/-- Where the curve is at least a quarter of the spread away from both neighbours, the dithered value lies between them. -/
theorem C16_between_neighbours_partial (points : List Nat) (p q : Nat) (hq : Near points p q)
    (h1 : at' points (p - 1) + (spread points p + 2) / 4 ≤ at' points p) (h2 : at' points p + (spread points p + 2) / 4 ≤ at' points (p + 1))
    (h0 : 0 < at' points p) : at' points (p - 1) ≤ q ∧ q ≤ at' points (p + 1) := by
  have := hq.2.2 h0
  omega

/-- Tables whose slope is large compared to their value cannot be built: `[0, 1, 60000]` is non-decreasing but `1 - 60002/4` underflows. -/
theorem C16_steep_curve_panics : new [0, 1, 60000] = panic' := by decide +kernel

/-- A curve that ends at 65535 with a step of 4: full white can be dithered to 0. -/
theorem C16_white_wraps_to_black : ∃ tbl, new [65523, 65527, 65531, 65535] = .ok tbl ∧ (dither tbl 3 2047).map (·.1) = .ok 0 :=
  ⟨[(65523, 65522, 4), (65527, 65525, 8), (65531, 65529, 8), (65535, 65534, 4)], by decide +kernel, by decide +kernel⟩

/-- A result outside the neighbouring values: at a kink of the curve the dithered value falls below both. -/
theorem C16_outside_neighbours : ∃ tbl, new [100, 100, 200] = .ok tbl ∧ (dither tbl 1 0).map (·.1) = .ok 75 :=
  ⟨[(100, 100, 0), (100, 75, 100), (200, 175, 100)], by decide +kernel, by decide +kernel⟩

/-- Images of a single column panic, whatever the curve. -/
theorem C16_single_column_panics : applyLinearization [[0]] [0, 1] 1 = panic' := by decide +kernel

theorem gentle_of_check (table : List Nat) (h1 : table ≠ []) (h2 : ∀ v ∈ table, v < 2 ^ 16)
    (h3 : ∀ i, i < table.length → at' table i ≤ at' table (i + 1) ∧ spread table i + 2 < 2 ^ 16 ∧
      (at' table i = 0 ∨ (spread table i + 2) / 4 ≤ at' table i) ∧ at' table i + (spread table i + 2) / 4 < 2 ^ 16) : Gentle table := by
  have hl : 0 < table.length := List.length_pos_iff.mpr h1
  refine ⟨h1, h2, fun i => ?_, fun i hi => (h3 i hi).2⟩
  by_cases hi : i < table.length
  · exact (h3 i hi).1
  · rw [at', at', Nat.min_eq_right (by omega), Nat.min_eq_right (by omega)]; omega

example : Gentle [0, 4, 8, 12, 40, 60] := gentle_of_check _ (by decide) (by decide) (by decide +kernel)
example : applyLinearization [[1, 2, 3, 4], [5, 7, 0, 1]] [0, 4, 8, 12, 40, 60] 3 = .ok [[2, 8, 16, 31], [55, 60, 2, 3]] := by decide +kernel

/-- **C16, 8 bit samples with a table.** Same bound for the packed 8 bit unpacker with a table of 256 entries or more. -/
theorem C16_8bit_table_partial (points : List Nat) (hg : Gentle points) (w h : Nat) (hw : 4 ≤ w) (buf : List Nat) (hb : IsBytes buf)
    (hlen : h * w ≤ buf.length) (tbl : List (Nat × Nat × Nat)) (ht : newWithBits points 8 = .ok tbl) :
    ∃ out, decompress8bitWtable buf tbl w h = .ok out ∧ out.length = h * w ∧
      ∀ r c, r < h → c < w → Near points (buf.getD (r * w + c) 0) (out.getD (r * w + c) 0) := by
  rw [newWithBits_ok points hg 8] at ht
  cases ht
  have hrow : ∀ r, ∃ o : List Nat, r < h → (do
      let random ← leU32 (buf.drop (r * w))
      ditherRow ((List.range (max points.length (2 ^ 8))).map (entryAt points)) random ((buf.drop (r * w)).take w)) = .ok o ∧ o.length = w ∧
      ∀ c, c < w → Near points (buf.getD (r * w + c) 0) (o.getD c 0) := by
    intro r
    by_cases hr : r < h
    · have hrw : r * w + w ≤ buf.length := by
        have : (r + 1) * w ≤ h * w := Nat.mul_le_mul_right w hr
        rw [Nat.succ_mul] at this; omega
      have hbytes : ∀ (i : Nat) (hi : i < (buf.drop (r * w)).length), (buf.drop (r * w))[i] < 256 := fun i hi =>
        hb _ (List.mem_of_mem_drop (List.getElem_mem hi))
      have hdl : (buf.drop (r * w)).length = buf.length - r * w := List.length_drop
      have hseed : ∃ s, leU32 (buf.drop (r * w)) = .ok s ∧ s < 2 ^ 32 := by
        have b0 := hbytes 0 (by omega)
        have b1 := hbytes 1 (by omega)
        have b2 := hbytes 2 (by omega)
        have b3 := hbytes 3 (by omega)
        rw [leU32, idx_lt _ _ (by omega), idx_lt _ _ (by omega), idx_lt _ _ (by omega), idx_lt _ _ (by omega)]
        exact ⟨_, rfl, by omega⟩
      obtain ⟨s, s1, s2⟩ := hseed
      obtain ⟨o, o1, o2, o3⟩ := ditherRow_ok points hg (max points.length (2 ^ 8)) ((buf.drop (r * w)).take w)
        (fun p hp => by
          have := hb p (List.mem_of_mem_drop (List.mem_of_mem_take hp))
          omega) s s2
      have htl : ((buf.drop (r * w)).take w).length = w := by rw [List.length_take, hdl]; omega
      refine ⟨o, fun _ => ⟨?_, o2.trans htl, ?_⟩⟩
      · rw [s1]; exact o1
      · intro c hc
        have := o3 c (by omega)
        rw [getD_lt' _ _ (by omega), List.getElem_take, List.getElem_drop] at this
        rw [getD_lt' _ _ (by omega)]
        exact this
    · exact ⟨[], fun h => absurd h hr⟩
  obtain ⟨f, hf⟩ := Classical.axiomOfChoice hrow
  refine ⟨(List.range h).flatMap f, ?_, flatMap_len h w f (fun r hr => (hf r hr).2.1), ?_⟩
  · rw [decompress8bitWtable, if_neg (by omega), Packed.linesFn, if_neg (by omega)]
    rw [mapM_ok_of _ f _ (fun r hr => by
      simp only [List.length_replicate]
      exact (hf r (List.mem_range.mp hr)).1)]
    simp [bind, Except.bind, List.flatMap_def]
  · intro r c hr hc
    have h1 := flatMap_get h w f (fun r hr => (hf r hr).2.1) r c hr hc
    have h2 : ((List.range h).flatMap f).getD (r * w + c) 0 = (f r).getD c 0 := by
      simp only [List.getD_eq_getElem?_getD]
      rw [h1]
    rw [h2]
    exact (hf r hr).2.2 c hc

/-- The same unpacker panics on images narrower than four pixels when no data follows the last row. -/
theorem C16_8bit_table_narrow_panics : decompress8bitWtable [1, 1, 1] ((List.range 256).map (entryAt [0, 4, 8])) 3 1 = panic' := by decide +kernel

end Verif.Props
