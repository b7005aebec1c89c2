import Verif.Spec.CrxPlane
import Verif.Proofs.CrxQuantBand
import Verif.Proofs.CrxQp

namespace Verif.Crx

open CrxSpec Wav

/-! ## Sizes -/

set_option maxRecDepth 4000 in
theorem exCoef_length : exCoef.length = 144 := rfl

def exG (levels size i : Nat) : Nat := exCoef.getD (0x30 * (levels - 1) + 6 * (size % 8) + i) 0

theorem exAt_ok (levels size i : Nat) (h3 : levels ≤ 3) (hi : i < 6) : exAt levels size i = .ok (exG levels size i) := by
  have hl := exCoef_length
  have hm : size % 8 < 8 := Nat.mod_lt _ (by omega)
  have h : 0x30 * (levels - 1) + 6 * (size % 8) + i < exCoef.length := by omega
  unfold exAt exG
  rw [idx_lt _ _ h, List.getD_eq_getElem?_getD, List.getElem?_eq_getElem h, Option.getD_some]

/-- Extra coefficients of a tile with `left` and `right` neighbours -/
def ex0 (left right : Bool) (levels size lev : Nat) : Nat := (if right then exG levels size (2 * lev) else 0) + left.toNat
def ex1 (right : Bool) (levels size lev : Nat) : Nat := if right then exG levels size (2 * lev + 1) else 0

theorem exPair_ok (left right : Bool) (levels size lev : Nat) (h3 : levels ≤ 3) (hl : lev < levels) :
    exPair left right levels size lev = .ok (ex0 left right levels size lev, ex1 right levels size lev) := by
  unfold exPair ex0 ex1
  cases right
  · simp
  · rw [if_pos rfl, exAt_ok _ _ _ h3 (by omega), exAt_ok _ _ _ h3 (by omega)]
    rfl

/-- The sizes of the levels of a tile in a row of tiles -/
def rowLevels (left right : Bool) (levels pw : Nat) : Nat → Nat → Nat → Nat → List LevelSize
  | 0, _, _, _ => []
  | n + 1, lev, bw, bh =>
    ⟨bw / 2 + ex0 left right levels pw lev, (bw + 1) / 2 + ex1 right levels pw lev, bh / 2, (bh + 1) / 2,
      ex0 left right levels pw lev, ex1 right levels pw lev, 0, 0⟩ :: rowLevels left right levels pw n (lev + 1) ((bw + 1) / 2) ((bh + 1) / 2)

theorem usub_le (a b : Nat) (h : b ≤ a) : usub a b = .ok (a - b) := if_pos h

theorem levelSizes_ok (f : Flags) (ht : f.top = false) (hb : f.bottom = false) (levels pw ph : Nat) (h3 : levels ≤ 3) :
    ∀ (n lev bw bh : Nat), lev + n = levels →
      levelSizes f levels pw ph n lev bw bh = .ok (rowLevels f.left f.right levels pw n lev bw bh, halved n bw, halved n bh)
  | 0, _, _, _, _ => rfl
  | n + 1, lev, bw, bh, h => by
    have ew : (bw % 2 + bw) >>> 1 = (bw + 1) / 2 := by rw [Nat.shiftRight_eq_div_pow]; omega
    have eh : (bh % 2 + bh) >>> 1 = (bh + 1) / 2 := by rw [Nat.shiftRight_eq_div_pow]; omega
    rw [levelSizes]
    dsimp only
    rw [ew, eh, exPair_ok _ _ _ _ _ h3 (by omega), exPair_ok _ _ _ _ _ h3 (by omega)]
    simp only [bind, Except.bind]
    have z0 : ex0 f.top f.bottom levels ph lev = 0 := by simp [ex0, ht, hb]
    have z1 : ex1 f.bottom levels ph lev = 0 := by simp [ex1, hb]
    rw [z0, z1, usub_le _ _ (by omega), usub_le _ _ (by omega)]
    simp only
    rw [levelSizes_ok f ht hb levels pw ph h3 n (lev + 1) _ _ (by omega)]
    simp only
    rw [rowLevels, halved, halved, show (bw + 1) / 2 + ex0 f.left f.right levels pw lev - bw % 2 = bw / 2 + ex0 f.left f.right levels pw lev by omega,
      show (bh + 1) / 2 + 0 - bh % 2 = bh / 2 by omega, Nat.add_zero ((bh + 1) / 2)]

def exL (right : Bool) (levels size : Nat) : Nat := if right then exG levels size (2 * levels - 1) else 0

theorem subbandSizes_ok (f : Flags) (ht : f.top = false) (hb : f.bottom = false) (levels pw ph : Nat) (h0 : 0 < levels) (h3 : levels ≤ 3) :
    subbandSizes f levels pw ph = .ok ⟨rowLevels f.left f.right levels pw levels 0 pw ph, exL f.right levels pw + halved levels pw, halved levels ph,
      exL f.right levels pw, 0⟩ := by
  have hl := exCoef_length
  have hm : pw % 8 < 8 := Nat.mod_lt _ (by omega)
  have hm' : ph % 8 < 8 := Nat.mod_lt _ (by omega)
  unfold subbandSizes
  rw [assert', if_pos (decide_eq_true (by omega))]
  simp only [bind, Except.bind]
  rw [levelSizes_ok f ht hb levels pw ph h3 levels 0 pw ph (by omega)]
  simp only
  have e : exLast f.right levels pw = .ok (exL f.right levels pw) := by
    unfold exLast exL
    split
    · exact exAt_ok _ _ _ h3 (by omega)
    · rfl
  rw [e, exLast, hb]
  simp

/-! ## Sources -/

theorem newBand_mask (w h : Nat) (p : Bool) (b : List Bool) : { newBand w h p b with mask := if p then (0 : Int) else 0 } = newBand w h p b := by
  cases p <;> rfl

theorem source_eq (info : BandInfo) (q : Option QStep) (p : Bool) (bytes : List Nat) :
    source info q p 0 bytes = (info, q, newBand info.width info.height p (bytesMSB bytes)) := by
  unfold source
  cases p <;> rfl

theorem allSources_ok (f : Flags) (version levels : Nat) (qs : Option (List QStep)) (bands : List (BandHdr × List Nat)) :
    ∀ (ls : List LevelSize) (bs : List Bands3) (lev : Nat), ls.length = bs.length →
      (∀ i (h : i < ls.length) (h' : i < bs.length), ∃ r, levelSources f version levels qs bands (lev + i) ls[i] = .ok r ∧ Gives3 nextLine r bs[i]) →
      ∃ src, allSources f version levels qs bands lev ls = .ok src ∧ GivesAll nextLine src bs
  | [], [], _, _, _ => ⟨[], rfl, trivial⟩
  | s :: ls, [], _, h, _ => by simp at h
  | [], b :: bs, _, h, _ => by simp at h
  | s :: ls, b :: bs, lev, h, hi => by
    obtain ⟨r, hr, hg⟩ := hi 0 (by simp) (by simp)
    obtain ⟨src, hs, hgs⟩ := allSources_ok f version levels qs bands ls bs (lev + 1) (by simpa using h) (by
      intro i h1 h2
      have := hi (i + 1) (by simpa using h1) (by simpa using h2)
      rw [show lev + (i + 1) = lev + 1 + i by omega] at this
      simpa using this)
    refine ⟨r :: src, ?_, hg, hgs⟩
    simp only [Nat.add_zero, List.getElem_cons_zero] at hr
    rw [allSources, hr]
    simp only [bind, Except.bind, hs]

/-! ## One band -/

theorem coeff_of (rows : List (List Int)) (h : CoeffRows rows) : ∀ l ∈ rows, ∀ v ∈ l, Coeff v := h

theorem scaleAt_fits (F : Nat → Nat → Int) (rows : List (List Int)) (h : RowsBd 2147483647 (scaleAt F rows)) (r : Nat) (hr : r < rows.length) :
    FitsI32 (F r) rows[r] := by
  intro c hc
  have := h (rows[r].mapIdx fun c v => v * F r c) (by
    rw [scaleAt, List.mem_iff_getElem]
    exact ⟨r, by simpa using hr, by simp⟩) (rows[r][c] * F r c) (by
    rw [List.mem_iff_getElem]
    exact ⟨c, by simpa using hc, by simp⟩)
  omega

theorem qStep_pos (q : Nat) (h : 4 ≤ q) (h' : q < 36) : qStep q ≠ 0 := by
  have : ∀ q : Nat, q < 36 → 4 ≤ q → qStep q ≠ 0 := by decide
  exact this q h' h

theorem bandStep_pos (b : Int) (m t : Nat) : bandStep b m t ≠ 0 := by unfold bandStep; omega

/-- The bits of a coded band -/
theorem bits_toBytes (l : List Bool) : ∃ pad, bytesMSB (toBytes l) = l ++ pad := by
  obtain ⟨pad, h, _⟩ := toBytes_spec _ l (Nat.le_refl _)
  exact ⟨pad, h⟩

/-- A table: its rows have the right width and moderate entries -/
def TableOK (T : List (List Nat)) (q : QStep) : Prop :=
  q.tbl = T.flatten ∧ (∀ l ∈ T, l.length = q.width) ∧ ∀ l ∈ T, ∀ t ∈ l, t ≤ 1440

/-- What a table must cover for a band with `n` own coefficients in a row -/
def Covers (T : List (List Nat)) (q : QStep) (n shift h : Nat) : Prop := TableOK T q ∧ h ≤ T.length ∧ 0 < n ∧ (n - 1) / 2 ^ shift < q.width

/-- The steps of a band -/
def StepOf (qs : Option QStep) (T : Option (Nat → List (List Nat))) (version level n h : Nat) : Prop :=
  match T with
  | none => qs = none
  | some T => version = 0x200 ∧ ∃ q, qs = some q ∧ Covers (T level) q n (3 - level) h

theorem band_scales (qs : Option QStep) (T : Option (Nat → List (List Nat))) (version level w h start e n : Nat) (b : BandHdr)
    (hw : w = start + n + e) (hh : HdrOK T.isSome b) (hs : StepOf qs T version level n h) (r : Nat) (hr : r < h) :
    ScalesBy (bandInfo version level w h start e 0 0 b) qs w r (factor T b level start n r) := by
  cases T with
  | none =>
    cases hs
    exact scales_param _ r hh.2.2.2
  | some T =>
    obtain ⟨hv, q, rfl, ⟨ht, hwid, hsm⟩, hlen, hn, hcol⟩ := hs
    subst hv
    have hrow : subbandRow (bandInfo 0x200 level w h start e 0 0 b) r = .ok r := by
      unfold subbandRow
      simp only [bandInfo, if_true]
      rw [if_neg (by omega), usub_le _ _ (by omega)]
      simp only [bind, Except.bind]
      rw [if_pos (by omega), usub_le _ _ (by omega)]
      rfl
    have := scales_table (bandInfo 0x200 level w h start e 0 0 b) q r r (T level) ht hwid (by omega) hrow
      (by simp only [bandInfo, if_true]; omega) (by simp only [bandInfo, if_true]; rwa [show w - e - start - 1 = n - 1 by omega]) (by
        intro c hc
        have hr' : r < (T level).length := by omega
        have hm := List.getElem_mem hr'
        have hl := hwid _ hm
        have ht := hsm _ hm _ (List.getElem_mem (n := c) (by omega))
        have eR : (T level).getD r [] = (T level)[r] := by
          rw [List.getD_eq_getElem?_getD, List.getElem?_eq_getElem hr', Option.getD_some]
        rw [eR, List.getD_eq_getElem?_getD, List.getElem?_eq_getElem (by omega), Option.getD_some]
        have hb := hh.2
        simp only [Option.isSome_some, if_true] at hb
        unfold EntryOK
        simp only [bandInfo]
        generalize (T level)[r][c] = t at ht
        have h1 : t * b.multi ≤ 1440 * 65535 := Nat.mul_le_mul ht (by omega)
        omega)
    have e1 : (bandInfo 0x200 level w h start e 0 0 b).width - (bandInfo 0x200 level w h start e 0 0 b).colEnd -
        (bandInfo 0x200 level w h start e 0 0 b).colStart = n := by simp only [bandInfo, if_true]; omega
    rw [e1] at this
    exact this

theorem factor_ne (T : Option (Nat → List (List Nat))) (level start n : Nat) (b : BandHdr) (hh : HdrOK T.isSome b) (r c : Nat) :
    factor T b level start n r c ≠ 0 := by
  cases T with
  | none =>
    have := qStep_pos b.qParam hh.2.2.1 hh.2.2.2
    simp only [factor]
    omega
  | some T => exact bandStep_pos _ _ _

theorem bp_of (qs : Option QStep) (T : Option (Nat → List (List Nat))) (version level n h : Nat) (b : BandHdr) (hh : HdrOK T.isSome b)
    (hs : StepOf qs T version level n h) : b.supportPartial = false ∨ qs ≠ none := by
  cases T with
  | none => exact .inl hh.2.1
  | some T =>
    obtain ⟨_, q, rfl, _⟩ := hs
    exact .inr (by simp)

theorem band_gives (qs : Option QStep) (T : Option (Nat → List (List Nat))) (version level w h start e n : Nat) (q : QBand)
    (hw : w = start + n + e) (hh : HdrOK T.isSome q.1) (hs : StepOf qs T version level n h) (hr : Rect h w q.2) (hc : CoeffRows q.2)
    (hf : RowsBd 2147483647 (scaleAt (factor T q.1 level start n) q.2)) :
    Gives nextLine (source (bandInfo version level w h start e 0 0 q.1) qs false 0 (codeBand q).2) (scaleAt (factor T q.1 level start n) q.2) := by
  obtain ⟨pad, hp⟩ := bits_toBytes (encBandNoRef q.2)
  rw [source_eq]
  have hlen := hr.1
  show Gives nextLine (_, qs, newBand w h false (bytesMSB (toBytes (encBandNoRef q.2)))) _
  rw [hp, ← hlen]
  refine quantBand_ok _ qs hh.1 ?_ q.2 w pad (fun l hl => ⟨hr.2 l hl, hc l hl⟩) _ ?_
  · exact bp_of qs T version level n h q.1 hh hs
  · intro r hr'
    rw [Nat.zero_add]
    refine ⟨?_, factor_ne T _ _ _ _ hh r, scaleAt_fits _ _ hf r hr'⟩
    rw [hlen]
    exact band_scales qs T version level w h start e n q.1 hw hh hs r (by omega)

theorem ll_gives (qs : Option QStep) (T : Option (Nat → List (List Nat))) (ref : Bool) (version level w h e n : Nat) (q : QBand) (hw : w = n + e) (hn : 0 < w)
    (hh : HdrOK T.isSome q.1) (hs : StepOf qs T version level n h) (hr : Rect h w q.2) (hc : LLOK T.isSome ref q)
    (hf : ref = false → RowsBd 2147483647 (scaleAt (factor T q.1 level 0 n) q.2)) :
    Gives nextLine (source (bandInfo version level w h 0 e 0 0 q.1) qs ref 0 (codeLL ref q).2)
      (if ref then q.2 else scaleAt (factor T q.1 level 0 n) q.2) := by
  cases ref with
  | false => exact band_gives qs T version level w h 0 e n q (by omega) hh hs hr hc (hf rfl)
  | true =>
    rw [if_pos rfl]
    obtain ⟨pad, hp⟩ := bits_toBytes (encBand q.2)
    rw [source_eq]
    have hlen := hr.1
    show Gives nextLine (_, qs, newBand w h true (bytesMSB (toBytes (encBand q.2)))) _
    rw [hp, ← hlen]
    unfold LLOK at hc
    rw [if_pos rfl] at hc
    refine refBand_ok _ qs hh.1 (bp_of qs T version level n h q.1 hh hs) q.2 w pad hn (fun l hl => ⟨hr.2 l hl, hc.1 l hl⟩) ?_
    intro r hr'
    have := band_scales qs T version level w h 0 e n q.1 (by omega) hh hs r (by omega)
    have e1 : factor T q.1 level 0 n r = fun _ => 1 := by
      cases T with
      | none =>
        have h4 : q.1.qParam = 4 := by simpa using hc.2
        funext c
        simp only [factor, h4]
        decide
      | some T =>
        have h4 : q.1.multi = 0 ∧ q.1.base ≤ 1 := by simpa using hc.2
        funext c
        simp only [factor, bandStep, h4.1, Nat.mul_zero]
        have := h4.2
        show min (max (q.1.base + ((0 / 8 : Nat) : Int)) 1) 0x168000 = 1
        omega
    rw [e1] at this
    rw [hlen]
    exact this

/-! ## A plane -/

theorem halved_succ : ∀ (k n : Nat), halved (k + 1) n = (halved k n + 1) / 2
  | 0, _ => rfl
  | k + 1, n => by rw [halved, halved_succ k, halved]

theorem rowLevels_get (left right : Bool) (levels pw : Nat) : ∀ (n lev bw bh i : Nat) (h : i < (rowLevels left right levels pw n lev bw bh).length),
    (rowLevels left right levels pw n lev bw bh)[i] =
      ⟨halved i bw / 2 + ex0 left right levels pw (lev + i), (halved i bw + 1) / 2 + ex1 right levels pw (lev + i), halved i bh / 2,
        (halved i bh + 1) / 2, ex0 left right levels pw (lev + i), ex1 right levels pw (lev + i), 0, 0⟩
  | 0, _, _, _, _, h => by simp [rowLevels] at h
  | n + 1, lev, bw, bh, 0, h => rfl
  | n + 1, lev, bw, bh, i + 1, h => by
    simp only [rowLevels, List.getElem_cons_succ]
    rw [rowLevels_get left right levels pw n (lev + 1) _ _ i, halved, halved, show lev + 1 + i = lev + (i + 1) by omega]

theorem rowLevels_length (left right : Bool) (levels pw : Nat) : ∀ (n lev bw bh : Nat), (rowLevels left right levels pw n lev bw bh).length = n
  | 0, _, _, _ => rfl
  | n + 1, lev, bw, bh => by rw [rowLevels, List.length_cons, rowLevels_length]

theorem dequant_length (T : Option (Nat → List (List Nat))) (left : Bool) : ∀ (lv w : Nat) (bs : List QBand3), (dequant T left lv w bs).length = bs.length
  | _, _, [] => rfl
  | lv, w, b :: bs => by rw [dequant, List.length_cons, List.length_cons, dequant_length]

theorem dequant_get (T : Option (Nat → List (List Nat))) (left : Bool) : ∀ (bs : List QBand3) (lv w i : Nat) (h : i < bs.length),
    (dequant T left lv w bs)[i]'(by rwa [dequant_length]) =
      (scaleAt (factor T bs[i].1.1 (lv + i) left.toNat (halved i w / 2)) bs[i].1.2,
        scaleAt (factor T bs[i].2.1.1 (lv + i) 0 ((halved i w + 1) / 2)) bs[i].2.1.2,
        scaleAt (factor T bs[i].2.2.1 (lv + i) left.toNat (halved i w / 2)) bs[i].2.2.2)
  | [], _, _, _, h => by simp at h
  | b :: bs, lv, w, 0, h => rfl
  | b :: bs, lv, w, i + 1, h => by
    simp only [dequant, List.getElem_cons_succ]
    rw [dequant_get T left bs (lv + 1) _ i (by simpa using h), halved, show lv + 1 + i = lv + (i + 1) by omega]

theorem triples_get (l : List (QBand3)) : ∀ (i j : Nat) (h : i < l.length) (_ : j < 3),
    (l.flatMap fun b => [codeBand b.1, codeBand b.2.1, codeBand b.2.2])[3 * i + j]? = [codeBand l[i].1, codeBand l[i].2.1, codeBand l[i].2.2][j]? := by
  induction l with
  | nil => intro i j h; simp at h
  | cons b l ih =>
    intro i j h hj
    rw [List.flatMap_cons]
    cases i with
    | zero =>
      rw [List.getElem?_append_left (by simpa using hj)]
      simp
    | succ i =>
      rw [List.getElem?_append_right (by simp; omega)]
      have := ih i j (by simpa using h) hj
      simp only [List.length_cons, List.length_nil, List.getElem_cons_succ]
      rw [← this]
      congr 1
      omega

theorem planeBands_get (ref : Bool) (ll : QBand) (bs : List QBand3) (i j : Nat) (h : i < bs.length) (hj : j < 3) :
    idx (planeBands ref ll bs) ((bs.length - i) * 3 - 2 + j) = .ok ([codeBand bs[i].1, codeBand bs[i].2.1, codeBand bs[i].2.2][j]'(by simpa using hj)) := by
  have := triples_get bs.reverse (bs.length - 1 - i) j (by simp; omega) hj
  rw [List.getElem_reverse] at this
  simp only [show bs.length - 1 - (bs.length - 1 - i) = i by omega] at this
  rw [idx_some _ _ ([codeBand bs[i].1, codeBand bs[i].2.1, codeBand bs[i].2.2][j]'(by simpa using hj))]
  rw [planeBands, show (bs.length - i) * 3 - 2 + j = (3 * (bs.length - 1 - i) + j) + 1 by omega, List.getElem?_cons_succ, this]
  exact List.getElem?_eq_getElem _

/-- The tables of a tile -/
def TablesOK (qs : Option (List QStep)) (T : Option (Nat → List (List Nat))) (version levels pw ph : Nat) : Prop :=
  match T with
  | none => qs = none
  | some T => version = 0x200 ∧ ∃ l, qs = some l ∧ l.length = levels ∧ ∀ i (h : i < l.length),
      TableOK (T (levels - i)) l[i] ∧ (T (levels - i)).length = halved (levels - i) ph ∧ l[i].width = halved 3 pw

theorem halved_cover (levels pw n i : Nat) (hl : levels ≤ 3) (hi : i < levels) (hn : n ≤ halved (i + 1) pw) (h0 : 0 < n) :
    (n - 1) / 2 ^ (3 - (i + 1)) < halved 3 pw := by
  have h : i = 0 ∨ i = 1 ∨ i = 2 := by omega
  rcases h with rfl | rfl | rfl <;> simp only [halved, Nat.reduceAdd, Nat.reduceSub, Nat.reducePow] at * <;> omega

theorem levelTable_ok (qs : Option (List QStep)) (T : Option (Nat → List (List Nat))) (version levels pw ph : Nat) (hl : levels ≤ 3)
    (ht : TablesOK qs T version levels pw ph) (i n h : Nat) (hi : i < levels) (hn : n ≤ halved (i + 1) pw) (h0 : T.isSome → 0 < n) (hh : h ≤ halved (i + 1) ph) :
    ∃ q, levelTable qs (levels - 1 - i) = .ok q ∧ StepOf q T version (i + 1) n h := by
  cases T with
  | none =>
    cases ht
    exact ⟨none, rfl, rfl⟩
  | some T =>
    obtain ⟨hv, l, rfl, hlen, hall⟩ := ht
    have hlt : levels - 1 - i < l.length := by omega
    obtain ⟨h1, h2, h3⟩ := hall _ hlt
    have e : levels - (levels - 1 - i) = i + 1 := by omega
    rw [e] at h1 h2
    refine ⟨some l[levels - 1 - i], ?_, hv, _, rfl, h1, by omega, h0 rfl, ?_⟩
    · rw [levelTable, idx_lt _ _ hlt]
      rfl
    · rw [h3]
      exact halved_cover levels pw n i hl hi hn (h0 rfl)

/-- The sizes of the quantized bands of a level -/
def LevelShape (s : LevelSize) (b : QBand3) : Prop := Rect s.hLow s.wHigh b.1.2 ∧ Rect s.hHigh s.wLow b.2.1.2 ∧ Rect s.hHigh s.wHigh b.2.2.2

def LevelOK (table : Bool) (b : QBand3) : Prop :=
  (HdrOK table b.1.1 ∧ CoeffRows b.1.2) ∧ (HdrOK table b.2.1.1 ∧ CoeffRows b.2.1.2) ∧ (HdrOK table b.2.2.1 ∧ CoeffRows b.2.2.2)

def Bds (M : Int) (b : Bands3) : Prop := RowsBd M b.1 ∧ RowsBd M b.2.1 ∧ RowsBd M b.2.2

theorem levelSources_ok (f : Flags) (htop : f.top = false) (version pw ph : Nat) (qs : Option (List QStep)) (T : Option (Nat → List (List Nat)))
    (ref : Bool) (ll : QBand) (bs : List QBand3) (hl : bs.length ≤ 3) (ht : TablesOK qs T version bs.length pw ph) (i : Nat) (hi : i < bs.length)
    (hw : T.isSome → 2 ≤ halved i pw) (e0 e1 : Nat) (he : f.left.toNat ≤ e0)
    (hs : LevelShape ⟨halved i pw / 2 + e0, (halved i pw + 1) / 2 + e1, halved i ph / 2, (halved i ph + 1) / 2, e0, e1, 0, 0⟩ bs[i])
    (hk : LevelOK T.isSome bs[i]) (hb : Bds 2147483647 ((dequant T f.left 1 pw bs)[i]'(by rwa [dequant_length]))) :
    ∃ r, levelSources f version bs.length qs (planeBands ref ll bs) i
        ⟨halved i pw / 2 + e0, (halved i pw + 1) / 2 + e1, halved i ph / 2, (halved i ph + 1) / 2, e0, e1, 0, 0⟩ = .ok r ∧
      Gives3 nextLine r ((dequant T f.left 1 pw bs)[i]'(by rwa [dequant_length])) := by
  rw [dequant_get T f.left bs 1 pw i hi] at hb ⊢
  have hh1 := halved_succ i pw
  have hh2 := halved_succ i ph
  obtain ⟨q, hq, hst⟩ := levelTable_ok qs T version bs.length pw ph hl ht i (halved i pw / 2) ((halved i ph + 1) / 2) hi (by omega)
    (fun h => by have := hw h; omega) (by omega)
  obtain ⟨q', hq', hst'⟩ := levelTable_ok qs T version bs.length pw ph hl ht i ((halved i pw + 1) / 2) (halved i ph / 2) hi (by omega)
    (fun h => by have := hw h; omega) (by omega)
  obtain ⟨q'', hq'', hst''⟩ := levelTable_ok qs T version bs.length pw ph hl ht i (halved i pw / 2) (halved i ph / 2) hi (by omega)
    (fun h => by have := hw h; omega) (by omega)
  cases hq.symm.trans hq'
  cases hq.symm.trans hq''
  have g0 := planeBands_get ref ll bs i 0 hi (by omega)
  have g1 := planeBands_get ref ll bs i 1 hi (by omega)
  have g2 := planeBands_get ref ll bs i 2 hi (by omega)
  rw [Nat.add_zero] at g0
  rw [show (bs.length - i) * 3 - 2 + 1 = (bs.length - i) * 3 - 1 by omega] at g1
  rw [show (bs.length - i) * 3 - 2 + 2 = (bs.length - i) * 3 by omega] at g2
  simp only [List.getElem_cons_zero, List.getElem_cons_succ] at g0 g1 g2
  unfold levelSources
  rw [g0, g1, g2]
  simp only [bind, Except.bind, hq]
  refine ⟨_, rfl, ?_, ?_, ?_⟩
  · have := band_gives q T version (1 + i) (halved i pw / 2 + e0) ((halved i ph + 1) / 2) f.left.toNat (e0 - f.left.toNat) (halved i pw / 2) bs[i].1
      (by omega) hk.1.1 (by rw [Nat.add_comm]; exact hst) hs.1 hk.1.2 hb.1
    rw [Nat.add_comm 1 i] at this ⊢
    exact this
  · have := band_gives q T version (1 + i) ((halved i pw + 1) / 2 + e1) (halved i ph / 2) 0 e1 ((halved i pw + 1) / 2) bs[i].2.1
      (by omega) hk.2.1.1 (by rw [Nat.add_comm]; exact hst') hs.2.1 hk.2.1.2 hb.2.1
    rw [Nat.add_comm 1 i] at this ⊢
    rw [htop]
    exact this
  · have := band_gives q T version (1 + i) (halved i pw / 2 + e0) (halved i ph / 2) f.left.toNat (e0 - f.left.toNat) (halved i pw / 2) bs[i].2.2
      (by omega) hk.2.2.1 (by rw [Nat.add_comm]; exact hst'') hs.2.2 hk.2.2.2 hb.2.2
    rw [Nat.add_comm 1 i] at this ⊢
    rw [htop]
    exact this

/-- All sources of a tile in a row of tiles give the scaled bands. -/
theorem plane_sources (f : Flags) (htop : f.top = false) (version pw ph : Nat) (qs : Option (List QStep)) (T : Option (Nat → List (List Nat)))
    (ref : Bool) (ll : QBand) (bs : List QBand3) (hpos : 0 < bs.length) (hl : bs.length ≤ 3) (ht : TablesOK qs T version bs.length pw ph)
    (hw : T.isSome → ∀ i < bs.length, 2 ≤ halved i pw) (hpw : 0 < pw)
    (hs : ∀ i (h : i < bs.length), LevelShape ((rowLevels f.left f.right bs.length pw bs.length 0 pw ph)[i]'(by rwa [rowLevels_length])) bs[i])
    (hsl : Rect (halved bs.length ph) (exL f.right bs.length pw + halved bs.length pw) ll.2)
    (hk : ∀ b ∈ bs, LevelOK T.isSome b) (hkl : HdrOK T.isSome ll.1 ∧ LLOK T.isSome ref ll)
    (hb : ∀ b ∈ dequant T f.left 1 pw bs, Bds 2147483647 b) (hbl : RowsBd 2147483647 (dequantLL T ref bs.length pw ll)) :
    ∃ src q, allSources f version bs.length qs (planeBands ref ll bs) 0 (rowLevels f.left f.right bs.length pw bs.length 0 pw ph) = .ok src ∧
      levelTable qs 0 = .ok q ∧ GivesAll nextLine src (dequant T f.left 1 pw bs) ∧
      Gives nextLine (source (bandInfo version bs.length (exL f.right bs.length pw + halved bs.length pw) (halved bs.length ph) 0
        (exL f.right bs.length pw) 0 0 ll.1) q ref 0 (codeLL ref ll).2) (dequantLL T ref bs.length pw ll) := by
  obtain ⟨src, h1, h2⟩ := allSources_ok f version bs.length qs (planeBands ref ll bs) (rowLevels f.left f.right bs.length pw bs.length 0 pw ph)
    (dequant T f.left 1 pw bs) 0 (by rw [rowLevels_length, dequant_length]) (by
      intro i hi hi'
      rw [rowLevels_length] at hi
      have hsi := hs i hi
      rw [rowLevels_get] at hsi ⊢
      rw [Nat.zero_add] at hsi ⊢
      exact levelSources_ok f htop version pw ph qs T ref ll bs hl ht i hi (fun h => hw h i hi) _ _ (by unfold ex0; omega) hsi
        (hk _ (List.getElem_mem hi)) (hb _ (List.getElem_mem hi')))
  have hpos' : ∀ k n, 0 < n → 0 < halved k n := by
    intro k
    induction k with
    | zero => intro n h; exact h
    | succ k ih => intro n h; rw [halved]; exact ih _ (by omega)
  obtain ⟨q, hq, hst⟩ := levelTable_ok qs T version bs.length pw ph hl ht (bs.length - 1) (halved bs.length pw) (halved bs.length ph) (by omega)
    (by rw [show bs.length - 1 + 1 = bs.length by omega]; exact Nat.le_refl _) (fun _ => hpos' _ _ hpw)
    (by rw [show bs.length - 1 + 1 = bs.length by omega]; exact Nat.le_refl _)
  rw [show bs.length - 1 - (bs.length - 1) = 0 by omega] at hq
  rw [show bs.length - 1 + 1 = bs.length by omega] at hst
  refine ⟨src, q, h1, hq, h2, ?_⟩
  unfold dequantLL at hbl ⊢
  exact ll_gives q T ref version bs.length _ _ _ _ ll (by omega) (by have := hpos' bs.length pw hpw; omega) hkl.1 hst hsl hkl.2
    (fun h => by rwa [if_neg (by simp [h])] at hbl)

end Verif.Crx
