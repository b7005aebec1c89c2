import Verif.Proofs.CrxLossy

/-!
# C55: lossy CR3 files: band layout, quantization tables, inverse quantization

Specification: `Verif/Spec/CrxPlane.lean`, `Verif/Spec/CrxQuant.lean` (quantization steps, the coded tables), `Verif/Spec/Wavelet.lean`.
Model: `Verif/Model/CrxQuant.lean`.
-/

namespace Verif.Props

open Verif.Crx Verif.CrxSpec Verif.Wav

theorem qStep_le (q : Nat) (h : q < 68) : qStep q ≤ 1440 := by
  have : ∀ q < 68, qStep q ≤ 1440 := by decide
  exact this q h

theorem sum_le (n : Nat) : ∀ l : List Nat, (∀ x ∈ l, x ≤ n) → l.sum ≤ n * l.length
  | [], _ => by simp
  | a :: l, h => by
    have h1 := sum_le n l fun x hx => h x (by simp [hx])
    have h2 := h a (by simp)
    rw [List.sum_cons, List.length_cons, Nat.mul_succ]
    omega

theorem qpMean_lt (rows : List (List Nat)) (n r c : Nat) (hn : 0 < n) (h : ∀ row ∈ rows, ∀ v ∈ row, v < 68) : qpMean rows n r c < 68 := by
  unfold qpMean
  have hs := sum_le 67 ((List.range n).map fun i => (rows.getD (min (n * r + i) (rows.length - 1)) []).getD c 0) (by
    intro x hx
    simp only [List.mem_map] at hx
    obtain ⟨i, _, rfl⟩ := hx
    simp only [List.getD_eq_getElem?_getD]
    cases h1 : rows[min (n * r + i) (rows.length - 1)]? with
    | none => simp
    | some row =>
      simp only [Option.getD_some]
      cases h2 : row[c]? with
      | none => simp
      | some v =>
        have := h row (List.mem_of_getElem? h1) v (List.mem_of_getElem? h2)
        simp only [Option.getD_some]
        omega)
  rw [List.length_map, List.length_range] at hs
  rw [Nat.div_lt_iff_lt_mul hn]
  omega

theorem tables_ok (levels pw ph : Nat) (h3 : levels ≤ 3) (rows : List (List Nat))
    (hr : ∀ row ∈ rows, row.length = (pw + 7) / 8 ∧ ∀ v ∈ row, v < 68) :
    TablesOK (some ((List.range levels).map fun i => { tbl := (qpSteps pw ph rows (levels - i)).flatten, width := (pw + 7) / 8 }))
      (some (qpSteps pw ph rows)) 0x200 levels pw ph := by
  refine ⟨rfl, _, rfl, by simp, ?_⟩
  intro i hi
  have hi' : i < levels := by simpa using hi
  simp only [List.getElem_map, List.getElem_range]
  have hl : levels - i = 1 ∨ levels - i = 2 ∨ levels - i = 3 := by omega
  refine ⟨⟨rfl, ?_, ?_⟩, ?_, ?_⟩
  · intro l hl
    simp only [qpSteps, List.mem_map] at hl
    obtain ⟨r, _, rfl⟩ := hl
    simp
  · intro l hl t ht
    simp only [qpSteps, List.mem_map] at hl
    obtain ⟨r, _, rfl⟩ := hl
    simp only [List.mem_map] at ht
    obtain ⟨c, _, rfl⟩ := ht
    exact qStep_le _ (qpMean_lt rows _ r c (Nat.pos_of_ne_zero (by simp)) fun row h => (hr row h).2)
  · rw [qpSteps, List.length_map, List.length_range]
    rcases hl with h | h | h <;> rw [h] <;> simp only [halved] <;> omega
  · simp only [halved]
    omega

/-- The header and the coefficients of every band can be coded. -/
abbrev BandsOK (table : Bool) (bs : List QBand3) : Prop := ∀ b ∈ bs, LevelOK table b

/-- All values of a level are within `-M .. M`. -/
abbrev BandsBd (M : Int) (bs : List Bands3) : Prop := ∀ b ∈ bs, Bds M b

/-- C55, files without a table: code any bands of the right sizes, with a quantization parameter of 4 to 35 for each. The decoder lays out
the bands as they were coded, multiplies the coefficients of each band by the step of its parameter, and returns the image whose wavelet
transform has these coefficients. -/
theorem C55_plane_param (version pw ph : Nat) (ref : Bool) (ll : QBand) (bs : List QBand3) (hne : bs ≠ []) (h3 : bs.length ≤ 3)
    (hsz : SizesOK (planeSizes bs.length ph pw)) (hs : Shape (bs.map coefs) ll.2 ph pw) (hk : BandsOK false bs)
    (hkl : HdrOK false ll.1 ∧ LLOK false ref ll) (M : Int) (hM : 0 ≤ M) (hbd : BandsBd M (dequant none false 1 pw bs))
    (hbl : RowsBd M (dequantLL none ref bs.length pw ll)) (hlim : 9 ^ bs.length * (2 * M + 3) ≤ 380000003) :
    ∃ rows, Rect ph pw rows ∧ forward bs.length ph pw rows = (dequant none false 1 pw bs, dequantLL none ref bs.length pw ll) ∧
      decodeWavePlane alone version bs.length pw ph ref 0 none (planeBands ref ll bs) = .ok rows :=
  single_ok version pw ph none none ref ll bs hne h3 rfl (fun h => by cases h) hsz hs hk hkl M hM hbd hbl hlim

/-- C55, files with a table: as before, with a coded table of quantization parameters, one for 8 columns and 2 rows of the plane. The decoder
reads the table, makes a table of steps for each level, and multiplies every coefficient by the step of its place and its band. -/
theorem C55_plane_table (pw ph : Nat) (ref : Bool) (ll : QBand) (bs : List QBand3) (hne : bs ≠ []) (h3 : bs.length ≤ 3)
    (hsz : SizesOK (planeSizes bs.length ph pw)) (hwide : ∀ s ∈ planeSizes bs.length ph pw, 2 ≤ s.2)
    (hs : Shape (bs.map coefs) ll.2 ph pw) (hk : BandsOK true bs)
    (qp : List (List Nat)) (hq : qp.length = (ph + 1) / 2 ∧ ∀ row ∈ qp, row.length = (pw + 7) / 8 ∧ ∀ v ∈ row, v < 68) (tail : List Nat)
    (hkl : HdrOK true ll.1 ∧ LLOK true ref ll) (M : Int) (hM : 0 ≤ M) (hbd : BandsBd M (dequant (some (qpSteps pw ph qp)) false 1 pw bs))
    (hbl : RowsBd M (dequantLL (some (qpSteps pw ph qp)) ref bs.length pw ll)) (hlim : 9 ^ bs.length * (2 * M + 3) ≤ 380000003) :
    ∃ rows tables, Rect ph pw rows ∧
      forward bs.length ph pw rows = (dequant (some (qpSteps pw ph qp)) false 1 pw bs, dequantLL (some (qpSteps pw ph qp)) ref bs.length pw ll) ∧
      qpTables bs.length pw ph (toBytes (encQp qp) ++ tail) = .ok tables ∧
      decodeWavePlane alone 0x200 bs.length pw ph ref 0 (some tables) (planeBands ref ll bs) = .ok rows := by
  have hpos : 0 < bs.length := List.length_pos_iff.mpr hne
  have hmem : (ph, pw) ∈ planeSizes bs.length ph pw := by
    obtain ⟨n, hn⟩ : ∃ n, bs.length = n + 1 := ⟨bs.length - 1, by omega⟩
    rw [hn]
    simp [planeSizes]
  have hsz' : ph ≠ 0 ∧ ph ≠ 2 ∧ pw ≠ 0 ∧ pw ≠ 2 := hsz _ hmem
  have hmem' : ∀ (n i h w : Nat), i < n → (halved i h, halved i w) ∈ planeSizes n h w := by
    intro n
    induction n with
    | zero => intro i h w hi; omega
    | succ n ih =>
      intro i h w hi
      cases i with
      | zero => simp [planeSizes, halved]
      | succ i =>
        rw [planeSizes]
        exact List.mem_cons_of_mem _ (ih i _ _ (by omega))
  obtain ⟨rows, r1, r2, r3⟩ := single_ok 0x200 pw ph _ (some (qpSteps pw ph qp)) ref ll bs hne h3 (tables_ok bs.length pw ph h3 qp hq.2)
    (fun _ i hi => hwide _ (hmem' _ i ph pw hi)) hsz hs hk hkl M hM hbd hbl hlim
  exact ⟨rows, _, r1, r2, qpTables_ok bs.length pw ph hpos h3 (by omega) (by omega) qp hq.1 hq.2 tail, r3⟩

/-- C55, the tables alone: coding a table of parameters and decoding it gives, for each level beginning with the lowest, the steps of the
means of its parameters. Bytes behind the table do not matter. -/
theorem C55_qp_table (levels pw ph : Nat) (h0 : 0 < levels) (h3 : levels ≤ 3) (hpw : 0 < pw) (hph : 0 < ph) (qp : List (List Nat))
    (hl : qp.length = (ph + 1) / 2) (hr : ∀ row ∈ qp, row.length = (pw + 7) / 8 ∧ ∀ v ∈ row, v < 68) (tail : List Nat) :
    qpTables levels pw ph (toBytes (encQp qp) ++ tail) =
      .ok ((List.range levels).map fun i => { tbl := (qpSteps pw ph qp (levels - i)).flatten, width := (pw + 7) / 8 }) :=
  qpTables_ok levels pw ph h0 h3 hpw hph qp hl hr tail

theorem scale_four (h : BandHdr) (lv s n : Nat) (rows : List (List Int)) (h4 : h.qParam = 4) : scaleAt (factor none h lv s n) rows = rows := by
  have : factor none h lv s n = fun _ _ => 1 := by
    funext r c
    simp only [factor, h4]
    decide
  rw [this]
  unfold scaleAt
  apply List.ext_getElem
  · simp
  · intro i _ _
    rw [List.getElem_mapIdx]
    exact mapIdx_one _

theorem dequant_four (left : Bool) : ∀ (l : List QBand3) (lv w : Nat), (∀ b ∈ l, b.1.1.qParam = 4 ∧ b.2.1.1.qParam = 4 ∧ b.2.2.1.qParam = 4) →
    dequant none left lv w l = l.map coefs := by
  intro l
  induction l with
  | nil => intros; rfl
  | cons b l ih =>
    intro lv w h
    have := h b (by simp)
    rw [dequant, ih _ _ fun b hb => h b (by simp [hb]), scale_four _ _ _ _ _ this.1, scale_four _ _ _ _ _ this.2.1, scale_four _ _ _ _ _ this.2.2]
    rfl

theorem dequantLL_four (ref : Bool) (levels w : Nat) (ll : QBand) (h4 : ll.1.qParam = 4) : dequantLL none ref levels w ll = ll.2 := by
  unfold dequantLL
  split
  · rfl
  · exact scale_four _ _ _ _ _ h4

/-- C55, without loss: if all parameters are 4 (step 1) and the bands are the transform of an image, the decoder returns this image. -/
theorem C55_lossless (version pw ph : Nat) (ref : Bool) (ll : QBand) (bs : List QBand3) (hne : bs ≠ []) (h3 : bs.length ≤ 3)
    (hsz : SizesOK (planeSizes bs.length ph pw)) (image : List (List Int)) (hr : Rect ph pw image)
    (hf : forward bs.length ph pw image = (bs.map coefs, ll.2)) (hk : BandsOK false bs) (hkl : HdrOK false ll.1 ∧ LLOK false ref ll)
    (h4 : ∀ b ∈ bs, b.1.1.qParam = 4 ∧ b.2.1.1.qParam = 4 ∧ b.2.2.1.qParam = 4) (h4' : ll.1.qParam = 4)
    (B : Int) (hB : 0 ≤ B) (hbd : RowsBd B image) (hlim : (B + 2) * 4 ^ (bs.length - 1) ≤ 190000002)
    (hc : BandsBd 2147483647 (bs.map coefs) ∧ RowsBd 2147483647 ll.2) :
    decodeWavePlane alone version bs.length pw ph ref 0 none (planeBands ref ll bs) = .ok image := by
  have hpos : 0 < bs.length := List.length_pos_iff.mpr hne
  obtain ⟨n, hn⟩ : ∃ n, bs.length = n + 1 := ⟨bs.length - 1, by omega⟩
  have h0 : ph ≠ 0 ∧ ph ≠ 2 ∧ pw ≠ 0 ∧ pw ≠ 2 := hsz (ph, pw) (by rw [hn]; simp [planeSizes])
  have hts : transformSizes pw ph (rowLevels false false bs.length pw bs.length 0 pw ph) = planeSizes bs.length ph pw := by
    rw [hn]
    exact planeSizes_row _ _ _ _ _ _
  have fl : ∀ (k h w : Nat) (rows : List (List Int)), Rect h w rows → (forward k h w rows).1.length = k ∧ Shape (forward k h w rows).1 (forward k h w rows).2 h w := by
    intro k
    induction k with
    | zero => intro h w rows hr; exact ⟨rfl, hr⟩
    | succ k ih =>
      intro h w rows hr
      obtain ⟨i1, i2⟩ := ih ((h + 1) / 2) ((w + 1) / 2) (window ((h + 1) / 2) ((w + 1) / 2) 0 (LL (ext h w rows))) (rect_window _ _ _ _)
      exact ⟨by rw [forward]; simp [i1], rect_window _ _ _ _, rect_window _ _ _ _, rect_window _ _ _ _, i2⟩
  have hshape := (fl bs.length ph pw image hr).2
  rw [hf] at hshape
  obtain ⟨g1, g2⟩ := shape_get _ _ _ _ hshape
  rw [List.length_map] at g2
  obtain ⟨src, sll, s1, s2, s3⟩ := decode_of alone rfl rfl version pw ph none none ref ll bs hpos h3 rfl (fun h => by cases h) (by omega) (by omega) (by
      intro i hi
      rw [rowLevels_get]
      have := g1 i (by simpa using hi)
      simp only [List.getElem_map, coefs] at this
      simpa [LevelShape, ex0, ex1] using this) (by simpa [exL] using g2) hk hkl
    (by rw [show alone.left = false from rfl, dequant_four false _ _ _ h4]; exact hc.1) (by rw [dequantLL_four _ _ _ _ h4']; exact hc.2)
  rw [show alone.left = false from rfl, dequant_four false _ _ _ h4] at s1
  rw [dequantLL_four _ _ _ _ h4'] at s2
  rw [s3]
  show wavePlane nextLine alone ph pw (newLevels (transformSizes pw ph (rowLevels false false bs.length pw bs.length 0 pw ph)) src) sll = _
  rw [hts]
  exact C54_plane nextLine bs.length ph pw hpos image hr hsz B hB hbd hlim src sll (by rw [hf]; exact s1) (by rw [hf]; exact s2)

/-- C55, tiles side by side: the layout of the bands of a tile. For every width of a plane of at least 17, the sizes the decoder computes for
the bands (with the coefficients shared with the neighbours) are those with which the tile can be decoded. -/
theorem C55_sizes (f : Flags) (ht : f.top = false) (hb : f.bottom = false) (levels pw ph W x0 : Nat) (h0 : 0 < levels) (h3 : levels ≤ 3)
    (hp : 17 ≤ pw) (hh : 9 ≤ ph) (hx : x0 % 2 ^ levels = 0) (hleft : f.left = false → x0 = 0)
    (hright : if f.right then x0 + pw + 16 ≤ W else x0 + pw = W) :
    ∃ z, subbandSizes f levels pw ph = .ok z ∧ TileOK f.left f.right (rowTiles pw z.levels) ph W x0 z.width := by
  refine ⟨_, subbandSizes_ok f ht hb levels pw ph h0 h3, ?_⟩
  cases hf : f.right with
  | true => exact tileOK_right f.left levels pw ph W x0 h0 h3 hp hh hx hleft (by simpa [hf] using hright)
  | false => exact tileOK_last f.left levels pw ph W x0 h0 h3 (by omega) hh hx hleft (by simpa [hf] using hright)

/-- C55, tiles side by side: if the coefficients of the tile, multiplied by their steps, are those of the part of an image that the tile
covers (with those shared with the neighbours), the decoder returns this part of the image. -/
theorem C55_tile_param (f : Flags) (ht : f.top = false) (hb : f.bottom = false) (version pw ph : Nat) (ref : Bool) (ll : QBand) (bs : List QBand3)
    (hne : bs ≠ []) (h3 : bs.length ≤ 3) (hp : 17 ≤ pw) (hh : 9 ≤ ph)
    (W x0 : Nat) (image : List (List Int)) (hr : Rect ph W image) (hx : x0 % 2 ^ bs.length = 0) (hleft : f.left = false → x0 = 0)
    (hright : if f.right then x0 + pw + 16 ≤ W else x0 + pw = W) (z : PlaneSize) (hz : subbandSizes f bs.length pw ph = .ok z)
    (hd : (dequant none f.left 1 pw bs, dequantLL none ref bs.length pw ll) = tileBands f.left (rowTiles pw z.levels) ph W x0 z.width image)
    (hk : BandsOK false bs) (hkl : HdrOK false ll.1 ∧ LLOK false ref ll)
    (hbd : BandsBd 2147483647 (dequant none f.left 1 pw bs)) (hbl : RowsBd 2147483647 (dequantLL none ref bs.length pw ll))
    (B : Int) (hB : 0 ≤ B) (himg : RowsBd B image) (hlim : (B + 2) * 4 ^ (bs.length - 1) ≤ 190000002) :
    decodeWavePlane f version bs.length pw ph ref 0 none (planeBands ref ll bs) = .ok (image.map fun row => (row.drop x0).take pw) :=
  tile_lossy_ok f ht hb version pw ph none none ref ll bs hne h3 rfl hp hh W x0 image hr hx hleft hright z hz hd hk hkl hbd hbl B hB himg hlim

/-- ... the same with a table of parameters of the tile. -/
theorem C55_tile_table (f : Flags) (ht : f.top = false) (hb : f.bottom = false) (pw ph : Nat) (ref : Bool) (ll : QBand) (bs : List QBand3)
    (hne : bs ≠ []) (h3 : bs.length ≤ 3) (hp : 17 ≤ pw) (hh : 9 ≤ ph)
    (qp : List (List Nat)) (hq : qp.length = (ph + 1) / 2 ∧ ∀ row ∈ qp, row.length = (pw + 7) / 8 ∧ ∀ v ∈ row, v < 68) (tail : List Nat)
    (W x0 : Nat) (image : List (List Int)) (hr : Rect ph W image) (hx : x0 % 2 ^ bs.length = 0) (hleft : f.left = false → x0 = 0)
    (hright : if f.right then x0 + pw + 16 ≤ W else x0 + pw = W) (z : PlaneSize) (hz : subbandSizes f bs.length pw ph = .ok z)
    (hd : (dequant (some (qpSteps pw ph qp)) f.left 1 pw bs, dequantLL (some (qpSteps pw ph qp)) ref bs.length pw ll) =
      tileBands f.left (rowTiles pw z.levels) ph W x0 z.width image)
    (hk : BandsOK true bs) (hkl : HdrOK true ll.1 ∧ LLOK true ref ll)
    (hbd : BandsBd 2147483647 (dequant (some (qpSteps pw ph qp)) f.left 1 pw bs))
    (hbl : RowsBd 2147483647 (dequantLL (some (qpSteps pw ph qp)) ref bs.length pw ll))
    (B : Int) (hB : 0 ≤ B) (himg : RowsBd B image) (hlim : (B + 2) * 4 ^ (bs.length - 1) ≤ 190000002) :
    ∃ tables, qpTables bs.length pw ph (toBytes (encQp qp) ++ tail) = .ok tables ∧
      decodeWavePlane f 0x200 bs.length pw ph ref 0 (some tables) (planeBands ref ll bs) = .ok (image.map fun row => (row.drop x0).take pw) :=
  ⟨_, qpTables_ok bs.length pw ph (List.length_pos_iff.mpr hne) h3 (by omega) (by omega) qp hq.1 hq.2 tail,
    tile_lossy_ok f ht hb 0x200 pw ph _ (some (qpSteps pw ph qp)) ref ll bs hne h3 (tables_ok bs.length pw ph h3 qp hq.2) hp hh W x0 image hr hx hleft
      hright z hz hd hk hkl hbd hbl B hB himg hlim⟩

/-- C55, what cannot be decoded: no line of a band with a parameter of 36 or more is returned (without a table). -/
theorem C55_large_param (b : BandInfo) (hd : b.dataSize ≠ 0) (hq : 36 ≤ b.qParam) (p : Band) (r : List Int × Src) : nextLine (b, none, p) ≠ .ok r := by
  unfold nextLine
  rw [if_neg hd]
  split
  · intro e; cases e
  · intro e
    obtain ⟨p1, _, e⟩ := bind_inv _ _ _ e
    obtain ⟨p2, e2, _⟩ := bind_inv _ _ _ e
    obtain ⟨s, e3, _⟩ := bind_inv _ _ _ (show (qScale b.qParam >>= fun s => if s ≠ 1 then forN b.width (fun i p => mulAt p i s) p1 else .ok p1) = .ok p2 from e2)
    exact qScale_large _ hq s e3

/-- C55, a band without data: the lines it gives are empty, whatever the width of the band. -/
theorem C55_empty_band (b : BandInfo) (hd : b.dataSize = 0) (qs : Option QStep) (p : Band) : nextLine (b, qs, p) = .ok ([], (b, qs, p)) := by
  unfold nextLine
  rw [if_pos hd]

/-- C55, tiles above each other: in a tile with a tile above, a high band begins with a row shared with that tile. The row of the table
the decoder takes for row `r` is `r`, not `r - 1`; for the last row there is none if the table has a row for each row of the band's own. -/
theorem C55_tile_above (b : BandInfo) (hs : b.rowStart = 1) (he : b.rowEnd = 0) (hv : b.colStart + b.colEnd < b.width) (q : QStep) (rows : Nat)
    (hh : b.height = rows + 1) (ht : q.tbl.length = q.width * rows) (p : Band) (hc : p.curLine = b.height) (hr : 0 < rows) (s : Band) :
    scaleTable b q p ≠ .ok s := by
  intro e
  unfold scaleTable at e
  rw [hc, usub_le _ _ (by omega)] at e
  simp only [bind, Except.bind] at e
  have hrow : subbandRow b (b.height - 1) = .ok rows := by
    unfold subbandRow
    rw [if_neg (by omega), he, usub_le _ _ (by omega)]
    simp only [bind, Except.bind]
    rw [if_pos (by omega), usub_le _ _ (by omega)]
    congr 1
    omega
  rw [hrow] at e
  simp only at e
  have hdrop : q.tbl.drop (q.width * rows) = [] := by rw [List.drop_eq_nil_iff]; omega
  rw [hdrop, assert', if_pos (decide_eq_true (by omega))] at e
  simp only at e
  have hno : ∀ (col : Nat → R Nat) (a n : Nat) (x y : Band), 0 < n → scaleCols b [] col a n x ≠ .ok y := by
    intro col a n x y hn e
    obtain ⟨m, rfl⟩ : ∃ m, n = m + 1 := ⟨n - 1, by omega⟩
    unfold scaleCols at e
    have hstep : ∀ j (x y : Band), (do
        let c ← col (a + j)
        let t ← idx ([] : List Nat) c
        let q ← quantVal b t
        mulAt x (a + j) q) ≠ .ok y := by
      intro j x y e
      obtain ⟨c, _, e⟩ := bind_inv _ _ _ e
      obtain ⟨t, e, _⟩ := bind_inv _ _ _ e
      simp [idx, panic'] at e
    have : ∀ k (x y : Band), forN (k + 1) (fun j p => (do
        let c ← col (a + j)
        let t ← idx ([] : List Nat) c
        let q ← quantVal b t
        mulAt p (a + j) q)) x ≠ .ok y := by
      intro k x y e
      rw [forN_succ] at e
      obtain ⟨z, _, e⟩ := bind_inv _ _ _ e
      exact hstep _ _ _ e
    exact this _ _ _ e
  obtain ⟨p1, _, e⟩ := bind_inv _ _ _ e
  obtain ⟨e1, h1, e⟩ := bind_inv _ _ _ e
  rw [usub_le _ _ (by omega)] at h1
  cases h1
  obtain ⟨p2, h2, _⟩ := bind_inv _ _ _ e
  exact hno _ _ _ _ _ (by omega) h2

/-! ## The hypotheses are met -/

/-- A header: 100 bytes, parameter `q`; base 1 and multiplier `m` -/
def hdr (q m : Nat) : BandHdr := ⟨100, false, q, 1, m⟩

/-- The bands `someBands` of an image of 5 times 5 samples, quantized with the parameters 10, 16, 11 (steps 2, 4, 2) -/
def someCoded : QBand3 := ((hdr 10 3, someBands.1), (hdr 16 8, someBands.2.1), (hdr 11 0, someBands.2.2))

def someLL : QBand := (hdr 4 0, [[100, 200, 300], [-7, 8, 9], [1000, 2000, -3000]])

example : qStep 10 = 2 ∧ qStep 16 = 4 ∧ qStep 35 = 36 := by decide

example : ∃ rows, Rect 5 5 rows ∧ forward 1 5 5 rows = (dequant none false 1 5 [someCoded], dequantLL none true 1 5 someLL) ∧
    decodeWavePlane alone 0x100 1 5 5 true 0 none (planeBands true someLL [someCoded]) = .ok rows :=
  C55_plane_param 0x100 5 5 true someLL [someCoded] (by simp) (by decide) (by decide) (by simp [Shape, Rect, coefs, someCoded, someLL, someBands])
    (by intro b hb; simp only [List.mem_singleton] at hb; subst hb; unfold LevelOK HdrOK CoeffRows; decide)
    (by unfold HdrOK LLOK CoeffRows; decide) 4000 (by decide)
    (by intro b hb; simp only [dequant, List.mem_singleton] at hb; subst hb; unfold Bds RowsBd; decide)
    (by unfold RowsBd; decide) (by decide)

/-- The coefficients are not those that were stored. -/
example : dequant none false 1 5 [someCoded] = [([[14, -16], [1800, 6], [0, 24]], [[4, 8, 12], [-16, 20, -2400]], [[20, -40], [60, -80]])] := by decide

/-- A table of parameters: 3 rows, 1 column -/
def someQp : List (List Nat) := [[4], [22], [16]]

example : ∃ rows tables, Rect 5 5 rows ∧
    forward 1 5 5 rows = (dequant (some (qpSteps 5 5 someQp)) false 1 5 [someCoded], dequantLL (some (qpSteps 5 5 someQp)) true 1 5 someLL) ∧
    qpTables 1 5 5 (toBytes (encQp someQp) ++ [1, 2, 3]) = .ok tables ∧
    decodeWavePlane alone 0x200 1 5 5 true 0 (some tables) (planeBands true someLL [someCoded]) = .ok rows :=
  C55_plane_table 5 5 true someLL [someCoded] (by simp) (by decide) (by decide) (by decide) (by simp [Shape, Rect, coefs, someCoded, someLL, someBands])
    (by intro b hb; simp only [List.mem_singleton] at hb; subst hb; unfold LevelOK HdrOK CoeffRows; decide)
    someQp (by decide) [1, 2, 3] (by unfold HdrOK LLOK CoeffRows; decide) 6000 (by decide)
    (by intro b hb; simp only [dequant, List.mem_singleton] at hb; subst hb; unfold Bds RowsBd; decide)
    (by unfold RowsBd; decide) (by decide)

/-- Here the steps differ from row to row and from band to band. -/
example : dequant (some (qpSteps 5 5 someQp)) false 1 5 [someCoded] =
    [([[7, -8], [3600, 12], [0, 24]], [[2, 4, 6], [-36, 45, -5400]], [[10, -20], [30, -40]])] := by decide

/-- The picture of 11 rows with 13 samples in 3 levels, without loss -/
def pictureCoded : List QBand3 := (forward 3 11 13 picture).1.map fun b => ((hdr 4 0, b.1), (hdr 4 0, b.2.1), (hdr 4 0, b.2.2))

theorem picture_bands : (∀ b ∈ (forward 3 11 13 picture).1, (CoeffRows b.1 ∧ CoeffRows b.2.1 ∧ CoeffRows b.2.2)) ∧ RowsBd 131072 (forward 3 11 13 picture).2 := by
  unfold CoeffRows RowsBd
  decide +kernel

example : decodeWavePlane alone 0x100 3 13 11 true 0 none (planeBands true (hdr 4 0, (forward 3 11 13 picture).2) pictureCoded) = .ok picture := by
  have hb := picture_bands
  have hl : pictureCoded.length = 3 := by rw [pictureCoded, List.length_map]; rfl
  have hc : pictureCoded.map coefs = (forward 3 11 13 picture).1 := by
    rw [pictureCoded, List.map_map]
    exact List.map_id _
  have := C55_lossless 0x100 13 11 true (hdr 4 0, (forward 3 11 13 picture).2) pictureCoded (by intro h; rw [h] at hl; cases hl) (by omega)
    (by rw [hl]; decide) picture picture_rect (by rw [hl, hc])
    (by
      intro b h
      simp only [pictureCoded, List.mem_map] at h
      obtain ⟨x, hx, rfl⟩ := h
      have hh : HdrOK false (hdr 4 0) := by unfold HdrOK; decide
      exact ⟨⟨hh, (hb.1 x hx).1⟩, ⟨hh, (hb.1 x hx).2.1⟩, hh, (hb.1 x hx).2.2⟩)
    ⟨by unfold HdrOK; decide, by
      unfold LLOK
      rw [if_pos rfl]
      exact ⟨fun r hr v hv => by have := hb.2 r hr v hv; omega, rfl⟩⟩
    (by
      intro b h
      simp only [pictureCoded, List.mem_map] at h
      obtain ⟨x, hx, rfl⟩ := h
      exact ⟨rfl, rfl, rfl⟩) rfl 16383 (by decide) picture_bd (by rw [hl]; decide)
    ⟨by
      rw [hc]
      intro b h
      have := hb.1 b h
      exact ⟨fun r hr v hv => by have := this.1 r hr v hv; omega, fun r hr v hv => by have := this.2.1 r hr v hv; omega,
        fun r hr v hv => by have := this.2.2 r hr v hv; omega⟩, fun r hr v hv => by have := hb.2 r hr v hv; omega⟩
  rw [hl] at this
  exact this

/-- The tiles of an R5: two tiles of 2088 columns each -/
example : ∃ z, subbandSizes ⟨false, false, false, true⟩ 3 2088 2784 = .ok z ∧ TileOK false true (rowTiles 2088 z.levels) 2784 4176 0 z.width :=
  C55_sizes ⟨false, false, false, true⟩ rfl rfl 3 2088 2784 4176 0 (by decide) (by decide) (by decide) (by decide) (by decide) (by decide) (by decide)

example : ∃ z, subbandSizes ⟨false, false, true, false⟩ 3 2088 2784 = .ok z ∧ TileOK true false (rowTiles 2088 z.levels) 2784 4176 2088 z.width :=
  C55_sizes ⟨false, false, true, false⟩ rfl rfl 3 2088 2784 4176 2088 (by decide) (by decide) (by decide) (by decide) (by decide) (by decide) (by decide)

/-- An image of 9 rows with 40 samples; its left tile has 20 columns. -/
def wide : List (List Int) := (List.range 9).map fun r => (List.range 40).map fun c => ((1237 * r * r + 911 * c * c + 3001 * c * r) % 16384 : Nat)

def wideTile : List Bands3 × List (List Int) := tileBands false (rowTiles 20 (rowLevels false true 2 20 2 0 20 9)) 9 40 0 (exL true 2 20 + halved 2 20) wide

def wideCoded : List QBand3 := wideTile.1.map fun b => ((hdr 4 0, b.1), (hdr 4 0, b.2.1), (hdr 4 0, b.2.2))

theorem wide_bands : (∀ b ∈ wideTile.1, (CoeffRows b.1 ∧ CoeffRows b.2.1 ∧ CoeffRows b.2.2)) ∧ RowsBd 131072 wideTile.2 := by
  unfold CoeffRows RowsBd
  decide +kernel

example : decodeWavePlane ⟨false, false, false, true⟩ 0x100 2 20 9 true 0 none (planeBands true (hdr 4 0, wideTile.2) wideCoded) =
    .ok (wide.map fun row => (row.drop 0).take 20) := by
  have hb := wide_bands
  have hl : wideCoded.length = 2 := by rw [wideCoded, List.length_map]; rfl
  have hc : wideCoded.map coefs = wideTile.1 := by
    rw [wideCoded, List.map_map]
    exact List.map_id _
  have h4 : ∀ b ∈ wideCoded, b.1.1.qParam = 4 ∧ b.2.1.1.qParam = 4 ∧ b.2.2.1.qParam = 4 := by
    intro b h
    simp only [wideCoded, List.mem_map] at h
    obtain ⟨x, hx, rfl⟩ := h
    exact ⟨rfl, rfl, rfl⟩
  have hh : HdrOK false (hdr 4 0) := by unfold HdrOK; decide
  have := C55_tile_param ⟨false, false, false, true⟩ rfl rfl 0x100 20 9 true (hdr 4 0, wideTile.2) wideCoded (by intro h; rw [h] at hl; cases hl) (by omega)
    (by decide) (by decide) 40 0 wide (by unfold Rect; decide +kernel) (by rw [hl]) (fun _ => rfl) (by decide) _
    (subbandSizes_ok _ rfl rfl _ _ _ (by omega) (by omega))
    (by
      rw [dequant_four _ _ _ _ h4, dequantLL_four _ _ _ _ rfl, hc, hl]
      rfl)
    (by
      intro b h
      simp only [wideCoded, List.mem_map] at h
      obtain ⟨x, hx, rfl⟩ := h
      exact ⟨⟨hh, (hb.1 x hx).1⟩, ⟨hh, (hb.1 x hx).2.1⟩, hh, (hb.1 x hx).2.2⟩)
    ⟨hh, by
      unfold LLOK
      rw [if_pos rfl]
      exact ⟨fun r hr v hv => by have := hb.2 r hr v hv; omega, rfl⟩⟩
    (by
      rw [dequant_four _ _ _ _ h4, hc]
      intro b h
      have := hb.1 b h
      exact ⟨fun r hr v hv => by have := this.1 r hr v hv; omega, fun r hr v hv => by have := this.2.1 r hr v hv; omega,
        fun r hr v hv => by have := this.2.2 r hr v hv; omega⟩)
    (by rw [dequantLL_four _ _ _ _ rfl]; exact fun r hr v hv => by have := hb.2 r hr v hv; omega)
    16383 (by decide) (by unfold RowsBd; decide +kernel) (by rw [hl]; decide)
  rw [hl] at this
  exact this

/-- A plane that cannot be decoded since its band HH, all zero, has no data -/
example : decodeWavePlane alone 0x100 1 5 5 true 0 none
    (planeBands true someLL [((hdr 4 0, someBands.1), (hdr 4 0, someBands.2.1), (⟨0, false, 4, 1, 0⟩, []))]) = .error .panic := by decide +kernel

end Verif.Props
