import Verif.Proofs.CrxTileSize
import Verif.Props.CrxWavelet

namespace Verif.Crx

open CrxSpec Wav Verif.Props

theorem rect_scale (F : Nat → Nat → Int) (n m : Nat) (rows : List (List Int)) : Rect n m (scaleAt F rows) ↔ Rect n m rows := by
  unfold Rect scaleAt
  rw [List.length_mapIdx]
  refine and_congr_right fun _ => ?_
  constructor
  · intro h row hr
    obtain ⟨i, hi, rfl⟩ := List.getElem_of_mem hr
    have := h _ (List.getElem_mem (l := rows.mapIdx _) (n := i) (by simpa using hi))
    simpa using this
  · intro h row hr
    obtain ⟨i, hi, rfl⟩ := List.getElem_of_mem hr
    simp only [List.length_mapIdx] at hi
    simp [h _ (List.getElem_mem hi)]

theorem rect_window (n m : Nat) (s : Int) (Y : Img) : Rect n m (window n m s Y) := by
  constructor
  · simp [window]
  · intro row hr
    simp only [window, List.mem_map] at hr
    obtain ⟨r, _, rfl⟩ := hr
    simp

theorem transformSizes_eq (left right : Bool) (levels pw : Nat) : ∀ (n lev bw bh p : Nat),
    tileSizes (rowTiles p (rowLevels left right levels pw (n + 1) lev bw bh)) bh = transformSizes p bh (rowLevels left right levels pw (n + 1) lev bw bh)
  | 0, lev, bw, bh, p => rfl
  | n + 1, lev, bw, bh, p => by
    have ih := transformSizes_eq left right levels pw n (lev + 1) ((bw + 1) / 2) ((bh + 1) / 2) ((bw + 1) / 2 + ex1 right levels pw lev)
    rw [rowLevels, rowTiles, tileSizes]
    rw [ih]
    rw [transformSizes, transformSizes, rowLevels]
    rfl

/-- The sizes of the bands of a tile -/
theorem tileBands_shape (left right : Bool) (levels pw : Nat) : ∀ (n lev bw bh p w x0 wl : Nat) (rows : List (List Int)),
    ∃ hl : (tileBands left (rowTiles p (rowLevels left right levels pw n lev bw bh)) bh w x0 wl rows).1.length = n,
    (∀ i (h : i < n), ∃ s, (rowLevels left right levels pw n lev bw bh)[i]? = some s ∧
      Rect s.hLow s.wHigh ((tileBands left (rowTiles p (rowLevels left right levels pw n lev bw bh)) bh w x0 wl rows).1[i].1) ∧
      Rect s.hHigh s.wLow ((tileBands left (rowTiles p (rowLevels left right levels pw n lev bw bh)) bh w x0 wl rows).1[i].2.1) ∧
      Rect s.hHigh s.wHigh ((tileBands left (rowTiles p (rowLevels left right levels pw n lev bw bh)) bh w x0 wl rows).1[i].2.2)) ∧
    Rect (halved n bh) wl (tileBands left (rowTiles p (rowLevels left right levels pw n lev bw bh)) bh w x0 wl rows).2
  | 0, lev, bw, bh, p, w, x0, wl, rows => ⟨rfl, fun i h => absurd h (by omega), rect_window _ _ _ _⟩
  | n + 1, lev, bw, bh, p, w, x0, wl, rows => by
    obtain ⟨h1, h2, h3⟩ := tileBands_shape left right levels pw n (lev + 1) ((bw + 1) / 2) ((bh + 1) / 2) ((bw + 1) / 2 + ex1 right levels pw lev)
      ((w + 1) / 2) (x0 / 2) wl (window ((bh + 1) / 2) ((w + 1) / 2) 0 (LL (ext bh w rows)))
    simp only [rowLevels, rowTiles, tileBands, List.length_cons, halved]
    refine ⟨by omega, ?_, h3⟩
    intro i hi
    cases i with
    | zero => exact ⟨_, rfl, rect_window _ _ _ _, rect_window _ _ _ _, rect_window _ _ _ _⟩
    | succ i =>
      simp only [List.getElem_cons_succ, List.getElem?_cons_succ]
      exact h2 i (by omega)

theorem decode_of (f : Flags) (ht : f.top = false) (hb : f.bottom = false) (version pw ph : Nat) (qs : Option (List QStep)) (T : Option (Nat → List (List Nat)))
    (ref : Bool) (ll : QBand) (bs : List QBand3) (hpos : 0 < bs.length) (h3 : bs.length ≤ 3) (htab : TablesOK qs T version bs.length pw ph)
    (hw : T.isSome → ∀ i < bs.length, 2 ≤ halved i pw) (hpw : 0 < pw) (hph : 0 < ph)
    (hs : ∀ i (h : i < bs.length), LevelShape ((rowLevels f.left f.right bs.length pw bs.length 0 pw ph)[i]'(by rwa [rowLevels_length])) bs[i])
    (hsl : Rect (halved bs.length ph) (exL f.right bs.length pw + halved bs.length pw) ll.2)
    (hk : ∀ b ∈ bs, LevelOK T.isSome b) (hkl : HdrOK T.isSome ll.1 ∧ LLOK T.isSome ref ll)
    (hbd : ∀ b ∈ dequant T f.left 1 pw bs, Bds 2147483647 b) (hbl : RowsBd 2147483647 (dequantLL T ref bs.length pw ll)) :
    ∃ src sll, GivesAll nextLine src (dequant T f.left 1 pw bs) ∧ Gives nextLine sll (dequantLL T ref bs.length pw ll) ∧
      decodeWavePlane f version bs.length pw ph ref 0 qs (planeBands ref ll bs) =
        wavePlane nextLine f ph pw (newLevels (transformSizes pw ph (rowLevels f.left f.right bs.length pw bs.length 0 pw ph)) src) sll := by
  obtain ⟨src, q, h1, h2, h3', h4⟩ := plane_sources f ht version pw ph qs T ref ll bs hpos h3 htab hw hpw hs hsl hk hkl hbd hbl
  refine ⟨src, _, h3', h4, ?_⟩
  unfold decodeWavePlane
  rw [assert', if_pos (decide_eq_true ⟨hph, hpw⟩)]
  simp only [bind, Except.bind]
  rw [subbandSizes_ok f ht hb _ _ _ hpos h3]
  simp only [h2, h1]
  rfl

/-! ## One tile -/

theorem planeSizes_row (levels pw : Nat) : ∀ (n lev bw bh : Nat),
    transformSizes bw bh (rowLevels false false levels pw (n + 1) lev bw bh) = planeSizes (n + 1) bh bw
  | 0, lev, bw, bh => rfl
  | n + 1, lev, bw, bh => by
    rw [planeSizes, ← planeSizes_row levels pw n (lev + 1) ((bw + 1) / 2) ((bh + 1) / 2), rowLevels, transformSizes, transformSizes, rowLevels]
    simp only [ex1, Bool.false_eq_true, if_false, Nat.add_zero]
    rfl

/-- The quantized coefficients -/
def coefs (b : QBand3) : Bands3 := (b.1.2, b.2.1.2, b.2.2.2)

theorem shape_get : ∀ (bs : List Bands3) (ll : List (List Int)) (h w : Nat), Shape bs ll h w →
    (∀ i (hi : i < bs.length), Rect ((halved i h + 1) / 2) (halved i w / 2) bs[i].1 ∧ Rect (halved i h / 2) ((halved i w + 1) / 2) bs[i].2.1 ∧
      Rect (halved i h / 2) (halved i w / 2) bs[i].2.2) ∧ Rect (halved bs.length h) (halved bs.length w) ll
  | [], ll, h, w, hs => ⟨fun i hi => absurd hi (by simp), hs⟩
  | b :: bs, ll, h, w, hs => by
    obtain ⟨h1, h2, h3, h4⟩ := hs
    obtain ⟨i1, i2⟩ := shape_get bs ll _ _ h4
    refine ⟨?_, i2⟩
    intro i hi
    cases i with
    | zero => exact ⟨h1, h2, h3⟩
    | succ i => exact i1 i (by simpa using hi)

theorem shape_of : ∀ (bs : List Bands3) (ll : List (List Int)) (h w : Nat),
    (∀ i (hi : i < bs.length), Rect ((halved i h + 1) / 2) (halved i w / 2) bs[i].1 ∧ Rect (halved i h / 2) ((halved i w + 1) / 2) bs[i].2.1 ∧
      Rect (halved i h / 2) (halved i w / 2) bs[i].2.2) → Rect (halved bs.length h) (halved bs.length w) ll → Shape bs ll h w
  | [], ll, h, w, _, hl => hl
  | b :: bs, ll, h, w, hs, hl => by
    have := hs 0 (by simp)
    refine ⟨this.1, this.2.1, this.2.2, ?_⟩
    exact shape_of bs ll _ _ (fun i hi => by have := hs (i + 1) (by simpa using hi); simpa [halved] using this) hl

theorem rect_dequantLL (T : Option (Nat → List (List Nat))) (ref : Bool) (levels w : Nat) (ll : QBand) (n m : Nat) :
    Rect n m (dequantLL T ref levels w ll) ↔ Rect n m ll.2 := by
  unfold dequantLL
  split
  · exact Iff.rfl
  · exact rect_scale _ _ _ _

theorem single_ok (version pw ph : Nat) (qs : Option (List QStep)) (T : Option (Nat → List (List Nat)))
    (ref : Bool) (ll : QBand) (bs : List QBand3) (hpos : bs ≠ []) (h3 : bs.length ≤ 3) (htab : TablesOK qs T version bs.length pw ph)
    (hw : T.isSome → ∀ i < bs.length, 2 ≤ halved i pw) (hsz : SizesOK (planeSizes bs.length ph pw))
    (hs : Shape (bs.map coefs) ll.2 ph pw) (hk : ∀ b ∈ bs, LevelOK T.isSome b) (hkl : HdrOK T.isSome ll.1 ∧ LLOK T.isSome ref ll)
    (M : Int) (hM : 0 ≤ M) (hbd : ∀ b ∈ dequant T false 1 pw bs, Bds M b) (hbl : RowsBd M (dequantLL T ref bs.length pw ll))
    (hlim : 9 ^ bs.length * (2 * M + 3) ≤ 380000003) :
    ∃ rows, Rect ph pw rows ∧ forward bs.length ph pw rows = (dequant T false 1 pw bs, dequantLL T ref bs.length pw ll) ∧
      decodeWavePlane alone version bs.length pw ph ref 0 qs (planeBands ref ll bs) = .ok rows := by
  have hlen : 0 < bs.length := List.length_pos_iff.mpr hpos
  obtain ⟨n, hn⟩ : ∃ n, bs.length = n + 1 := ⟨bs.length - 1, by omega⟩
  have h0 : ph ≠ 0 ∧ ph ≠ 2 ∧ pw ≠ 0 ∧ pw ≠ 2 := hsz (ph, pw) (by rw [hn]; simp [planeSizes])
  have hMb : M ≤ 2147483647 := by
    have h1 : (1 : Int) * (2 * M + 3) ≤ 9 ^ bs.length * (2 * M + 3) :=
      Int.mul_le_mul_of_nonneg_right (by have : (1 : Nat) ≤ 9 ^ bs.length := Nat.one_le_pow _ _ (by omega); exact_mod_cast this) (by omega)
    omega
  have mono : ∀ l, RowsBd M l → RowsBd 2147483647 l := fun l h r hr v hv => by have := h r hr v hv; omega
  obtain ⟨g1, g2⟩ := shape_get _ _ _ _ hs
  rw [List.length_map] at g2
  have g1' : ∀ i (hi : i < bs.length), Rect ((halved i ph + 1) / 2) (halved i pw / 2) bs[i].1.2 ∧ Rect (halved i ph / 2) ((halved i pw + 1) / 2) bs[i].2.1.2 ∧
      Rect (halved i ph / 2) (halved i pw / 2) bs[i].2.2.2 := by
    intro i hi
    have := g1 i (by simpa using hi)
    simpa only [List.getElem_map, coefs] using this
  obtain ⟨src, sll, e1, e2, e3⟩ := decode_of alone rfl rfl version pw ph qs T ref ll bs hlen h3 htab hw (by omega) (by omega) (by
      intro i hi
      rw [rowLevels_get]
      simpa [LevelShape, ex0, ex1] using g1' i hi) (by simpa [exL] using g2) hk hkl
    (fun b hb => ⟨mono _ (hbd b hb).1, mono _ (hbd b hb).2.1, mono _ (hbd b hb).2.2⟩) (mono _ hbl)
  have hdl := dequant_length T false 1 pw bs
  have hts : transformSizes pw ph (rowLevels false false bs.length pw bs.length 0 pw ph) = planeSizes bs.length ph pw := by
    rw [hn]
    exact planeSizes_row _ _ _ _ _ _
  have := C54_bands nextLine (dequant T false 1 pw bs) (by intro h; rw [h] at hdl; simp at hdl; omega) (dequantLL T ref bs.length pw ll) ph pw
    (by
      refine shape_of _ _ _ _ ?_ ?_
      · intro i hi
        rw [hdl] at hi
        rw [dequant_get T false bs 1 pw i hi]
        simp only [rect_scale]
        exact g1' i hi
      · rw [hdl, rect_dequantLL]; exact g2)
    (by rw [hdl]; exact hsz) M hM hbl hbd (by rw [hdl]; exact hlim) src sll e1 e2
  rw [hdl] at this
  obtain ⟨rows, r1, r2, r3⟩ := this
  refine ⟨rows, r1, r2, ?_⟩
  rw [e3]
  show wavePlane nextLine alone ph pw (newLevels (transformSizes pw ph (rowLevels false false bs.length pw bs.length 0 pw ph)) src) sll = _
  rw [hts]
  exact r3

/-! ## A tile in a row of tiles -/

theorem tile_lossy_ok (f : Flags) (ht : f.top = false) (hb : f.bottom = false) (version pw ph : Nat) (qs : Option (List QStep))
    (T : Option (Nat → List (List Nat))) (ref : Bool) (ll : QBand) (bs : List QBand3) (hpos : bs ≠ []) (h3 : bs.length ≤ 3)
    (htab : TablesOK qs T version bs.length pw ph) (hp : 17 ≤ pw) (hh : 9 ≤ ph)
    (W x0 : Nat) (image : List (List Int)) (hr : Rect ph W image) (hx : x0 % 2 ^ bs.length = 0) (hleft : f.left = false → x0 = 0)
    (hright : if f.right then x0 + pw + 16 ≤ W else x0 + pw = W) (z : PlaneSize) (hz : subbandSizes f bs.length pw ph = .ok z)
    (hd : (dequant T f.left 1 pw bs, dequantLL T ref bs.length pw ll) = tileBands f.left (rowTiles pw z.levels) ph W x0 z.width image)
    (hk : ∀ b ∈ bs, LevelOK T.isSome b) (hkl : HdrOK T.isSome ll.1 ∧ LLOK T.isSome ref ll)
    (hbd : ∀ b ∈ dequant T f.left 1 pw bs, Bds 2147483647 b) (hbl : RowsBd 2147483647 (dequantLL T ref bs.length pw ll))
    (B : Int) (hB : 0 ≤ B) (himg : RowsBd B image) (hlim : (B + 2) * 4 ^ (bs.length - 1) ≤ 190000002) :
    decodeWavePlane f version bs.length pw ph ref 0 qs (planeBands ref ll bs) = .ok (image.map fun row => (row.drop x0).take pw) := by
  have hlen : 0 < bs.length := List.length_pos_iff.mpr hpos
  have hdl := dequant_length T f.left 1 pw bs
  rw [subbandSizes_ok f ht hb _ _ _ hlen h3] at hz
  cases hz
  simp only at hd
  have hd1 := congrArg Prod.fst hd
  have hd2 := congrArg Prod.snd hd
  simp only at hd1 hd2
  obtain ⟨s1, s2, s3⟩ := tileBands_shape f.left f.right bs.length pw bs.length 0 pw ph pw W x0 (exL f.right bs.length pw + halved bs.length pw) image
  rw [← hd2, rect_dequantLL] at s3
  have hw : ∀ i < bs.length, 2 ≤ halved i pw := by
    intro i hi
    have h : i = 0 ∨ i = 1 ∨ i = 2 := by omega
    rcases h with rfl | rfl | rfl <;> simp only [halved] <;> omega
  obtain ⟨src, sll, e1, e2, e3⟩ := decode_of f ht hb version pw ph qs T ref ll bs hlen h3 htab (fun _ => hw) (by omega) (by omega) (by
      intro i hi
      obtain ⟨s, t1, t2, t3, t4⟩ := s2 i hi
      simp only [← hd1, dequant_get T f.left bs 1 pw i hi, rect_scale] at t2 t3 t4
      have hi' : i < (rowLevels f.left f.right bs.length pw bs.length 0 pw ph).length := by rwa [rowLevels_length]
      rw [List.getElem?_eq_getElem hi'] at t1
      cases t1
      exact ⟨t2, t3, t4⟩) s3 hk hkl hbd hbl
  rw [e3]
  obtain ⟨n, hn⟩ : ∃ n, bs.length = n + 1 := ⟨bs.length - 1, by omega⟩
  have hok : TileOK f.left f.right (rowTiles pw (rowLevels f.left f.right bs.length pw bs.length 0 pw ph)) ph W x0
      (exL f.right bs.length pw + halved bs.length pw) := by
    cases hf : f.right with
    | true => exact tileOK_right f.left bs.length pw ph W x0 hlen h3 hp hh hx hleft (by simpa [hf] using hright)
    | false => exact tileOK_last f.left bs.length pw ph W x0 hlen h3 (by omega) hh hx hleft (by simpa [hf] using hright)
  rw [hd1] at e1
  rw [hd2] at e2
  have hts : tileSizes (rowTiles pw (rowLevels f.left f.right bs.length pw bs.length 0 pw ph)) ph =
      transformSizes pw ph (rowLevels f.left f.right bs.length pw bs.length 0 pw ph) := by
    conv => lhs; rw [hn]
    conv => rhs; rw [hn]
    exact transformSizes_eq _ _ _ _ _ _ _ _ _
  rw [← hts]
  have hcons : ∃ ts, rowTiles pw (rowLevels f.left f.right bs.length pw bs.length 0 pw ph) =
      ⟨pw, pw / 2 + ex0 f.left f.right bs.length pw 0, (pw + 1) / 2 + ex1 f.right bs.length pw 0⟩ :: ts ∧ ts.length = bs.length - 1 := by
    have tl : ∀ (l : List LevelSize) p, (rowTiles p l).length = l.length := by
      intro l
      induction l with
      | nil => intro p; rfl
      | cons a l ih => intro p; rw [rowTiles, List.length_cons, List.length_cons, ih]
    have : rowLevels f.left f.right bs.length pw bs.length 0 pw ph = rowLevels f.left f.right bs.length pw (n + 1) 0 pw ph := by rw [← hn]
    rw [this, rowLevels, rowTiles]
    exact ⟨_, rfl, by rw [tl, rowLevels_length]; omega⟩
  obtain ⟨ts, hts', htl⟩ := hcons
  rw [hts'] at e1 e2 hok ⊢
  exact C54_tile nextLine f ht hb _ ts ph W x0 _ image hr hok B hB himg (by rw [htl]; exact hlim) src sll e1 e2

end Verif.Crx
