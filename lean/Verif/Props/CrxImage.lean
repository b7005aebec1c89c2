import Verif.Proofs.CrxImage
import Verif.Proofs.CrxLayout

/-! # C50: lossless CR3 images decode to the stored mosaic -/

namespace Verif.Props
open Verif Verif.Crx Verif.CrxSpec

/-- The file: header records of `n` tiles of four planes, end marker, the coded bands in order, whatever follows. -/
def crxFile (coded : Nat → Nat → Coded) (n : Nat) (marker rest : List Nat) : List Nat :=
  let tiles := (List.range n).map fun k => (List.range 4).map (coded k)
  tileRecords 0 tiles ++ marker ++ tiles.flatMap tileBody ++ rest

def crxHeaderSize (coded : Nat → Nat → Coded) (n : Nat) (marker : List Nat) : Nat :=
  (tileRecords 0 ((List.range n).map fun k => (List.range 4).map (coded k)) ++ marker).length

/-- **C50** for pictures with one row of tiles or square tiles (full statement: every tile size; see `C50_tile_rows_wrong`). If every
plane of every tile of a picture `px` is stored as the format prescribes, decoding the file gives the picture, row by row. -/
theorem C50_lossless_image_partial (px : Nat → Nat → Nat) (w h tw th bits nBits : Nat) (coded : Nat → Nat → Coded) (marker rest : List Nat)
    (hw : 0 < w ∧ w % 2 = 0) (hh : 0 < h ∧ h % 2 = 0) (htw : 0 < tw ∧ tw % 2 = 0) (hth : 0 < th ∧ th % 2 = 0)
    (hcols : tileCount w tw ≤ 255) (hrows : tileCount h th ≤ 255) (hsq : h ≤ th ∨ tw = th)
    (hbits : 1 ≤ bits ∧ bits ≤ 16) (hnb : nBits ≤ 254) (hpx : ∀ y x, y < h → x < w → px y x < 2 ^ bits)
    (hmark : marker = [] ∨ ∃ t, marker = 0 :: 0 :: t)
    (hcoded : ∀ tr tc p, tr < tileCount h th → tc < tileCount w tw → p < 4 →
      Codes (planeLines px w h tw th bits tr tc p) (coded (tr * tileCount w tw + tc) p))
    (hsize : ∀ k, k < tileCount w tw * tileCount h th → (coded k 0).size + (coded k 1).size + (coded k 2).size + (coded k 3).size < 2 ^ 32) :
    decompressCrx (crxFile coded (tileCount w tw * tileCount h th) marker rest)
      { fWidth := w, fHeight := h, tileWidth := tw, tileHeight := th, nBits := nBits, nPlanes := 4, encType := 0, imageLevels := 0,
        mdatHdrSize := crxHeaderSize coded (tileCount w tw * tileCount h th) marker, medianBits := bits } =
      .ok ((List.range (w * h)).map fun i => px (i / w) (i % w)) := by
  have hC := count_pos w tw hw.1 htw.1
  have hR := count_pos h th hh.1 hth.1
  generalize hcc : tileCount w tw = cols at *
  generalize hrr : tileCount h th = rows at *
  -- the codec
  let c : Codec :=
    { imageWidth := w, imageHeight := h, levels := 0, medianBits := bits, encType := 0, tileCols := cols, tileRows := rows,
      tileWidth := tw, tileHeight := th, hdrSize := crxHeaderSize coded (cols * rows) marker }
  have hcodec : newCodec
      { fWidth := w, fHeight := h, tileWidth := tw, tileHeight := th, nBits := nBits, nPlanes := 4, encType := 0, imageLevels := 0,
        mdatHdrSize := crxHeaderSize coded (cols * rows) marker, medianBits := bits } = .ok c := by
    rw [newCodec, if_neg (by simp)]
    simp only [divCeil]
    rw [if_neg (by omega), if_neg (by omega)]
    simp only [bind, Except.bind]
    rw [← tileCount, ← tileCount, hcc, hrr]
    simp only [assert', hC, hR, decide_true, if_true, Nat.mul_zero, Nat.zero_add, Nat.reduceLT]
    rw [if_pos (by simp; omega)]
    simp only []
    rw [if_neg (by omega), if_neg (by omega)]
  -- the tiles
  have htl : ((List.range (cols * rows)).map fun k => (List.range 4).map (coded k)) = tilesOf coded 0 (cols * rows) := by
    rw [tilesOf, ← List.range_eq_range']; rfl
  have hsplit : ∀ k, k < cols * rows → k / cols < rows ∧ k % cols < cols ∧ k / cols * cols + k % cols = k := fun k hk =>
    ⟨Nat.div_lt_of_lt_mul hk, Nat.mod_lt _ hC, Nat.div_add_mod' k cols⟩
  let fw : Nat → Nat := fun k => tileExtent w tw (k % cols)
  let fh : Nat → Nat := fun k => tileExtent h th (k / cols)
  have hcod : ∀ k p, k < cols * rows → p < 4 → Codes (planeLines px w h tw th bits (k / cols) (k % cols) p) (coded k p) := by
    intro k p hk hp
    obtain ⟨h1, h2, h3⟩ := hsplit k hk
    have := hcoded (k / cols) (k % cols) p h1 h2 hp
    rwa [h3] at this
  have hfwp : ∀ k, k < cols * rows → 0 < fw k >>> 1 ∧ fw k >>> 1 = fw k / 2 ∧ fw k % 2 = 0 := by
    intro k hk
    have h1 := extent_pos w tw (k % cols) hw.1 htw.1 (by rw [hcc]; exact (hsplit k hk).2.1)
    have h2 := extent_even w tw (k % cols) hw.2 htw.2
    refine ⟨?_, Nat.shiftRight_eq_div_pow _ 1, h2⟩
    rw [Nat.shiftRight_eq_div_pow]; simp only [fw]; omega
  have hfhp : ∀ k, k < cols * rows → 0 < fh k >>> 1 ∧ fh k >>> 1 = fh k / 2 ∧ fh k % 2 = 0 := by
    intro k hk
    have h1 := extent_pos h th (k / cols) hh.1 hth.1 (by rw [hrr]; exact (hsplit k hk).1)
    have h2 := extent_even h th (k / cols) hh.2 hth.2
    refine ⟨?_, Nat.shiftRight_eq_div_pow _ 1, h2⟩
    rw [Nat.shiftRight_eq_div_pow]; simp only [fh]; omega
  have hrowoff : ∀ k, k < cols * rows → k / cols * tw = k / cols * th := by
    intro k hk
    rcases hsq with hs | hs
    · have : k / cols = 0 := by
        have h1 := (hsplit k hk).1
        have : rows ≤ 1 := by
          rw [← hrr, tileCount]
          exact Nat.le_of_lt_succ (Nat.div_lt_of_lt_mul (by omega))
        exact Nat.lt_one_iff.1 (Nat.lt_of_lt_of_le h1 this)
      rw [this]; simp
    · rw [hs]
  -- where the samples are
  have hyx : ∀ k p row col, k < cols * rows → p < 4 → row < fh k >>> 1 → col < fw k >>> 1 →
      k / cols * th + 2 * row + p / 2 < h ∧ k % cols * tw + 2 * col + p % 2 < w ∧
      posOf c k p row col = (k / cols * th + 2 * row + p / 2) * w + (k % cols * tw + 2 * col + p % 2) := by
    intro k p row col hk hp hr hc
    have e1 := hfwp k hk; have e2 := hfhp k hk
    have a1 := extent_in h th (k / cols) (2 * row + p / 2) (show _ < fh k by omega)
    have a2 := extent_in w tw (k % cols) (2 * col + p % 2) (show _ < fw k by omega)
    refine ⟨by omega, by omega, ?_⟩
    simp only [posOf, c]
    rw [hrowoff k hk, Nat.mul_comm row 2, Nat.mul_comm col 2]
  let img : Nat → Nat := fun i => px (i / w) (i % w)
  have himg : ∀ y x, x < w → img (y * w + x) = px y x := by
    intro y x hx
    simp only [img]
    rw [Nat.mul_comm y w, Nat.mul_add_div hw.1, Nat.div_eq_of_lt hx, Nat.mul_add_mod, Nat.mod_eq_of_lt hx, Nat.add_zero]
  have hbound : ∀ k p row col, k < cols * rows → p < 4 → row < fh k >>> 1 → col < fw k >>> 1 → posOf c k p row col < w * h := by
    intro k p row col hk hp hr hc
    obtain ⟨q1, q2, q3⟩ := hyx k p row col hk hp hr hc
    rw [q3]
    calc _ < (k / cols * th + 2 * row + p / 2) * w + w := by omega
      _ = (k / cols * th + 2 * row + p / 2 + 1) * w := (Nat.succ_mul _ _).symm
      _ ≤ h * w := Nat.mul_le_mul_right _ q1
      _ = w * h := Nat.mul_comm _ _
  have hlines : ∀ k p, k < cols * rows → p < 4 →
      planeLines px w h tw th bits (k / cols) (k % cols) p = (List.range (fh k >>> 1)).map (lineOf c img (fw k >>> 1) k p) := by
    intro k p hk hp
    rw [planeLines, (hfhp k hk).2.1]
    refine List.map_congr_left fun r hr => ?_
    rw [lineOf, (hfwp k hk).2.1]
    refine List.map_congr_left fun q hq => ?_
    have hr := List.mem_range.1 hr; have hq := List.mem_range.1 hq
    obtain ⟨q1, q2, q3⟩ := hyx k p r q hk hp (by rw [(hfhp k hk).2.1]; exact hr) (by rw [(hfwp k hk).2.1]; exact hq)
    rw [q3, himg _ _ q2]; rfl
  have hval : ∀ i, i < w * h → img i < 2 ^ c.medianBits := by
    intro i hi
    exact hpx _ _ (Nat.div_lt_of_lt_mul hi) (Nat.mod_lt _ hw.1)
  -- header
  have hsz : ∀ k p, k < cols * rows → p < 4 → (coded k p).size ≠ 0 ∧ (coded k p).size % 8 = 0 ∧ (coded k p).unused < 2 ^ 19 := fun k p hk hp =>
    ⟨(hcod k p hk hp).2.2.2, (hcod k p hk hp).2.2.1, (hcod k p hk hp).2.1⟩
  have hparse : parseHeader (tileRecords 0 (tilesOf coded 0 (cols * rows)) ++ marker) = .ok (expTiles 0 0 (tilesOf coded 0 (cols * rows))) := by
    refine parseHeader_ok _ ?_ marker hmark ?_
    · have : 0 < cols * rows := Nat.mul_pos hC hR
      intro e
      have := congrArg List.length e
      simp [tilesOf] at this; omega
    · intro t ht
      simp only [tilesOf, List.mem_map, List.mem_range'_1, Nat.zero_add] at ht
      obtain ⟨k, ⟨-, hk⟩, rfl⟩ := ht
      have hs := hsize k hk
      refine ⟨by simp [tileOf], by simp [tileOf], by simp [tileOf]; omega, ?_⟩
      intro d hd
      simp only [tileOf, List.mem_cons, List.not_mem_nil, or_false] at hd
      rcases hd with rfl | rfl | rfl | rfl
      · exact ⟨(hsz k 0 hk (by omega)).2.2, by omega⟩
      · exact ⟨(hsz k 1 hk (by omega)).2.2, by omega⟩
      · exact ⟨(hsz k 2 hk (by omega)).2.2, by omega⟩
      · exact ⟨(hsz k 3 hk (by omega)).2.2, by omega⟩
  have hgood := expTiles_good coded (cols * rows) 0 0 (fun k j hk hj => ⟨(hsz k j (by omega) hj).1, (hsz k j (by omega) hj).2.1⟩)
  have hcount : (expTiles 0 0 (tilesOf coded 0 (cols * rows))).length = cols * rows := by
    rw [expTiles_length]; simp [tilesOf]
  have hproc : processTiles c (expTiles 0 0 (tilesOf coded 0 (cols * rows))) =
      .ok ((expTiles 0 0 (tilesOf coded 0 (cols * rows))).map (fin fw fh)) := by
    refine processTiles_ok c _ fw fh rfl (fun t ht => (hgood t ht).1) ?_ ?_
    · intro t ht
      have hk : t.id < cols * rows := by have := (hgood t ht).2.2; omega
      have hm : (t.id + 1) % cols = if t.id % cols + 1 = cols then 0 else t.id % cols + 1 := by
        have := (hsplit _ hk).2.1
        split
        · rename_i h1
          conv => lhs; rw [← (hsplit _ hk).2.2, Nat.add_assoc, h1]
          rw [← Nat.succ_mul]; exact Nat.mul_mod_left _ _
        · rename_i h1
          conv => lhs; rw [← (hsplit _ hk).2.2, Nat.add_assoc, Nat.mul_comm, Nat.mul_add_mod, Nat.mod_eq_of_lt (by omega)]
      rw [tileWidthOf]
      simp only [c, hm, fw]
      by_cases hl : t.id % cols + 1 = cols
      · rw [if_pos hl, if_neg (by simp), extent_last w tw _ hw.1 htw.1 (by rw [hcc]; exact hl), usub]
        have := start_lt w tw (cols - 1) hw.1 htw.1 (by rw [hcc]; omega)
        rw [Nat.mul_comm tw, if_pos (by omega), show t.id % cols = cols - 1 by omega]
      · have := (hsplit _ hk).2.1
        rw [if_neg hl, if_pos (by omega), extent_mid w tw _ hw.1 htw.1 (by rw [hcc]; omega)]
    · intro t ht
      have hk : t.id < cols * rows := by have := (hgood t ht).2.2; omega
      have h0 := (hsplit _ hk).1
      have hcr : cols ≤ cols * rows := Nat.le_mul_of_pos_right _ hR
      rw [tileHeightOf, hcount]
      simp only [c, usub, fh]
      rw [if_pos hcr]
      simp only [bind, Except.bind]
      have hlast : t.id < cols * rows - cols ↔ t.id / cols < rows - 1 := by
        rw [Nat.div_lt_iff_lt_mul hC, Nat.sub_mul, Nat.one_mul, Nat.mul_comm rows]
      by_cases hl : t.id / cols < rows - 1
      · rw [if_pos (hlast.2 hl), extent_mid h th _ hh.1 hth.1 (by rw [hrr]; omega)]
      · rw [if_neg (fun e => hl (hlast.1 e)), extent_last h th _ hh.1 hth.1 (by rw [hrr]; omega)]
        have := start_lt h th (rows - 1) hh.1 hth.1 (by rw [hrr]; omega)
        rw [Nat.mul_comm th, if_pos (by omega), show t.id / cols = rows - 1 by omega]
  -- planes
  have hdec := tiles_decode coded (fun k p => planeLines px w h tw th bits (k / cols) (k % cols) p) fw fh rest (cols * rows) 0 []
    (fun k hk => ⟨(hfwp k (by omega)).1, (hfhp k (by omega)).1⟩)
    (by
      intro k p hk hp
      have hk : k < cols * rows := by omega
      refine ⟨by rw [hlines k p hk hp]; simp, ?_, hcod k p hk hp⟩
      rw [hlines k p hk hp]
      intro l hl
      obtain ⟨r, hr, rfl⟩ := List.mem_map.1 hl
      refine ⟨by simp [lineOf], ?_⟩
      intro v hv
      obtain ⟨q, hq, rfl⟩ := List.mem_map.1 hv
      have hr := List.mem_range.1 hr; have hq := List.mem_range.1 hq
      have hb := hval _ (hbound k p r q hk hp hr hq)
      have h16 : 2 ^ bits ≤ 2 ^ 16 := Nat.pow_le_pow_right (by omega) hbits.2
      have h15 : 2 ^ (bits - 1) ≤ 2 ^ 15 := Nat.pow_le_pow_right (by omega) (by omega)
      have hI : ((2 ^ (bits - 1) : Nat) : Int) = (2 : Int) ^ (bits - 1) := by simp
      show (((img (posOf c k p r q) : Nat) : Int) - 2 ^ (bits - 1)).natAbs ≤ 131072
      have hb' : img (posOf c k p r q) < 2 ^ bits := hb
      rw [← hI]
      generalize img (posOf c k p r q) = v at hb' ⊢
      generalize 2 ^ (bits - 1) = m at h15 ⊢
      omega)
  -- assembly
  obtain ⟨cfa, hcfa, hag⟩ := integrateTiles_ok c coded fw fh (w * h) img rfl hbits hval (cols * rows) 0 0 (List.replicate (w * h) 0) (fun _ => False)
    (fun k hk => (hfwp k (by omega)).1) (fun k p row col hk => hbound k p row col (by omega)) ⟨by simp, fun i hi => hi.elim⟩
  have hall := agrees_all _ _ _ _ hag (by
    intro i hi
    have hy : i / w < h := Nat.div_lt_of_lt_mul hi
    have hx : i % w < w := Nat.mod_lt _ hw.1
    obtain ⟨y1, y2⟩ := offset_lt h th (i / w) hth.1 hy
    obtain ⟨x1, x2⟩ := offset_lt w tw (i % w) htw.1 hx
    have hrow := index_lt h th (i / w) hth.1 hy
    have hcol := index_lt w tw (i % w) htw.1 hx
    rw [hrr] at hrow; rw [hcc] at hcol
    have hkd : (i / w / th * cols + i % w / tw) / cols = i / w / th := by
      rw [Nat.mul_comm, Nat.mul_add_div hC, Nat.div_eq_of_lt hcol, Nat.add_zero]
    have hkm : (i / w / th * cols + i % w / tw) % cols = i % w / tw := by
      rw [Nat.mul_comm, Nat.mul_add_mod, Nat.mod_eq_of_lt hcol]
    have hk : i / w / th * cols + i % w / tw < cols * rows := by
      calc _ < i / w / th * cols + cols := by omega
        _ = (i / w / th + 1) * cols := (Nat.succ_mul _ _).symm
        _ ≤ rows * cols := Nat.mul_le_mul_right _ hrow
        _ = cols * rows := Nat.mul_comm _ _
    have e1 := hfwp _ hk; have e2 := hfhp _ hk
    simp only [fw, fh, hkd, hkm] at e1 e2
    refine Or.inr ⟨i / w / th * cols + i % w / tw, (i / w - i / w / th * th) % 2 * 2 + (i % w - i % w / tw * tw) % 2,
      (i / w - i / w / th * th) / 2, (i % w - i % w / tw * tw) / 2, by omega, by omega, by omega, ?_, ?_, ?_⟩
    · simp only [fh, hkd]; omega
    · simp only [fw, hkm]; omega
    · rw [(hyx _ _ _ _ hk (by omega) (by simp only [fh, hkd]; omega) (by simp only [fw, hkm]; omega)).2.2, hkd, hkm]
      rw [show i / w / th * th + 2 * ((i / w - i / w / th * th) / 2) + ((i / w - i / w / th * th) % 2 * 2 + (i % w - i % w / tw * tw) % 2) / 2 = i / w by omega,
        show i % w / tw * tw + 2 * ((i % w - i % w / tw * tw) / 2) + ((i / w - i / w / th * th) % 2 * 2 + (i % w - i % w / tw * tw) % 2) % 2 = i % w by omega]
      exact (Nat.div_add_mod' i w).symm)
  rw [decompressCrx, hcodec]
  simp only [bind, Except.bind]
  have hhdr : c.hdrSize = (tileRecords 0 (tilesOf coded 0 (cols * rows)) ++ marker).length := by
    simp only [c, crxHeaderSize, htl]
  have hfile : crxFile coded (cols * rows) marker rest = (tileRecords 0 (tilesOf coded 0 (cols * rows)) ++ marker) ++
      ((tilesOf coded 0 (cols * rows)).flatMap tileBody ++ rest) := by
    simp only [crxFile, htl, List.append_assoc]
  rw [decode, hhdr, hfile, assert', if_pos (by simp)]
  simp only [bind, Except.bind]
  rw [List.take_left, List.drop_left, hparse]
  simp only []
  rw [hproc]
  simp only []
  rw [show (List.length ([] : List Nat)) = 0 from rfl, List.nil_append] at hdec
  rw [hdec]
  simp only []
  rw [show c.imageWidth * c.imageHeight = w * h from rfl, ← hall, ← hcfa]
  congr 1
  refine List.map_congr_left fun k hk => ?_
  have hk : k < cols * rows := by simpa using hk
  rw [hlines k 0 hk (by omega), hlines k 1 hk (by omega), hlines k 2 hk (by omega), hlines k 3 hk (by omega)]

/-- A band as an encoder would store it. -/
def storeBand (ref : Bool) (lines : List (List Int)) : Coded :=
  let data := toBytes (if ref then encBand lines else encBandNoRef lines)
  { ref, data, unused := 8 - data.length % 8 }

/-- Every plane has a valid coding, so the hypotheses of `C50_lossless_image_partial` can be met for every picture whose tiles are not too large. -/
theorem codes_storeBand (ref : Bool) (lines : List (List Int)) : Codes lines (storeBand ref lines) := by
  refine ⟨⟨[], by simp only [storeBand, List.append_nil]; rfl⟩, ?_, ?_, ?_⟩
  · simp only [storeBand]; omega
  · simp only [storeBand, Coded.size]; omega
  · simp only [storeBand, Coded.size]; omega

/-- The picture `px` coded with tile size `tw` by `th`. -/
def storeImage (px : Nat → Nat → Nat) (w h tw th bits : Nat) (k p : Nat) : Coded :=
  storeBand (p % 2 = 0) (planeLines px w h tw th bits (k / tileCount w tw) (k % tileCount w tw) p)

/-- a picture of 6 by 4 samples in two tiles of 4 by 4 (the second one narrower), with both kinds of bands -/
example : decompressCrx (crxFile (storeImage (fun y x => 100 * y + 7 * x) 6 4 4 4 10) 2 [] [1, 2, 3])
      { fWidth := 6, fHeight := 4, tileWidth := 4, tileHeight := 4, nBits := 10, nPlanes := 4, encType := 0, imageLevels := 0,
        mdatHdrSize := crxHeaderSize (storeImage (fun y x => 100 * y + 7 * x) 6 4 4 4 10) 2 [], medianBits := 10 } =
    .ok [0, 7, 14, 21, 28, 35, 100, 107, 114, 121, 128, 135, 200, 207, 214, 221, 228, 235, 300, 307, 314, 321, 328, 335] := by
  decide +kernel

/-- Why `C50_lossless_image_partial` needs one row of tiles or square tiles: the row offset of a tile is computed from the tile *width*
(decoder.rs:735). In two rows of tiles of 2 by 4 samples the second one is written over the lower half of the first, and
the last rows of the picture stay 0. With tiles that are wider than high the decoder panics. -/
theorem C50_tile_rows_wrong :
    decompressCrx (crxFile (storeImage (fun y _ => y + 1) 2 8 2 4 8) 2 [0, 0] [])
      { fWidth := 2, fHeight := 8, tileWidth := 2, tileHeight := 4, nBits := 8, nPlanes := 4, encType := 0, imageLevels := 0,
        mdatHdrSize := crxHeaderSize (storeImage (fun y _ => y + 1) 2 8 2 4 8) 2 [0, 0], medianBits := 8 } =
      .ok [1, 1, 2, 2, 5, 5, 6, 6, 7, 7, 8, 8, 0, 0, 0, 0] ∧
    decompressCrx (crxFile (storeImage (fun y _ => y + 1) 4 4 4 2 8) 2 [0, 0] [])
      { fWidth := 4, fHeight := 4, tileWidth := 4, tileHeight := 2, nBits := 8, nPlanes := 4, encType := 0, imageLevels := 0,
        mdatHdrSize := crxHeaderSize (storeImage (fun y _ => y + 1) 4 4 4 2 8) 2 [0, 0], medianBits := 8 } = panic' := by
  decide +kernel

end Verif.Props
