import Verif.Proofs.DecodeTiles
import Verif.Props.Ljpeg
/-! # C02: lossless DNG conversion preserves pixels -/

namespace Verif.Props
open Verif Verif.Tiles Verif.Pix Verif.Ljpeg Verif.Spec

/-- The decompressor fills the caller's lines with the rows of the decoded image. -/
theorem decompress_of_decodeAll (src : List Nat) (rows lines : List (List Nat)) (L : Nat) (hL : 0 < L)
    (hrows : ∀ r ∈ rows, r.length = L) (hlines : ∀ l ∈ lines, l.length = L) (hn : lines.length = rows.length)
    (hd : decodeAll src = .ok rows.flatten) : decompress src 0 lines L = .ok rows := by
  rw [decompress, hd]
  simp only [bind, Except.bind]
  rw [if_neg (by omega), chunks_of_rows _ _ hL hrows, List.drop_zero, if_pos (by
    intro p hp
    obtain ⟨a, b⟩ := p
    have := List.of_mem_zip hp
    rw [hlines _ this.1, hrows _ this.2]),
    List.drop_of_length_le (by omega), List.append_nil, zip_map_snd _ _ (by omega), hn, List.take_length]

/-- The geometry handed to the JPEG encoder is one it accepts and covers the whole tile. -/
theorem geometry_ok (ph : Photometric) (cpp px : Nat) (hcpp : 1 ≤ cpp ∧ cpp ≤ 4) (hph : cpp = 1 ∨ ph = .linearRaw) :
    ∃ g, ljpegGeometry ph cpp px 256 256 = .ok g ∧ 1 ≤ g.1 * g.2.2.2 ∧ g.1 * g.2.2.2 ≤ 65535 ∧ 1 ≤ g.2.1 / g.2.2.2 ∧
      g.2.1 / g.2.2.2 ≤ 65535 ∧ 1 ≤ g.2.2.1 ∧ g.2.2.1 ≤ 4 ∧ g.2.1 / g.2.2.2 * (g.1 * g.2.2.2 * g.2.2.1) = 256 * (256 * cpp) := by
  cases ph with
  | blackIsZero =>
    have : cpp = 1 := by simpa using hph
    subst this
    exact ⟨(256, 256, 1, 1), rfl, by simp⟩
  | cfa a b =>
    have : cpp = 1 := by simpa using hph
    subst this
    rw [ljpegGeometry, if_neg (by simp)]
    split
    · exact ⟨_, rfl, by simp⟩
    · exact ⟨_, rfl, by simp⟩
  | linearRaw => exact ⟨(256, 256, cpp, 1), rfl, by simp; omega⟩

theorem S_mem (data : List Nat) (w h cpp y i : Nat) (hw : 0 < w) (hh : 0 < h) (hcpp : 0 < cpp)
    (hlen : data.length = h * w * cpp) : S data (w * cpp) h y i ∈ data := by
  have hL : 0 < w * cpp := Nat.mul_pos hw hcpp
  have : min y (h - 1) * (w * cpp) + min i (w * cpp - 1) < data.length := by
    rw [hlen, Nat.mul_assoc]; exact mul_add_lt (by omega) (by omega)
  rw [S, List.getD_eq_getElem?_getD, List.getElem?_eq_getElem this]
  exact List.getElem_mem this

/-- **C02.** For every image size, component count (more than one only for linear images), bit depth 10..16, predictor and
sample array: writing the image as compressed tiles succeeds, and reading the tiles back - whatever the order in which
the parallel tile decoders finish - yields exactly the original samples. In a debug build (`dbg`) the samples must fit
the declared bit depth. -/
theorem C02_lossless_dng_round_trip (data : List Nat) (w h cpp bps px : Nat) (ph : Photometric) (dbg : Bool)
    (hw : 0 < w) (hh : 0 < h) (hcpp : 1 ≤ cpp ∧ cpp ≤ 4) (hph : cpp = 1 ∨ ph = .linearRaw) (hbps : 10 ≤ bps ∧ bps ≤ 16)
    (hpx : 1 ≤ px ∧ px ≤ 7) (hlen : data.length = h * w * cpp) (hs : IsU16 data)
    (hdbg : dbg = true → ∀ s ∈ data, s < 2 ^ bps) :
    ∃ tiles, putRawLjpeg data w h cpp bps ph px dbg = .ok tiles ∧
      tiles.length = ((h + 255) / 256) * ((w + 255) / 256) ∧
      ∀ sched, sched.Perm (List.range tiles.length) → readLjpegTiles tiles w h cpp 256 256 sched = .ok data := by
  obtain ⟨g, hg, g1, g2, g3, g4, g5, g6, g7⟩ := geometry_ok ph cpp px hcpp hph
  obtain ⟨tile, htile⟩ : ∃ tile : Nat → List (List Nat), tile = fun k => (List.range 256).map
    (rowSpec data (w * cpp) h (256 * cpp) 256 (k / ((w + 255) / 256)) (k % ((w + 255) / 256))) := ⟨_, rfl⟩
  have hcols : 0 < (w + 255) / 256 := by omega
  have hrl : ∀ k, ∀ r ∈ tile k, r.length = 256 * cpp := by
    intro k r hr
    rw [htile] at hr
    simp only [List.mem_map] at hr
    obtain ⟨i, _, rfl⟩ := hr
    exact length_rowSpec _ _ _ _ _ _ _ _
  have htl : ∀ k, (tile k).length = 256 := by intro k; rw [htile]; simp
  have hlen2 : ∀ k, (tile k).flatten.length = 256 * (256 * cpp) := by
    intro k
    rw [htile, ← List.flatMap_def]
    exact flatMap_len 256 (256 * cpp) _ (fun r _ => length_rowSpec _ _ _ _ _ _ _ _)
  have hmem : ∀ k, ∀ s ∈ (tile k).flatten, s ∈ data := by
    intro k s hs
    rw [htile] at hs
    simp only [List.mem_flatten, List.mem_map] at hs
    obtain ⟨l, ⟨r, _, rfl⟩, hs⟩ := hs
    rw [rowSpec, List.mem_map] at hs
    obtain ⟨j, _, rfl⟩ := hs
    exact S_mem data w h cpp _ _ hw hh hcpp.1 hlen
  have henc : ∀ k, ∃ bytes, encode (tile k).flatten (g.1 * g.2.2.2) (g.2.1 / g.2.2.2) g.2.2.1 bps px 0 0 dbg = .ok bytes ∧
      decodeAll bytes = .ok (tile k).flatten := fun k =>
    C01_ljpeg_round_trip_plain _ _ _ _ bps px dbg ⟨g1, g2⟩ ⟨g3, g4⟩ ⟨g5, g6⟩ hpx hbps (by rw [hlen2, g7])
      (fun s hs' => hs s (hmem k s hs')) (fun hd s hs' => hdbg hd s (hmem k s hs'))
  obtain ⟨enc, henc⟩ := Classical.axiomOfChoice henc
  refine ⟨(List.range (((h + 255) / 256) * ((w + 255) / 256))).map enc, ?_, by simp, ?_⟩
  · rw [putRawLjpeg]
    simp only [bind, Except.bind]
    rw [hg, new_ok data w h cpp 256 256 (by omega) (by omega) hlen]
    simp only
    apply mapM_ok_of
    intro k hk
    rw [List.mem_range] at hk
    have hk' : k < ((h + 255) / 256) * ((w + 255) / 256) := hk
    have hty : k / ((w + 255) / 256) < (h + 255) / 256 := by rw [Nat.div_lt_iff_lt_mul hcols]; exact hk'
    have htx : k % ((w + 255) / 256) < (w + 255) / 256 := Nat.mod_lt _ hcols
    have hb := buildTile_ok data w h cpp 256 256 (k / ((w + 255) / 256)) (k % ((w + 255) / 256)) hw hcpp.1 (by omega) (by omega) hlen hty htx
    rw [show k / ((w + 255) / 256) * ((w + 256 - 1) / 256) + k % ((w + 255) / 256) = k from by
      show k / ((w + 255) / 256) * ((w + 255) / 256) + k % ((w + 255) / 256) = k
      rw [Nat.mul_comm]; exact Nat.div_add_mod _ _] at hb
    have hb2 : (List.range 256).flatMap (rowSpec data (w * cpp) h (256 * cpp) 256 (k / ((w + 255) / 256)) (k % ((w + 255) / 256))) =
        (tile k).flatten := by rw [htile, List.flatMap_def]
    rw [compressTile, hb]
    simp only [bind, Except.bind]
    rw [hb2, Nat.mod_eq_of_lt (by omega)]
    exact (henc k).1
  · intro sched hsched
    obtain ⟨d, e1, e2⟩ := decodeTiles_ok (fun src lines lw => decompress src 0 lines lw) data
      ((List.range (((h + 255) / 256) * ((w + 255) / 256))).map enc) w h cpp 256 256 sched hw hh hcpp.1 (by omega) (by omega)
      (by simp) hsched (by
        intro k hk lines hl1 hl2
        simp only [List.getElem_map, List.getElem_range]
        have := decompress_of_decodeAll (enc k) (tile k) lines (256 * cpp) (by omega) (hrl k) hl2 (by rw [hl1, htl]) (henc k).2
        rw [this, htile]
        rfl)
    obtain ⟨q, e3, e4⟩ := crop_padded data w h cpp _ _ d hw hcpp.1 hlen e2
      (Nat.mul_le_mul_right _ (by omega)) (by omega)
    rw [readLjpegTiles, e1]
    simp only [bind, Except.bind]
    rw [e3]
    simp only [e4]

/-- A three component image of 300x2 pixels (two tiles), debug build. -/
example : ∃ tiles, putRawLjpeg (List.replicate (2 * 300 * 3) 1000) 300 2 3 12 .linearRaw 6 true = .ok tiles ∧ tiles.length = 2 ∧
    readLjpegTiles tiles 300 2 3 256 256 [1, 0] = .ok (List.replicate (2 * 300 * 3) 1000) := by
  obtain ⟨t, h1, h2, h3⟩ := C02_lossless_dng_round_trip (List.replicate (2 * 300 * 3) 1000) 300 2 3 12 6 .linearRaw true
    (by omega) (by omega) (by omega) (.inr rfl) (by omega) (by omega) List.length_replicate
    (fun s hs => by rw [List.eq_of_mem_replicate hs]; omega) (fun _ s hs => by rw [List.eq_of_mem_replicate hs]; omega)
  refine ⟨t, h1, h2, h3 _ ?_⟩
  rw [h2]
  exact List.Perm.swap 0 1 []

end Verif.Props
