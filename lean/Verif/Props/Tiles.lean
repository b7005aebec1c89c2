import Verif.Proofs.TileWin
import Mathlib.Data.List.Nodup
/-! # C08, C09: cutting an image into tiles and writing tiles in parallel -/

namespace Verif.Props
open Verif Verif.Pix Verif.Tiles Verif.Spec

/-- **C08.** For every image and tile size: the tiler yields `⌈h/th⌉ * ⌈w/tw⌉` tiles, in row-major order; each has exactly
`th * tw * cpp` samples; component `k` of the pixel in row `r` and column `c` of the tile in tile row `ty`, tile column `tx`
is component `k` of the image pixel at `(ty*th + r, tx*tw + c)` when that lies in the image. Below the image the last
image row is repeated; right of the image the last sample of the row is repeated. -/
theorem C08_tiling_places_every_pixel {α : Type} [Inhabited α] (data : List α) (w h cpp tw th : Nat)
    (hw : 0 < w) (hcpp : 0 < cpp) (htw : 0 < tw) (hth : 0 < th) (hlen : data.length = h * w * cpp) :
    ∃ t tiles, ImageTiler.new data w h cpp tw th = .ok t ∧ t.all = .ok tiles ∧
      tiles.length = ((h + th - 1) / th) * ((w + tw - 1) / tw) ∧ t.tileCount = tiles.length ∧
      ∀ ty tx, ty * th < h → tx * tw < w → ∃ tile, tiles[ty * ((w + tw - 1) / tw) + tx]? = some tile ∧
        tile.length = th * tw * cpp ∧
        ∀ r c k, r < th → c < tw → k < cpp →
          (ty * th + r < h → tx * tw + c < w →
            tile[(r * tw + c) * cpp + k]? = data[((ty * th + r) * w + (tx * tw + c)) * cpp + k]?) ∧
          (tx * tw + c < w →
            tile[(r * tw + c) * cpp + k]? = data[(min (ty * th + r) (h - 1) * w + (tx * tw + c)) * cpp + k]?) ∧
          (w ≤ tx * tw + c →
            tile[(r * tw + c) * cpp + k]? = data[(min (ty * th + r) (h - 1) * w + (w - 1)) * cpp + (cpp - 1)]?) := by
  have hceil : ∀ t n m : Nat, 0 < m → t * m < n → t < (n + m - 1) / m := by
    intro t n m hm h
    rw [Nat.lt_iff_add_one_le, Nat.le_div_iff_mul_le hm, Nat.add_mul]; omega
  let f := fun i => (List.range th).flatMap
    (rowSpec data (w * cpp) h (tw * cpp) th (i / ((w + tw - 1) / tw)) (i % ((w + tw - 1) / tw)))
  have hcols : 0 < (w + tw - 1) / tw := hceil 0 w tw htw (by omega)
  have hall : (ImageTiler.mk data w h cpp tw th ((w + tw - 1) / tw) ((h + th - 1) / th)).all =
      .ok ((List.range ((h + th - 1) / th * ((w + tw - 1) / tw))).map f) := by
    apply mapM_ok_of
    intro i hi
    rw [List.mem_range] at hi
    have h1 : i / ((w + tw - 1) / tw) < (h + th - 1) / th := by rw [Nat.div_lt_iff_lt_mul hcols]; exact hi
    have h2 := buildTile_ok data w h cpp tw th _ _ hw hcpp htw hth hlen h1 (Nat.mod_lt i hcols)
    rwa [Nat.mul_comm, Nat.div_add_mod] at h2
  refine ⟨_, _, new_ok data w h cpp tw th htw hth hlen, hall, by simp, by simp [ImageTiler.tileCount], ?_⟩
  intro ty tx hty htx
  have hty' := hceil _ _ _ hth hty
  have htx' := hceil _ _ _ htw htx
  have hd : (ty * ((w + tw - 1) / tw) + tx) / ((w + tw - 1) / tw) = ty := by
    rw [Nat.mul_comm, Nat.mul_add_div hcols, Nat.div_eq_of_lt htx', Nat.add_zero]
  have hm : (ty * ((w + tw - 1) / tw) + tx) % ((w + tw - 1) / tw) = tx := by
    rw [Nat.mul_comm, Nat.mul_add_mod, Nat.mod_eq_of_lt htx']
  refine ⟨f (ty * ((w + tw - 1) / tw) + tx), ?_, ?_, ?_⟩
  · rw [List.getElem?_map, List.getElem?_range (mul_add_lt hty' htx')]; rfl
  · rw [Nat.mul_assoc]; exact flatMap_len _ _ _ (fun r _ => length_rowSpec ..)
  · intro r c k hr hc hk
    have hj : c * cpp + k < tw * cpp := mul_add_lt hc hk
    have hT : (r * tw + c) * cpp + k = r * (tw * cpp) + (c * cpp + k) := by
      rw [Nat.add_mul, Nat.mul_assoc]; omega
    have hval : (f (ty * ((w + tw - 1) / tw) + tx))[(r * tw + c) * cpp + k]? =
        some (S data (w * cpp) h (ty * th + r) (tx * (tw * cpp) + (c * cpp + k))) := by
      simp only [f]
      rw [hT, flatMap_get _ _ _ (fun r _ => length_rowSpec ..) r _ hr hj, hd, hm, rowSpec, List.getElem?_map,
        List.getElem?_range hj]; rfl
    have hxk : tx * (tw * cpp) + (c * cpp + k) = (tx * tw + c) * cpp + k := by rw [Nat.add_mul, Nat.mul_assoc]; omega
    have hh : 0 < h := by omega
    have hget : ∀ y i, y < h → i < w * cpp → data[y * (w * cpp) + i]? = some (data.getD (y * (w * cpp) + i) default) := by
      intro y i hy hi
      have := mul_add_lt hy hi
      rw [List.getD_eq_getElem?_getD, List.getElem?_eq_getElem (by rw [hlen, Nat.mul_assoc]; exact this)]; rfl
    have hrow : ∀ y x k, (y * w + x) * cpp + k = y * (w * cpp) + (x * cpp + k) := by
      intro y x k; rw [Nat.add_mul, Nat.mul_assoc]; omega
    have hin : tx * tw + c < w → (f (ty * ((w + tw - 1) / tw) + tx))[(r * tw + c) * cpp + k]? =
        data[(min (ty * th + r) (h - 1) * w + (tx * tw + c)) * cpp + k]? := by
      intro hx
      have hlt : (tx * tw + c) * cpp + k < w * cpp := mul_add_lt hx hk
      rw [hval, hrow, hget _ _ (by omega) hlt, S, hxk,
        show min ((tx * tw + c) * cpp + k) (w * cpp - 1) = (tx * tw + c) * cpp + k by omega]
    refine ⟨?_, hin, ?_⟩
    · intro hy hx
      have := hin hx
      rwa [show min (ty * th + r) (h - 1) = ty * th + r by omega] at this
    · intro hx
      have hge : w * cpp ≤ (tx * tw + c) * cpp := Nat.mul_le_mul_right _ hx
      have hw1 : (w - 1) * cpp + (cpp - 1) = w * cpp - 1 := by
        have : (w - 1 + 1) * cpp = w * cpp := by congr 1; omega
        rw [Nat.add_mul] at this; omega
      have hwp : 0 < w * cpp := Nat.mul_pos hw hcpp
      rw [hval, hrow, hw1, hget _ _ (by omega) (by omega), S, hxk,
        show min ((tx * tw + c) * cpp + k) (w * cpp - 1) = w * cpp - 1 by omega]

/-- the hypotheses are met by a 3x3 image with two components in 2x2 tiles; its last tile -/
example : (do let t ← ImageTiler.new (List.range 18) 3 3 2 2 2; t.buildTile 3) = .ok [16, 17, 17, 17, 16, 17, 17, 17] := by
  decide

/-- Padding repeats the last *sample*, not the last *pixel*: with three components the pixel right of `(16, 17, 18)` is
`(18, 18, 18)`. Harmless because readers crop, but it is not edge replication. -/
theorem C08_padding_is_not_a_pixel :
    (do let t ← ImageTiler.new [16, 17, 18] 1 1 3 2 1; t.buildTile 0) = .ok [16, 17, 18, 18, 18, 18] := by decide

/-! ## C09 -/

/-- Line `r` of window `k` contains sample `i` of the buffer. -/
def Covers (wins : List Tile) (k r i : Nat) : Prop :=
  ∃ t l, wins[k]? = some t ∧ t.lines[r]? = some l ∧ l.1 ≤ i ∧ i < l.1 + l.2

/-- **C09.** For a buffer of `rows x cols` tiles of `th x tw` pixels: the constructor succeeds, the iterator yields exactly
`rows * cols` windows and then stops; line `r` of the window of tile `(ty, tx)` is the piece of image row `ty*th + r` that
starts at column `tx*tw` and has `tw` pixels; every line lies inside the buffer; and every sample of the buffer lies in
exactly one line of exactly one window (so the windows are disjoint and cover the image). -/
theorem C09_windows_disjoint_and_covering (cols rows cpp tw th : Nat) (hcols : 0 < cols) (hcpp : 0 < cpp)
    (htw : 0 < tw) (hth : 0 < th) :
    ∃ it wins, TilesIter.new (cols * tw * cpp * (rows * th)) (cols * tw) cpp tw th = .ok it ∧
      (∀ fuel, rows * cols < fuel → it.drain fuel = .ok wins) ∧ wins.length = rows * cols ∧
      (∀ ty tx r, ty < rows → tx < cols → r < th → ∃ t, wins[ty * cols + tx]? = some t ∧
        t.lines[r]? = some ((ty * th + r) * (cols * tw * cpp) + tx * tw * cpp, tw * cpp)) ∧
      (∀ k r i, Covers wins k r i → i < cols * tw * cpp * (rows * th)) ∧
      (∀ i, i < cols * tw * cpp * (rows * th) → ∃ k r, Covers wins k r i ∧
        ∀ k' r', Covers wins k' r' i → k' = k ∧ r' = r) := by
  refine ⟨_, (List.range' 0 (rows * cols)).map (win cols cpp tw th), iter_new_ok cols rows cpp tw th hcols hcpp htw hth,
    ?_, by simp, ?_, ?_⟩
  · intro fuel hf
    exact drain_ok cols rows cpp tw th 0 fuel hcols hcpp htw hth (by omega) (by omega)
  · intro ty tx r hty htx hr
    refine ⟨win cols cpp tw th (ty * cols + tx), ?_, ?_⟩
    · rw [List.getElem?_map, ← List.range_eq_range', List.getElem?_range (mul_add_lt hty htx)]; rfl
    · rw [win_line cols cpp tw th ty tx r htx hr, Nat.mul_assoc tx]
  · -- what covering means, in coordinates
    obtain ⟨T, hT⟩ : ∃ T, T = tw * cpp := ⟨_, rfl⟩
    have hT0 : 0 < T := hT ▸ Nat.mul_pos htw hcpp
    have hW : cols * tw * cpp = cols * T := by rw [hT, Nat.mul_assoc]
    have hWlen : cols * tw * cpp * (rows * th) = rows * th * (cols * T) := by rw [hW, Nat.mul_comm]
    have hcov : ∀ k r i, Covers ((List.range' 0 (rows * cols)).map (win cols cpp tw th)) k r i ↔
        k < rows * cols ∧ r < th ∧ ∃ j, j < T ∧ i = (k / cols * th + r) * (cols * T) + ((k % cols) * T + j) := by
      intro k r i
      constructor
      · rintro ⟨t, l, h1, h2, h3, h4⟩
        rw [List.getElem?_map, ← List.range_eq_range'] at h1
        by_cases hk : k < rows * cols
        · rw [List.getElem?_range hk] at h1
          simp only [Option.map_some, Option.some.injEq] at h1
          subst h1
          by_cases hr : r < th
          · have hkk : k = k / cols * cols + k % cols := by rw [Nat.mul_comm]; exact (Nat.div_add_mod k cols).symm
            have := win_line cols cpp tw th (k / cols) (k % cols) r (Nat.mod_lt _ hcols) hr
            rw [← hkk, h2] at this
            simp only [Option.some.injEq] at this
            subst this
            refine ⟨hk, hr, i - ((k / cols * th + r) * (cols * T) + (k % cols) * T), ?_, ?_⟩
            · simp only [← hT, hW] at h3 h4; omega
            · simp only [← hT, hW] at h3 h4; omega
          · rw [List.getElem?_eq_none (by simp [Tile.lines, win]; omega)] at h2; simp at h2
        · rw [List.getElem?_eq_none (by simpa using hk)] at h1; simp at h1
      · rintro ⟨hk, hr, j, hj, rfl⟩
        refine ⟨win cols cpp tw th k, ((k / cols * th + r) * (cols * tw * cpp) + (k % cols) * (tw * cpp), tw * cpp), ?_, ?_, ?_⟩
        · rw [List.getElem?_map, ← List.range_eq_range', List.getElem?_range hk]; rfl
        · have hkk : k = k / cols * cols + k % cols := by rw [Nat.mul_comm]; exact (Nat.div_add_mod k cols).symm
          have := win_line cols cpp tw th (k / cols) (k % cols) r (Nat.mod_lt _ hcols) hr
          rw [← hkk] at this
          exact this
        · simp only [← hT, hW]; omega
    have hdec : ∀ k r j, k < rows * cols → r < th → j < T →
        ((k / cols * th + r) * (cols * T) + ((k % cols) * T + j)) / (cols * T) = k / cols * th + r ∧
        ((k / cols * th + r) * (cols * T) + ((k % cols) * T + j)) % (cols * T) = (k % cols) * T + j ∧
        ((k % cols) * T + j) / T = k % cols ∧ (k / cols * th + r) / th = k / cols ∧ (k / cols * th + r) % th = r := by
      intro k r j hk hr hj
      have hlt : (k % cols) * T + j < cols * T := mul_add_lt (Nat.mod_lt _ hcols) hj
      have hc0 : 0 < cols * T := Nat.mul_pos hcols hT0
      refine ⟨?_, ?_, ?_, ?_, ?_⟩
      · rw [Nat.mul_comm, Nat.mul_add_div hc0, Nat.div_eq_of_lt hlt, Nat.add_zero]
      · rw [Nat.mul_comm, Nat.mul_add_mod, Nat.mod_eq_of_lt hlt]
      · rw [Nat.mul_comm, Nat.mul_add_div hT0, Nat.div_eq_of_lt hj, Nat.add_zero]
      · rw [Nat.mul_comm, Nat.mul_add_div hth, Nat.div_eq_of_lt hr, Nat.add_zero]
      · rw [Nat.mul_comm, Nat.mul_add_mod, Nat.mod_eq_of_lt hr]
    constructor
    · intro k r i hc
      obtain ⟨hk, hr, j, hj, rfl⟩ := (hcov k r i).mp hc
      rw [hWlen]
      refine mul_add_lt (mul_add_lt ?_ hr) (mul_add_lt (Nat.mod_lt _ hcols) hj)
      rw [Nat.div_lt_iff_lt_mul hcols]; exact hk
    · intro i hi
      rw [hWlen] at hi
      have hc0 : 0 < cols * T := Nat.mul_pos hcols hT0
      have hy : i / (cols * T) < rows * th := by rw [Nat.div_lt_iff_lt_mul hc0]; exact hi
      have hx : i % (cols * T) / T < cols := by rw [Nat.div_lt_iff_lt_mul hT0]; exact Nat.mod_lt _ hc0
      have hyy : i / (cols * T) / th < rows := by rw [Nat.div_lt_iff_lt_mul hth]; exact hy
      have hk1 : (i / (cols * T) / th * cols + i % (cols * T) / T) / cols = i / (cols * T) / th := by
        rw [Nat.mul_comm, Nat.mul_add_div hcols, Nat.div_eq_of_lt hx, Nat.add_zero]
      have hk2 : (i / (cols * T) / th * cols + i % (cols * T) / T) % cols = i % (cols * T) / T := by
        rw [Nat.mul_comm, Nat.mul_add_mod, Nat.mod_eq_of_lt hx]
      refine ⟨i / (cols * T) / th * cols + i % (cols * T) / T, i / (cols * T) % th, ?_, ?_⟩
      · rw [hcov]
        refine ⟨mul_add_lt hyy hx, Nat.mod_lt _ hth, i % (cols * T) % T, Nat.mod_lt _ hT0, ?_⟩
        rw [hk1, hk2]
        have e1 : i / (cols * T) / th * th + i / (cols * T) % th = i / (cols * T) := by
          rw [Nat.mul_comm]; exact Nat.div_add_mod _ _
        have e2 : i % (cols * T) / T * T + i % (cols * T) % T = i % (cols * T) := by
          rw [Nat.mul_comm]; exact Nat.div_add_mod _ _
        rw [e1, e2, Nat.mul_comm]; exact (Nat.div_add_mod _ _).symm
      · intro k' r' hc
        obtain ⟨hk, hr, j, hj, he⟩ := (hcov k' r' i).mp hc
        obtain ⟨d1, d2, d3, d4, d5⟩ := hdec k' r' j hk hr hj
        rw [← he] at d1 d2
        rw [d1, d2, d3, d4, d5]
        refine ⟨?_, rfl⟩
        rw [Nat.mul_comm]; exact (Nat.div_add_mod _ _).symm

example : (do let it ← TilesIter.new 48 6 2 3 2; it.drain 5) =
    .ok [⟨0, 6, 2, 12⟩, ⟨6, 6, 2, 12⟩, ⟨24, 6, 2, 12⟩, ⟨30, 6, 2, 12⟩] := by decide

theorem foldl_set_comm {α : Type} (buf : List α) (ws ws' : List (Nat × α)) (hp : ws.Perm ws')
    (hnd : (ws.map (·.1)).Nodup) :
    ws.foldl (fun b p => b.set p.1 p.2) buf = ws'.foldl (fun b p => b.set p.1 p.2) buf := by
  induction hp generalizing buf with
  | nil => rfl
  | cons x _ ih => exact ih _ (by simp only [List.map_cons, List.nodup_cons] at hnd; exact hnd.2)
  | swap x y l =>
    simp only [List.map_cons, List.nodup_cons, List.mem_cons, not_or] at hnd
    simp only [List.foldl_cons]
    rw [List.set_comm _ _ hnd.1.1]
  | trans h1 _ ih1 ih2 =>
    rw [ih1 _ hnd]
    exact ih2 _ ((h1.map _).nodup_iff.mp hnd)

theorem nodup_zipIdx {β : Type} (l : List β) : (l.zipIdx.map (·.2)).Nodup := by
  rw [List.zipIdx_map_snd]; exact List.nodup_range'

/-- **C09, schedules.** The result of decoding in parallel does not depend on the schedule: whatever each window's decoder
writes (`v k r j` at sample `j` of line `r` of window `k`), every interleaving of the single-sample writes of all
windows leaves the same buffer. -/
theorem C09_schedule_independent {α : Type} (cols rows cpp tw th : Nat) (hcols : 0 < cols) (hcpp : 0 < cpp)
    (htw : 0 < tw) (hth : 0 < th) (v : Nat → Nat → Nat → α) (buf : List α) (it : TilesIter) (wins : List Tile)
    (hnew : TilesIter.new (cols * tw * cpp * (rows * th)) (cols * tw) cpp tw th = .ok it)
    (hwins : it.drain (rows * cols + 1) = .ok wins) (writes : List (Nat × α))
    (hperm : writes.Perm ((wins.zipIdx).flatMap fun tk => (tk.1.lines.zipIdx).flatMap fun lr =>
      (List.range lr.1.2).map fun j => (lr.1.1 + j, v tk.2 lr.2 j))) :
    writes.foldl (fun b p => b.set p.1 p.2) buf =
      ((wins.zipIdx).flatMap fun tk => (tk.1.lines.zipIdx).flatMap fun lr =>
        (List.range lr.1.2).map fun j => (lr.1.1 + j, v tk.2 lr.2 j)).foldl (fun b p => b.set p.1 p.2) buf := by
  obtain ⟨it', wins', e1, e2, e3, _, _, e6⟩ := C09_windows_disjoint_and_covering cols rows cpp tw th hcols hcpp htw hth
  rw [hnew] at e1
  simp only [Except.ok.injEq] at e1
  subst e1
  rw [e2 _ (Nat.lt_succ_self _)] at hwins
  simp only [Except.ok.injEq] at hwins
  subst hwins
  have hlt : ∀ k r i, Covers wins' k r i → i < cols * tw * cpp * (rows * th) := by assumption
  apply foldl_set_comm _ _ _ hperm
  rw [(hperm.map _).nodup_iff]
  rw [List.map_flatMap, List.nodup_flatMap]
  have huniq : ∀ i k r k' r', Covers wins' k r i → Covers wins' k' r' i → k = k' ∧ r = r' := by
    intro i k r k' r' h1 h2
    obtain ⟨k0, r0, _, hu⟩ := e6 i (hlt _ _ _ h1)
    obtain ⟨a, b⟩ := hu _ _ h1
    obtain ⟨c, d⟩ := hu _ _ h2
    exact ⟨by omega, by omega⟩
  have hmem : ∀ (tk : Tile × Nat) (lr : (Nat × Nat) × Nat) i, tk ∈ wins'.zipIdx → lr ∈ tk.1.lines.zipIdx →
      i ∈ ((List.range lr.1.2).map fun j => (lr.1.1 + j, v tk.2 lr.2 j)).map (·.1) → Covers wins' tk.2 lr.2 i := by
    intro tk lr i h1 h2 h3
    rw [List.mem_zipIdx_iff_getElem?] at h1 h2
    simp only [List.map_map, List.mem_map, List.mem_range, Function.comp_apply] at h3
    obtain ⟨j, hj, rfl⟩ := h3
    exact ⟨tk.1, lr.1, h1, h2, by omega, by omega⟩
  constructor
  · intro tk htk
    rw [List.map_flatMap, List.nodup_flatMap]
    constructor
    · intro lr hlr
      rw [List.map_map]
      have : ((fun x : Nat × α => x.1) ∘ fun j => (lr.1.1 + j, v tk.2 lr.2 j)) = fun j => lr.1.1 + j := rfl
      rw [this, List.nodup_iff_pairwise_ne, List.pairwise_map]
      exact List.nodup_range.imp (fun h => by omega)
    · have hnd := nodup_zipIdx tk.1.lines
      rw [List.nodup_iff_pairwise_ne, List.pairwise_map] at hnd
      apply (List.pairwise_iff_forall_sublist.mpr ?_)
      intro a b hs
      have hab := List.pairwise_iff_forall_sublist.mp hnd hs
      have ha : a ∈ tk.1.lines.zipIdx := hs.subset (by simp)
      have hb : b ∈ tk.1.lines.zipIdx := hs.subset (by simp)
      intro i h1 h2
      exact hab (huniq _ _ _ _ _ (hmem tk a i htk ha h1) (hmem tk b i htk hb h2)).2
  · have hnd := nodup_zipIdx wins'
    rw [List.nodup_iff_pairwise_ne, List.pairwise_map] at hnd
    apply (List.pairwise_iff_forall_sublist.mpr ?_)
    intro a b hs
    have hab := List.pairwise_iff_forall_sublist.mp hnd hs
    have ha : a ∈ wins'.zipIdx := hs.subset (by simp)
    have hb : b ∈ wins'.zipIdx := hs.subset (by simp)
    intro i h1 h2
    simp only [List.map_flatMap, List.mem_flatMap] at h1 h2
    obtain ⟨l1, hl1, hi1⟩ := h1
    obtain ⟨l2, hl2, hi2⟩ := h2
    exact hab (huniq _ _ _ _ _ (hmem a l1 i ha hl1 hi1) (hmem b l2 i hb hl2 hi2)).1

/-- The constructor also accepts a width that is no multiple of the tile width; then the windows do not cover the image
(here: 3 columns cut into tiles of 2 columns, sample 2 is in no window). `decode_tiles` never asks for this. -/
theorem C09_ragged_width_not_covered : ∃ it wins, TilesIter.new 12 3 1 2 2 = .ok it ∧ it.drain 10 = .ok wins ∧
    wins = [⟨0, 2, 2, 3⟩, ⟨6, 2, 2, 3⟩] := ⟨_, _, rfl, by decide, rfl⟩

end Verif.Props
