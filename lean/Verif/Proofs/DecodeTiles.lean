import Verif.Proofs.Tiles
import Verif.Proofs.TileWin
import Verif.Proofs.PixArray
/-! # Decoding tiles in any order fills the buffer -/

namespace Verif.Tiles
open Verif Verif.Pix Verif.Spec

/-- the sample a tile decoder must leave at position `i` of the padded buffer of row length `PW` -/
def Fs (data : List Nat) (L h PW i : Nat) : Nat := S data L h (i / PW) (i % PW)

/-- `k`'s window contains position `i` -/
def InWin (cols tw cpp th k i : Nat) : Prop :=
  ∃ r, r < th ∧ (k / cols * th + r) * (cols * tw * cpp) + k % cols * (tw * cpp) ≤ i ∧
    i < (k / cols * th + r) * (cols * tw * cpp) + k % cols * (tw * cpp) + tw * cpp

theorem win_lines_eq (cols cpp tw th k : Nat) :
    (win cols cpp tw th k).lines = (List.range th).map fun r =>
      ((k / cols * th + r) * (cols * tw * cpp) + k % cols * (tw * cpp), tw * cpp) := by
  rw [Tile.lines, win]
  apply List.map_congr_left
  intro r _
  simp only [Prod.mk.injEq, and_true]
  rw [Nat.add_mul, Nat.mul_assoc (k / cols) (cols * tw * cpp) th, Nat.mul_comm (cols * tw * cpp) th, ← Nat.mul_assoc (k / cols)]
  omega

theorem line_inside (cols rows cpp tw th k r : Nat) (hk : k < rows * cols) (hr : r < th) (hcols : 0 < cols) :
    (k / cols * th + r) * (cols * tw * cpp) + k % cols * (tw * cpp) + tw * cpp ≤ cols * tw * cpp * (rows * th) := by
  have hy : k / cols < rows := by rw [Nat.div_lt_iff_lt_mul hcols]; exact hk
  have hx : k % cols < cols := Nat.mod_lt _ hcols
  have h1 : (k / cols * th + r + 1) * (cols * tw * cpp) ≤ rows * th * (cols * tw * cpp) :=
    Nat.mul_le_mul_right _ (mul_add_lt hy hr)
  have h2 : (k % cols + 1) * (tw * cpp) ≤ cols * (tw * cpp) := Nat.mul_le_mul_right _ hx
  rw [Nat.add_mul _ 1, Nat.one_mul] at h1 h2
  rw [← Nat.mul_assoc cols tw cpp] at h2
  rw [Nat.mul_comm (cols * tw * cpp) (rows * th)]
  omega

theorem decodeOne_ok (dec : List Nat → List (List Nat) → Nat → R (List (List Nat))) (data : List Nat)
    (tiles : List (List Nat)) (L h cols rows cpp tw th k : Nat) (buf : List Nat) (hcols : 0 < cols) (hcpp : 0 < cpp) (htw : 0 < tw)
    (hk : k < rows * cols) (hlen : tiles.length = rows * cols) (hbuf : buf.length = cols * tw * cpp * (rows * th))
    (hdec : ∀ (hk : k < tiles.length) lines, lines.length = th → (∀ l ∈ lines, l.length = tw * cpp) → dec tiles[k] lines (tw * cpp) =
      .ok ((List.range th).map (rowSpec data L h (tw * cpp) th (k / cols) (k % cols)))) :
    ∃ buf', decodeOne dec tiles ((List.range' 0 (rows * cols)).map (win cols cpp tw th)) (tw * cpp) buf k = .ok buf' ∧
      buf'.length = buf.length ∧
      ∀ i, (InWin cols tw cpp th k i ∨ buf[i]? = some (Fs data L h (cols * tw * cpp) i)) →
        buf'[i]? = some (Fs data L h (cols * tw * cpp) i) := by
  have hPW : 0 < cols * tw * cpp := Nat.mul_pos (Nat.mul_pos hcols htw) hcpp
  have hx : k % cols < cols := Nat.mod_lt _ hcols
  have h2 : (k % cols + 1) * (tw * cpp) ≤ cols * (tw * cpp) := Nat.mul_le_mul_right _ hx
  rw [Nat.add_mul, Nat.one_mul, ← Nat.mul_assoc cols tw cpp] at h2
  have hload : (win cols cpp tw th k).load buf = .ok ((List.range th).map fun r =>
      (buf.drop ((k / cols * th + r) * (cols * tw * cpp) + k % cols * (tw * cpp))).take (tw * cpp)) := by
    rw [Tile.load, win_lines_eq, List.mapM_map, mapM_ok_of]
    intro r hr
    rw [List.mem_range] at hr
    have := line_inside cols rows cpp tw th k r hk hr hcols
    simp only [Function.comp_apply]
    rw [slice_ok _ _ _ (by omega) (by omega), Nat.add_sub_cancel_left]
  have hps : ∀ p ∈ (List.range th).map (fun r =>
      ((((k / cols * th + r) * (cols * tw * cpp) + k % cols * (tw * cpp), tw * cpp),
        rowSpec data L h (tw * cpp) th (k / cols) (k % cols) r) : (Nat × Nat) × List Nat)),
      p.1.1 + p.2.length ≤ buf.length ∧ ∀ j, j < p.2.length → p.2[j]? = some (Fs data L h (cols * tw * cpp) (p.1.1 + j)) := by
    intro p hp
    rw [List.mem_map] at hp
    obtain ⟨r, hr, rfl⟩ := hp
    rw [List.mem_range] at hr
    have hin := line_inside cols rows cpp tw th k r hk hr hcols
    simp only [length_rowSpec]
    refine ⟨by omega, ?_⟩
    intro j hj
    rw [rowSpec, List.getElem?_map, List.getElem?_range hj, Fs]
    simp only [Option.map_some]
    have e1 : (k / cols * th + r) * (cols * tw * cpp) + k % cols * (tw * cpp) + j =
      cols * tw * cpp * (k / cols * th + r) + (k % cols * (tw * cpp) + j) := by rw [Nat.mul_comm (cols * tw * cpp)]; omega
    have hj2 : k % cols * (tw * cpp) + j < cols * tw * cpp := by omega
    rw [e1, Nat.mul_add_div hPW, Nat.mul_add_mod, Nat.div_eq_of_lt hj2, Nat.mod_eq_of_lt hj2, Nat.add_zero]
  have hz : (win cols cpp tw th k).lines.zip ((List.range th).map (rowSpec data L h (tw * cpp) th (k / cols) (k % cols))) =
      (List.range th).map (fun r =>
      ((((k / cols * th + r) * (cols * tw * cpp) + k % cols * (tw * cpp), tw * cpp),
        rowSpec data L h (tw * cpp) th (k / cols) (k % cols) r) : (Nat × Nat) × List Nat)) := by
    rw [win_lines_eq, List.zip_map']
  obtain ⟨f1, f2⟩ := foldl_blit (Fs data L h (cols * tw * cpp)) _ buf hps
  refine ⟨_, ?_, f1, ?_⟩
  · rw [decodeOne, idx_lt _ _ (by omega), idx_lt _ _ (by simpa using hk)]
    simp only [bind, Except.bind, List.getElem_map, List.getElem_range', Nat.zero_add, Nat.one_mul]
    rw [hload]
    simp only
    rw [hdec (by omega) _ (by simp) (by
      intro l hl
      rw [List.mem_map] at hl
      obtain ⟨r, hr, rfl⟩ := hl
      rw [List.mem_range] at hr
      have := line_inside cols rows cpp tw th k r hk hr hcols
      rw [List.length_take, List.length_drop]; omega)]
    simp only [Tile.store]
    rw [hz]
  · intro i hi
    rcases hi with ⟨r, hr, h1, h2⟩ | hi
    · apply (f2 i).1
      refine ⟨_, List.mem_map.mpr ⟨r, List.mem_range.mpr hr, rfl⟩, h1, ?_⟩
      simp only [length_rowSpec]; exact h2
    · exact (f2 i).2 hi

theorem decode_fold_ok (dec : List Nat → List (List Nat) → Nat → R (List (List Nat))) (data : List Nat)
    (tiles : List (List Nat)) (L h cols rows cpp tw th : Nat) (sched : List Nat) (buf : List Nat) (hcols : 0 < cols) (hcpp : 0 < cpp)
    (htw : 0 < tw) (hs : ∀ k ∈ sched, k < rows * cols) (hlen : tiles.length = rows * cols)
    (hbuf : buf.length = cols * tw * cpp * (rows * th))
    (hdec : ∀ k (hk : k < tiles.length) lines, lines.length = th → (∀ l ∈ lines, l.length = tw * cpp) → dec tiles[k] lines (tw * cpp) =
      .ok ((List.range th).map (rowSpec data L h (tw * cpp) th (k / cols) (k % cols)))) :
    ∃ buf', sched.foldlM (fun buf k => decodeOne dec tiles ((List.range' 0 (rows * cols)).map (win cols cpp tw th)) (tw * cpp) buf k) buf
        = .ok buf' ∧ buf'.length = buf.length ∧
      ∀ i, ((∃ k ∈ sched, InWin cols tw cpp th k i) ∨ buf[i]? = some (Fs data L h (cols * tw * cpp) i)) →
        buf'[i]? = some (Fs data L h (cols * tw * cpp) i) := by
  induction sched generalizing buf with
  | nil => exact ⟨buf, rfl, rfl, fun i hi => by simpa using hi⟩
  | cons k sched ih =>
    obtain ⟨b1, e1, l1, g1⟩ := decodeOne_ok dec data tiles L h cols rows cpp tw th k buf hcols hcpp htw (hs k (by simp)) hlen hbuf
      (fun hk lines => hdec k hk lines)
    obtain ⟨b2, e2, l2, g2⟩ := ih b1 (fun k hk => hs k (by simp [hk])) (by omega)
    refine ⟨b2, ?_, by omega, ?_⟩
    · rw [List.foldlM_cons, e1]; exact e2
    · intro i hi
      apply g2
      rcases hi with ⟨k', hk', hw⟩ | hi
      · rcases List.mem_cons.mp hk' with rfl | hk'
        · exact .inr (g1 i (.inl hw))
        · exact .inl ⟨k', hk', hw⟩
      · exact .inr (g1 i (.inr hi))

/-- every position of the padded buffer is in some window -/
theorem in_some_win (cols rows cpp tw th i : Nat) (hcols : 0 < cols) (hcpp : 0 < cpp) (htw : 0 < tw) (hth : 0 < th)
    (hi : i < cols * tw * cpp * (rows * th)) : ∃ k, k < rows * cols ∧ InWin cols tw cpp th k i := by
  have hT : 0 < tw * cpp := Nat.mul_pos htw hcpp
  have hPW : 0 < cols * tw * cpp := Nat.mul_pos (Nat.mul_pos hcols htw) hcpp
  have hy : i / (cols * tw * cpp) < rows * th := by rw [Nat.div_lt_iff_lt_mul hPW, Nat.mul_comm]; exact hi
  have hxlt : i % (cols * tw * cpp) < cols * (tw * cpp) := by rw [← Nat.mul_assoc]; exact Nat.mod_lt _ hPW
  have htx : i % (cols * tw * cpp) / (tw * cpp) < cols := by rw [Nat.div_lt_iff_lt_mul hT]; exact hxlt
  have hty : i / (cols * tw * cpp) / th < rows := by rw [Nat.div_lt_iff_lt_mul hth]; exact hy
  refine ⟨i / (cols * tw * cpp) / th * cols + i % (cols * tw * cpp) / (tw * cpp), mul_add_lt hty htx,
    i / (cols * tw * cpp) % th, Nat.mod_lt _ hth, ?_⟩
  have hd : (i / (cols * tw * cpp) / th * cols + i % (cols * tw * cpp) / (tw * cpp)) / cols = i / (cols * tw * cpp) / th := by
    rw [Nat.mul_comm, Nat.mul_add_div (by omega), Nat.div_eq_of_lt htx, Nat.add_zero]
  have hm : (i / (cols * tw * cpp) / th * cols + i % (cols * tw * cpp) / (tw * cpp)) % cols = i % (cols * tw * cpp) / (tw * cpp) := by
    rw [Nat.mul_comm, Nat.mul_add_mod, Nat.mod_eq_of_lt htx]
  rw [hd, hm, Nat.mul_comm _ th, Nat.div_add_mod]
  have a1 := Nat.div_add_mod i (cols * tw * cpp)
  have a2 := Nat.div_add_mod (i % (cols * tw * cpp)) (tw * cpp)
  have a3 := Nat.mod_lt (i % (cols * tw * cpp)) hT
  rw [Nat.mul_comm] at a1
  rw [Nat.mul_comm] at a2
  omega

theorem tiles_count_eq {w tw : Nat} (hw : 0 < w) (htw : 0 < tw) : (w - 1) / tw + 1 = (w + tw - 1) / tw := by
  rw [show w + tw - 1 = w - 1 + tw by omega, Nat.add_div_right _ htw]

/-- Decoding tiles with any codec that restores each tile: for every order in which the tiles finish, the buffer holds the
image, padded by repeating its last row and sample. -/
theorem decodeTiles_ok (dec : List Nat → List (List Nat) → Nat → R (List (List Nat))) (data : List Nat)
    (tiles : List (List Nat)) (w h cpp tw th : Nat) (sched : List Nat) (hw : 0 < w) (hh : 0 < h) (hcpp : 0 < cpp) (htw : 0 < tw)
    (hth : 0 < th) (hlen : tiles.length = ((h + th - 1) / th) * ((w + tw - 1) / tw))
    (hs : sched.Perm (List.range tiles.length))
    (hdec : ∀ k (hk : k < tiles.length) lines, lines.length = th → (∀ l ∈ lines, l.length = tw * cpp) → dec tiles[k] lines (tw * cpp) =
      .ok ((List.range th).map (rowSpec data (w * cpp) h (tw * cpp) th (k / ((w + tw - 1) / tw)) (k % ((w + tw - 1) / tw))))) :
    ∃ d, decodeTiles dec tiles w h cpp tw th sched =
        .ok ⟨(w + tw - 1) / tw * tw * cpp, (h + th - 1) / th * th, d⟩ ∧
      Holds d ((w + tw - 1) / tw * tw * cpp) ((h + th - 1) / th * th) (fun r c => S data (w * cpp) h r c) := by
  have c1 := tiles_count_eq hw htw
  have c2 := tiles_count_eq hh hth
  have hcols : 0 < (w + tw - 1) / tw := by rw [← c1]; exact Nat.succ_pos _
  obtain ⟨cols, ec⟩ : ∃ x, x = (w + tw - 1) / tw := ⟨_, rfl⟩
  obtain ⟨rows, er⟩ : ∃ x, x = (h + th - 1) / th := ⟨_, rfl⟩
  rw [← ec] at hcols hdec hlen c1 ⊢
  rw [← er] at hlen c2 ⊢
  have hPW : 0 < cols * tw * cpp := Nat.mul_pos (Nat.mul_pos hcols htw) hcpp
  obtain ⟨d, e, l, g⟩ := decode_fold_ok dec data tiles (w * cpp) h cols rows cpp tw th sched
    (List.replicate (cols * tw * cpp * (rows * th)) 0) hcols hcpp htw
    (fun k hk => by rw [← hlen]; exact List.mem_range.mp (hs.mem_iff.mp hk)) hlen (by simp) hdec
  refine ⟨d, ?_, ?_, ?_⟩
  · rw [decodeTiles, usub, if_pos (by omega), usub, if_pos (by omega)]
    simp only [bind, Except.bind]
    rw [if_neg (by omega), c1, c2, if_neg (by rw [hlen, Nat.mul_comm]; simp), if_neg (by omega), Nat.mul_div_cancel _ hcpp,
      iter_new_ok cols rows cpp tw th hcols hcpp htw hth]
    simp only
    rw [drain_ok cols rows cpp tw th 0 _ hcols hcpp htw hth (by omega) (by omega)]
    simp only [Nat.sub_zero]
    rw [e]
  · rw [l, List.length_replicate, Nat.mul_comm]
  · intro r c hr hc
    have hi : r * (cols * tw * cpp) + c < cols * tw * cpp * (rows * th) := by
      rw [Nat.mul_comm _ (rows * th)]; exact mul_add_lt hr hc
    obtain ⟨k, hk, hwin⟩ := in_some_win cols rows cpp tw th _ hcols hcpp htw hth hi
    rw [g _ (.inl ⟨k, hs.mem_iff.mpr (List.mem_range.mpr (by omega)), hwin⟩), Fs, Nat.mul_comm r, Nat.mul_add_div hPW, Nat.mul_add_mod,
      Nat.div_eq_of_lt hc, Nat.mod_eq_of_lt hc, Nat.add_zero]

/-- and cropping that buffer gives the image -/
theorem crop_padded (data : List Nat) (w h cpp W H : Nat) (d : List Nat) (hw : 0 < w) (hcpp : 0 < cpp) (hlen : data.length = h * w * cpp)
    (hd : Holds d W H (fun r c => S data (w * cpp) h r c)) (hW : w * cpp ≤ W) (hH : h ≤ H) :
    ∃ q, (Pix.mk W H d).intoCrop ⟨0, 0, w * cpp, h⟩ = .ok q ∧ q.data = data := by
  have hL : 0 < w * cpp := Nat.mul_pos hw hcpp
  have hdat : Holds data (w * cpp) h (fun r c => S data (w * cpp) h r c) := by
    refine ⟨by rw [hlen, Nat.mul_assoc], ?_⟩
    intro r c hr hc
    have := mul_add_lt hr hc
    simp only [S]
    rw [Nat.min_eq_left (by omega), Nat.min_eq_left (by omega), List.getD_eq_getElem?_getD,
      List.getElem?_eq_getElem (by rw [hlen, Nat.mul_assoc]; exact this)]
    rfl
  rw [Pix.intoCrop]
  split
  · rename_i he
    simp only at he
    obtain ⟨h1, h2, _, _⟩ := he
    refine ⟨_, rfl, ?_⟩
    subst h1 h2
    exact Holds.unique hd hdat
  · rw [crop_ok ⟨W, H, d⟩ ⟨0, 0, w * cpp, h⟩ _ hd hL (by simpa using hW) (by simpa using hH)]
    refine ⟨_, rfl, ?_⟩
    apply Holds.unique ?_ hdat
    have := holds_genRows h (w * cpp) (fun r c => S data (w * cpp) h (0 + r) (0 + c))
    simpa using this

end Verif.Tiles
