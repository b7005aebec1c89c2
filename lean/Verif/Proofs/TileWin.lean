import Verif.Proofs.Tiles
/-! # Tile windows: position, coverage, writing -/

namespace Verif.Tiles
open Verif Verif.Pix Verif.Spec
variable {α : Type} [Inhabited α]

/-- Window `k` of an image of `cols` tile columns. -/
def win (cols cpp tw th k : Nat) : Tile :=
  ⟨(k % cols) * (tw * cpp) + (k / cols) * (cols * tw * cpp) * th, tw * cpp, th, cols * tw * cpp⟩

theorem next_some (cols rows cpp tw th k : Nat) (hcols : 0 < cols) (hcpp : 0 < cpp) (htw : 0 < tw) (hth : 0 < th)
    (hk : k < rows * cols) :
    (TilesIter.mk k (cols * tw) cpp tw th (cols * tw * cpp * (rows * th))).next =
      .ok (some (win cols cpp tw th k), TilesIter.mk (k + 1) (cols * tw) cpp tw th (cols * tw * cpp * (rows * th))) := by
  have hcw : cols * tw / tw = cols := Nat.mul_div_cancel _ htw
  have hx : k % cols < cols := Nat.mod_lt _ hcols
  have hy : k / cols < rows := by rw [Nat.div_lt_iff_lt_mul hcols]; exact hk
  have hcount : cols * tw * cpp * (rows * th) / cpp / (th * tw) = rows * cols := by
    have : cols * tw * cpp * (rows * th) = cpp * (th * tw * (rows * cols)) := by ac_rfl
    rw [this, Nat.mul_div_cancel_left _ hcpp, Nat.mul_div_cancel_left _ (Nat.mul_pos hth htw)]
  obtain ⟨T, hT⟩ : ∃ T, T = tw * cpp := ⟨_, rfl⟩
  obtain ⟨W, hW⟩ : ∃ W, W = cols * tw * cpp := ⟨_, rfl⟩
  have hWT : W = cols * T := by rw [hW, hT, Nat.mul_assoc]
  have hT0 : 0 < T := hT ▸ Nat.mul_pos htw hcpp
  have hxW : (k % cols) * T + T ≤ W := by
    have := Nat.mul_le_mul_right T (show k % cols + 1 ≤ cols from hx)
    rw [Nat.add_mul, Nat.one_mul] at this; rw [hWT]; exact this
  have hyl : (k / cols) * W * th + W * th ≤ W * (rows * th) := by
    have := Nat.mul_le_mul_right (W * th) (show k / cols + 1 ≤ rows from hy)
    rw [Nat.add_mul, Nat.one_mul] at this
    rw [show W * (rows * th) = rows * (W * th) by ac_rfl, Nat.mul_assoc]; exact this
  have hWth : W ≤ W * th := Nat.le_mul_of_pos_right _ hth
  unfold TilesIter.next win
  simp only [hcw, TilesIter.tileCount, hcount]
  rw [if_neg (by omega), assert', if_pos (by simp; omega)]
  simp only [bind, Except.bind, Nat.mul_assoc (k % cols) tw cpp]
  rw [← hW, ← hT]
  rw [if_neg (by omega), usub, if_pos (by rw [Nat.mul_comm th W]; omega)]
  simp only
  rw [Nat.mul_comm th W, if_neg (by omega), if_neg (by omega)]

theorem next_none (cols rows cpp tw th : Nat) (hcols : 0 < cols) (hcpp : 0 < cpp) (htw : 0 < tw) (hth : 0 < th) :
    (TilesIter.mk (rows * cols) (cols * tw) cpp tw th (cols * tw * cpp * (rows * th))).next =
      .ok (none, TilesIter.mk (rows * cols + 1) (cols * tw) cpp tw th (cols * tw * cpp * (rows * th))) := by
  have hcw : cols * tw / tw = cols := Nat.mul_div_cancel _ htw
  have hcount : cols * tw * cpp * (rows * th) / cpp / (th * tw) = rows * cols := by
    have : cols * tw * cpp * (rows * th) = cpp * (th * tw * (rows * cols)) := by ac_rfl
    rw [this, Nat.mul_div_cancel_left _ hcpp, Nat.mul_div_cancel_left _ (Nat.mul_pos hth htw)]
  unfold TilesIter.next
  simp only [hcw, TilesIter.tileCount, hcount]
  rw [if_neg (by omega), assert', if_pos (by simp)]
  simp only [bind, Except.bind, Nat.mul_mod_left, Nat.mul_div_cancel _ hcols, Nat.zero_mul, Nat.zero_add]
  rw [if_pos (by rw [show rows * (cols * tw * cpp) * th = cols * tw * cpp * (rows * th) by ac_rfl]; exact Nat.le_refl _)]

theorem drain_ok (cols rows cpp tw th k fuel : Nat) (hcols : 0 < cols) (hcpp : 0 < cpp) (htw : 0 < tw) (hth : 0 < th)
    (hk : k ≤ rows * cols) (hf : rows * cols < k + fuel) :
    (TilesIter.drain fuel (TilesIter.mk k (cols * tw) cpp tw th (cols * tw * cpp * (rows * th)))) =
      .ok ((List.range' k (rows * cols - k)).map (win cols cpp tw th)) := by
  induction fuel generalizing k with
  | zero => omega
  | succ n ih =>
    rw [TilesIter.drain]
    by_cases he : k = rows * cols
    · subst he
      rw [next_none _ _ _ _ _ hcols hcpp htw hth]
      simp [bind, Except.bind]
    · rw [next_some _ _ _ _ _ _ hcols hcpp htw hth (by omega)]
      simp only [bind, Except.bind]
      rw [ih (k + 1) (by omega) (by omega)]
      simp only
      rw [show rows * cols - k = (rows * cols - (k + 1)) + 1 by omega, List.range'_succ, List.map_cons]

theorem iter_new_ok (cols rows cpp tw th : Nat) (hcols : 0 < cols) (hcpp : 0 < cpp) (htw : 0 < tw) (hth : 0 < th) :
    TilesIter.new (cols * tw * cpp * (rows * th)) (cols * tw) cpp tw th =
      .ok (TilesIter.mk 0 (cols * tw) cpp tw th (cols * tw * cpp * (rows * th))) := by
  have h1 : 0 < cols * tw := Nat.mul_pos hcols htw
  have h2 : 0 < tw * th := Nat.mul_pos htw hth
  rw [TilesIter.new, assert', assert', assert', if_pos (by simpa using h1), if_pos (by simpa using h2), if_pos (by simpa using hcpp)]
  simp only [bind, Except.bind]
  rw [if_neg]
  rw [Decidable.not_not, show cols * tw * cpp * (rows * th) = tw * cpp * th * (cols * rows) by ac_rfl, Nat.mul_mod_right]

/-- offset of line `r` of window `ty * cols + tx` -/
theorem win_line (cols cpp tw th ty tx r : Nat) (htx : tx < cols) (hr : r < th) :
    (win cols cpp tw th (ty * cols + tx)).lines[r]? =
      some (((ty * th + r) * (cols * tw * cpp) + tx * (tw * cpp)), tw * cpp) := by
  have hd : (ty * cols + tx) / cols = ty := by
    rw [Nat.mul_comm, Nat.mul_add_div (by omega), Nat.div_eq_of_lt htx, Nat.add_zero]
  have hm : (ty * cols + tx) % cols = tx := by rw [Nat.mul_comm, Nat.mul_add_mod, Nat.mod_eq_of_lt htx]
  rw [Tile.lines, List.getElem?_map]
  simp only [win, hd, hm]
  rw [List.getElem?_range hr, Option.map_some]
  congr 2
  rw [Nat.add_mul, show ty * (cols * tw * cpp) * th = ty * th * (cols * tw * cpp) by ac_rfl]
  omega

/-! ## writing lines -/

theorem length_blit (buf line : List α) (off : Nat) (h : off + line.length ≤ buf.length) :
    (blit buf off line).length = buf.length := by
  simp [blit]; omega

theorem blit_get (buf line : List α) (off i : Nat) (h : off + line.length ≤ buf.length) :
    (blit buf off line)[i]? = if off ≤ i ∧ i < off + line.length then line[i - off]? else buf[i]? := by
  unfold blit
  have hl : (buf.take off).length = off := by rw [List.length_take]; omega
  split
  · rename_i hi
    rw [List.append_assoc, List.getElem?_append_right (by omega), hl, List.getElem?_append_left (by omega)]
  · rename_i hi
    by_cases hio : i < off
    · rw [List.append_assoc, List.getElem?_append_left (by omega), List.getElem?_take_of_lt hio]
    · rw [List.getElem?_append_right (by rw [List.length_append]; omega), List.length_append, hl, List.getElem?_drop]
      congr 1; omega

/-- Writing lines whose samples come from `F` (indexed by buffer position) makes the buffer agree with `F` on those lines
and changes nothing else. -/
theorem foldl_blit (F : Nat → α) (ps : List ((Nat × Nat) × List α)) (buf : List α)
    (hps : ∀ p ∈ ps, p.1.1 + p.2.length ≤ buf.length ∧ ∀ j, j < p.2.length → p.2[j]? = some (F (p.1.1 + j))) :
    (ps.foldl (fun b p => blit b p.1.1 p.2) buf).length = buf.length ∧
    ∀ i, ((∃ p ∈ ps, p.1.1 ≤ i ∧ i < p.1.1 + p.2.length) → (ps.foldl (fun b p => blit b p.1.1 p.2) buf)[i]? = some (F i)) ∧
      (buf[i]? = some (F i) → (ps.foldl (fun b p => blit b p.1.1 p.2) buf)[i]? = some (F i)) := by
  induction ps generalizing buf with
  | nil => simp
  | cons p ps ih =>
    obtain ⟨hp1, hp2⟩ := hps p (by simp)
    have hbl := length_blit buf p.2 p.1.1 hp1
    obtain ⟨i1, i2⟩ := ih (blit buf p.1.1 p.2) (fun q hq => by rw [hbl]; exact hps q (by simp [hq]))
    rw [List.foldl_cons]
    refine ⟨by rw [i1, hbl], ?_⟩
    intro i
    have hkeep : (p.1.1 ≤ i ∧ i < p.1.1 + p.2.length) ∨ buf[i]? = some (F i) → (blit buf p.1.1 p.2)[i]? = some (F i) := by
      intro h
      rw [blit_get _ _ _ _ hp1]
      split
      · rename_i hi
        rw [hp2 _ (by omega)]
        congr 2; omega
      · rename_i hi
        rcases h with h | h
        · exact absurd h hi
        · exact h
    constructor
    · rintro ⟨q, hq, hr⟩
      rcases List.mem_cons.mp hq with rfl | hq
      · exact (i2 i).2 (hkeep (Or.inl hr))
      · exact (i2 i).1 ⟨q, hq, hr⟩
    · intro h
      exact (i2 i).2 (hkeep (Or.inr h))

end Verif.Tiles
