import Verif.Model.Tiles
import Verif.Proofs.Grid
/-! # Tiles: index arithmetic -/

namespace Verif.Tiles
open Verif Verif.Pix Verif.Spec
variable {α : Type} [Inhabited α]

/-- Sample `i` of row `y` of the image, continued beyond its right and lower edge by its last column and row. -/
def S (data : List α) (L h y i : Nat) : α := data.getD (min y (h - 1) * L + min i (L - 1)) default

theorem divCeil_ok (a b : Nat) (hb : 0 < b) : divCeil a b = .ok ((a + b - 1) / b) := by
  rw [divCeil, if_neg (by omega)]

theorem lt_divCeil {t w tw : Nat} (htw : 0 < tw) (h : t < (w + tw - 1) / tw) : t * tw < w := by
  have := (Nat.le_div_iff_mul_le htw).mp (show t + 1 ≤ (w + tw - 1) / tw from h)
  rw [Nat.add_mul, Nat.one_mul] at this; omega

theorem divCeil_full {t w tw : Nat} (htw : 0 < tw) (h : t + 1 < (w + tw - 1) / tw) : t * tw + tw ≤ w := by
  have := lt_divCeil htw h
  rw [Nat.add_mul, Nat.one_mul] at this; omega

theorem divCeil_last {t w tw : Nat} (htw : 0 < tw) (h : t < (w + tw - 1) / tw) (h2 : ¬ t + 1 < (w + tw - 1) / tw) :
    w ≤ t * tw + tw := by
  have h3 : (w + tw - 1) / tw < t + 2 := by omega
  rw [Nat.div_lt_iff_lt_mul htw, Nat.add_mul] at h3
  omega

theorem drop_take_map (data : List α) (off n : Nat) (h : off + n ≤ data.length) :
    (data.drop off).take n = (List.range n).map fun j => data.getD (off + j) default := by
  apply List.ext_getElem?
  intro i
  by_cases hi : i < n
  · rw [List.getElem?_take_of_lt hi, List.getElem?_drop, List.getElem?_map, List.getElem?_range hi,
      List.getElem?_eq_getElem (by omega)]
    simp [List.getD_eq_getElem?_getD, List.getElem?_eq_getElem (show off + i < data.length by omega)]
  · rw [List.getElem?_eq_none (by rw [List.length_take, List.length_drop]; omega), List.getElem?_eq_none (by
      rw [List.length_map, List.length_range]; omega)]

/-- What row `r` of the tile in column `tx` and row `ty` holds. -/
def rowSpec (data : List α) (L h T th ty tx r : Nat) : List α :=
  (List.range T).map fun j => S data L h (ty * th + r) (tx * T + j)

theorem length_rowSpec (data : List α) (L h T th ty tx r : Nat) : (rowSpec data L h T th ty tx r).length = T := by
  simp [rowSpec]

theorem tileRow_ok (data : List α) (w h cpp tw th ty tx row : Nat) (buf : List α) (hw : 0 < w) (hcpp : 0 < cpp)
    (htw : 0 < tw) (hth : 0 < th) (hlen : data.length = h * w * cpp) (hty : ty < (h + th - 1) / th)
    (htx : tx < (w + tw - 1) / tw)
    (hbuf : buf = (List.range row).flatMap (rowSpec data (w * cpp) h (tw * cpp) th ty tx)) :
    (ImageTiler.mk data w h cpp tw th ((w + tw - 1) / tw) ((h + th - 1) / th)).tileRow ty tx row buf =
      .ok (buf ++ rowSpec data (w * cpp) h (tw * cpp) th ty tx row) := by
  have hx := lt_divCeil htw htx
  have hy := lt_divCeil hth hty
  obtain ⟨L, hL⟩ : ∃ L, L = w * cpp := ⟨_, rfl⟩
  obtain ⟨T, hT⟩ : ∃ T, T = tw * cpp := ⟨_, rfl⟩
  have hL0 : 0 < L := hL ▸ Nat.mul_pos hw hcpp
  have hT0 : 0 < T := hT ▸ Nat.mul_pos htw hcpp
  rw [Nat.mul_assoc, ← hL] at hlen
  have hxT : tx * T < L := by
    rw [hT, hL, ← Nat.mul_assoc]; exact Nat.mul_lt_mul_of_pos_right hx hcpp
  simp only [ImageTiler.tileRow]
  rw [Nat.mul_assoc _ w cpp, Nat.mul_assoc tx tw cpp, ← hL, ← hT]
  rw [← hL, ← hT] at hbuf
  by_cases hin : ty * th + row < h
  · have hrow : (ty * th + row + 1) * L ≤ h * L := Nat.mul_le_mul_right _ hin
    rw [Nat.add_mul _ 1, Nat.one_mul] at hrow
    have hmin : min (ty * th + row) (h - 1) = ty * th + row := by omega
    rw [if_pos (by omega)]
    by_cases hfull : tx + 1 < (w + tw - 1) / tw ∨ ¬ w % tw > 0
    · rw [if_pos hfull]
      have hfit : tx * T + T ≤ L := by
        have : tx * tw + tw ≤ w := by
          rcases hfull with h1 | h1
          · exact divCeil_full htw h1
          · have h2 : w % tw = 0 := by omega
            have h3 : w / tw * tw = w := by have := Nat.div_add_mod w tw; rw [Nat.mul_comm] at this; omega
            have h4 : tx < w / tw := by
              rcases Nat.lt_or_ge tx (w / tw) with h | h
              · exact h
              · have := Nat.mul_le_mul_right tw h; omega
            have h5 : (tx + 1) * tw ≤ w / tw * tw := Nat.mul_le_mul_right _ h4
            rw [Nat.add_mul, Nat.one_mul] at h5; omega
        have h2 := Nat.mul_le_mul_right cpp this
        rw [Nat.add_mul, Nat.mul_assoc, ← hT, ← hL] at h2; exact h2
      rw [slice_ok _ _ _ (by omega) (by omega)]
      simp only [bind, Except.bind]
      rw [Nat.add_sub_cancel_left, drop_take_map _ _ _ (by omega)]
      congr 2
      apply List.map_congr_left
      intro j hj
      rw [List.mem_range] at hj
      rw [S, hmin, show min (tx * T + j) (L - 1) = tx * T + j by omega, Nat.add_assoc]
    · rw [if_neg hfull]
      rw [not_or, Decidable.not_not] at hfull
      obtain ⟨hl1, hl2⟩ := hfull
      have hlast := divCeil_last htw htx hl1
      have htx' : tx = w / tw := by
        have := Nat.div_add_mod w tw
        have hm := Nat.mod_lt w htw
        have h1 : w / tw < tx + 1 := by
          rw [Nat.div_lt_iff_lt_mul htw]
          rcases Nat.lt_or_ge w ((tx + 1) * tw) with h | h
          · exact h
          · exfalso
            have he : w = (tx + 1) * tw := by
              rw [Nat.add_mul, Nat.one_mul] at h ⊢; omega
            rw [he, Nat.mul_mod_left] at hl2; omega
        have h2 : tx ≤ w / tw := by rw [Nat.le_div_iff_mul_le htw]; omega
        omega
      have hwm : tx * tw + w % tw = w := by rw [htx', Nat.mul_comm]; exact Nat.div_add_mod w tw
      obtain ⟨m, hm⟩ : ∃ m, m = w % tw * cpp := ⟨_, rfl⟩
      have hmT : tx * T + m = L := by
        rw [hT, hm, hL, ← Nat.mul_assoc, ← Nat.add_mul, hwm]
      have hm0 : 0 < m := hm ▸ Nat.mul_pos hl2 hcpp
      have hmle : w % tw ≤ tw := Nat.le_of_lt (Nat.mod_lt _ htw)
      have hmT2 : (tw - w % tw) * cpp = T - m := by rw [Nat.sub_mul, ← hT, ← hm]
      have hmT3 : m ≤ T := by rw [hm, hT]; exact Nat.mul_le_mul_right _ hmle
      rw [← hm, hmT2, slice_ok _ _ _ (by omega) (by omega)]
      simp only [bind, Except.bind]
      rw [Nat.add_sub_cancel_left, drop_take_map _ _ _ (by omega), List.append_assoc]
      congr 2
      have hgl : (buf ++ List.map (fun j => data.getD ((ty * th + row) * L + tx * T + j) default) (List.range m)).getLast? =
          some (data.getD ((ty * th + row) * L + (L - 1)) default) := by
        obtain ⟨m', rfl⟩ : ∃ m', m = m' + 1 := ⟨m - 1, by omega⟩
        rw [List.range_succ, List.map_append, ← List.append_assoc]
        simp only [List.map_cons, List.map_nil, List.getLast?_append, List.getLast?_singleton, Option.some_or]
        congr 2; omega
      rw [hgl, Option.getD_some, rowSpec]
      rw [show T = m + (T - m) by omega, List.range_add, List.map_append]
      congr 1
      · apply List.map_congr_left
        intro j hj
        rw [List.mem_range] at hj
        rw [show m + (T - m) = T by omega, S, hmin, show min (tx * T + j) (L - 1) = tx * T + j by omega, Nat.add_assoc]
      · rw [Nat.add_sub_cancel_left, List.map_map]
        apply List.ext_getElem?
        intro i
        by_cases hi : i < T - m
        · rw [List.getElem?_replicate_of_lt hi, List.getElem?_map, List.getElem?_range hi]
          simp only [Option.map_some, Function.comp_apply]
          rw [show m + (T - m) = T by omega, S, hmin, show min (tx * T + (m + i)) (L - 1) = L - 1 by omega]
        · rw [List.getElem?_eq_none (by simpa using hi), List.getElem?_eq_none (by simpa using hi)]
  · have hge : h * L ≤ (ty * th + row) * L := Nat.mul_le_mul_right _ (by omega)
    rw [if_neg (by omega), usub, if_pos (by omega)]
    simp only [bind, Except.bind]
    have hblen : buf.length = row * T := by
      rw [hbuf]; exact flatMap_len row T _ (fun r _ => length_rowSpec ..)
    have h1 : (row - 1 + 1) * T = row * T := by congr 1; omega
    rw [Nat.add_mul, Nat.one_mul] at h1
    rw [Nat.mul_assoc (row - 1) tw cpp, ← hT, slice_ok _ _ _ (by omega) (by omega)]
    simp only
    congr 2
    rw [Nat.add_sub_cancel_left]
    have : rowSpec data L h T th ty tx row = rowSpec data L h T th ty tx (row - 1) := by
      unfold rowSpec
      apply List.map_congr_left
      intro j _
      unfold S
      rw [show min (ty * th + row) (h - 1) = min (ty * th + (row - 1)) (h - 1) by omega]
    rw [this]
    apply List.ext_getElem?
    intro i
    by_cases hi : i < T
    · rw [List.getElem?_take_of_lt hi, List.getElem?_drop, hbuf,
        flatMap_get row T _ (fun r _ => length_rowSpec ..) (row - 1) i (by omega) hi]
    · rw [List.getElem?_eq_none (by rw [List.length_take, List.length_drop]; omega), List.getElem?_eq_none (by
        rw [length_rowSpec]; omega)]

theorem buildTile_ok (data : List α) (w h cpp tw th ty tx : Nat) (hw : 0 < w) (hcpp : 0 < cpp)
    (htw : 0 < tw) (hth : 0 < th) (hlen : data.length = h * w * cpp) (hty : ty < (h + th - 1) / th)
    (htx : tx < (w + tw - 1) / tw) :
    (ImageTiler.mk data w h cpp tw th ((w + tw - 1) / tw) ((h + th - 1) / th)).buildTile (ty * ((w + tw - 1) / tw) + tx) =
      .ok ((List.range th).flatMap (rowSpec data (w * cpp) h (tw * cpp) th ty tx)) := by
  have hd : (ty * ((w + tw - 1) / tw) + tx) / ((w + tw - 1) / tw) = ty := by
    rw [Nat.mul_comm, Nat.mul_add_div (by omega), Nat.div_eq_of_lt htx, Nat.add_zero]
  have hm : (ty * ((w + tw - 1) / tw) + tx) % ((w + tw - 1) / tw) = tx := by
    rw [Nat.mul_comm, Nat.mul_add_mod, Nat.mod_eq_of_lt htx]
  rw [ImageTiler.buildTile, if_neg (by simp only; omega)]
  simp only [hd, hm]
  obtain ⟨b, hb, hi⟩ := forN_inv th
    (fun row buf => (ImageTiler.mk data w h cpp tw th ((w + tw - 1) / tw) ((h + th - 1) / th)).tileRow ty tx row buf)
    (fun n b => b = (List.range n).flatMap (rowSpec data (w * cpp) h (tw * cpp) th ty tx)) [] (by simp) (by
      intro i s _ hs
      refine ⟨_, tileRow_ok data w h cpp tw th ty tx i s hw hcpp htw hth hlen hty htx hs, ?_⟩
      rw [hs, List.range_succ, List.flatMap_append]; simp)
  rw [hb, hi]

theorem new_ok (data : List α) (w h cpp tw th : Nat) (htw : 0 < tw) (hth : 0 < th) (hlen : data.length = h * w * cpp) :
    ImageTiler.new data w h cpp tw th = .ok ⟨data, w, h, cpp, tw, th, (w + tw - 1) / tw, (h + th - 1) / th⟩ := by
  rw [ImageTiler.new, assert', if_pos (by simp [hlen]), divCeil_ok _ _ htw, divCeil_ok _ _ hth]
  rfl

end Verif.Tiles
