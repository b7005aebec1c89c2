import Verif.Model.PixArray
import Verif.Proofs.Grid
/-! # Crop and rotations on row-major buffers -/

namespace Verif.Pix
open Verif Verif.Spec
variable {α : Type}

theorem Holds.get {data : List α} {w h : Nat} {f : Nat → Nat → α} (hd : Holds data w h f) {r c : Nat} (hr : r < h)
    (hc : c < w) : ∃ hi : r * w + c < data.length, data[r * w + c] = f r c := by
  have h1 := hd.2 r c hr hc
  have hi : r * w + c < data.length := by rw [hd.1]; exact mul_add_lt hr hc
  rw [List.getElem?_eq_getElem hi, Option.some.injEq] at h1
  exact ⟨hi, h1⟩

/-- A piece of a row. -/
theorem Holds.piece {data : List α} {w h : Nat} {f : Nat → Nat → α} (hd : Holds data w h f) {r x n : Nat} (hr : r < h)
    (hx : x + n ≤ w) : (data.drop (r * w + x)).take n = (List.range n).map fun c => f r (x + c) := by
  apply List.ext_getElem?
  intro i
  have hle := mul_add_lt (j := 0) hr (m := w)
  by_cases hi : i < n
  · rw [List.getElem?_take_of_lt hi, List.getElem?_drop, List.getElem?_map, List.getElem?_range hi, Nat.add_assoc,
      hd.2 r (x + i) hr (by omega)]; rfl
  · have : (r + 1) * w ≤ h * w := Nat.mul_le_mul_right _ hr
    rw [Nat.add_mul, Nat.one_mul] at this
    have hl := hd.1
    rw [List.getElem?_eq_none (by rw [List.length_take, List.length_drop]; omega), List.getElem?_eq_none (by
      rw [List.length_map, List.length_range]; omega)]

theorem Holds.row {p : Pix α} {f : Nat → Nat → α} (hd : Holds p.data p.width p.height f) {r : Nat} (hr : r < p.height) :
    p.row r = .ok ((List.range p.width).map (f r)) := by
  have : (r + 1) * p.width ≤ p.height * p.width := Nat.mul_le_mul_right _ hr
  rw [Nat.add_mul, Nat.one_mul] at this
  rw [Pix.row, slice_ok _ _ _ (by omega) (by rw [hd.1]; omega), Nat.add_sub_cancel_left]
  have hp := Holds.piece hd (r := r) (x := 0) (n := p.width) hr (by omega)
  rw [Nat.add_zero] at hp
  rw [hp]
  simp

theorem map_piece (w x n : Nat) (g : Nat → α) (hx : x + n ≤ w) :
    (((List.range w).map g).drop x).take n = (List.range n).map fun c => g (x + c) := by
  apply List.ext_getElem?
  intro i
  by_cases hi : i < n
  · rw [List.getElem?_take_of_lt hi, List.getElem?_drop, List.getElem?_map, List.getElem?_range (by omega),
      List.getElem?_map, List.getElem?_range hi]; rfl
  · rw [List.getElem?_eq_none (by rw [List.length_take, List.length_drop, List.length_map, List.length_range]; omega),
      List.getElem?_eq_none (by rw [List.length_map, List.length_range]; omega)]

theorem crop_ok (p : Pix α) (a : Rect) (f : Nat → Nat → α) (hd : Holds p.data p.width p.height f) (hw : 0 < a.w)
    (hx : a.x + a.w ≤ p.width) (hy : a.y + a.h ≤ p.height) :
    p.crop a = .ok ⟨a.w, a.h, (List.range a.h).flatMap fun r => (List.range a.w).map fun c => f (a.y + r) (a.x + c)⟩ := by
  rw [Pix.crop, if_neg (by omega), mapM_ok_of _ (fun r => (List.range a.w).map fun c => f (a.y + r) (a.x + c))]
  · simp only [bind, Except.bind, List.flatMap_def]
  · intro r hr
    rw [List.mem_range] at hr
    rw [Holds.row hd (by omega)]
    simp only [bind, Except.bind]
    rw [slice_ok _ _ _ (by omega) (by rw [List.length_map, List.length_range]; omega), Nat.add_sub_cancel_left,
      map_piece _ _ _ _ hx]

theorem chunksExact_ok (data : List α) (w h : Nat) (f : Nat → Nat → α) (hd : Holds data w h f) (hw : 0 < w) :
    chunksExact data w = .ok ((List.range h).map fun r => (List.range w).map (f r)) := by
  rw [chunksExact, if_neg (by omega), hd.1, Nat.mul_div_cancel _ hw]
  congr 1
  apply List.map_congr_left
  intro r hr
  rw [List.mem_range] at hr
  have hp := Holds.piece hd (r := r) (x := 0) (n := w) hr (by omega)
  rw [Nat.add_zero] at hp
  rw [hp]; simp

theorem cropSlice_ok (data : List α) (dw dh : Nat) (a : Rect) (f : Nat → Nat → α) (hd : Holds data dw dh f)
    (hw : 0 < dw) (hx : a.x + a.w ≤ dw) (hy : a.y + a.h ≤ dh) :
    cropSlice data dw a = .ok ((List.range a.h).flatMap fun r => (List.range a.w).map fun c => f (a.y + r) (a.x + c)) := by
  rw [cropSlice, chunksExact_ok _ _ _ _ hd hw]
  simp only [bind, Except.bind]
  rw [map_piece dh a.y a.h (fun r => (List.range dw).map (f r)) hy, List.mapM_map,
    mapM_ok_of _ (fun r => (List.range a.w).map fun c => f (a.y + r) (a.x + c))]
  · simp only [List.flatMap_def]
  · intro r hr
    rw [List.mem_range] at hr
    simp only [Function.comp_apply]
    rw [slice_ok _ _ _ (by omega) (by rw [List.length_map, List.length_range]; omega), Nat.add_sub_cancel_left,
      map_piece _ _ _ _ hx]

theorem at_ok (p : Pix α) (f : Nat → Nat → α) (hd : Holds p.data p.width p.height f) {r c : Nat} (hr : r < p.height)
    (hc : c < p.width) : p.at' r c = .ok (f r c) := by
  obtain ⟨hi, he⟩ := Holds.get hd hr hc
  rw [Pix.at', idx_lt _ _ hi, he]

end Verif.Pix
