import Verif.Model.PackedFloat
import Verif.Props.Float
import Verif.Spec.Bits
import Verif.Proofs.Packed
/-! # C15 for uncompressed floating point data -/

namespace Verif.Props
open Verif Verif.Spec Verif.Float

/-- The number stored in `b` bytes at byte position `p`. -/
def storedAt (e : Endian) (data : List Nat) (b p : Nat) : Nat :=
  (List.range b).foldl (fun a i => a * 256 + data.getD (p + (match e with | .big => i | .little => b - 1 - i)) 0) 0

theorem fold_lt (l : List Nat) (hl : ∀ x ∈ l, x < 256) : ∀ a, l.foldl (fun a x => a * 256 + x) a < (a + 1) * 256 ^ l.length := by
  induction l with
  | nil => intro a; simp
  | cons x l ih =>
    intro a
    have hx := hl x List.mem_cons_self
    rw [List.foldl_cons, List.length_cons, Nat.pow_succ']
    refine Nat.lt_of_lt_of_le (ih (fun y hy => hl y (List.mem_cons_of_mem _ hy)) _) ?_
    rw [← Nat.mul_assoc]
    exact Nat.mul_le_mul_right _ (by omega)

theorem fromBytes_lt (e : Endian) (l : List Nat) (hl : IsBytes l) : fromBytes e l < 256 ^ l.length := by
  cases e with
  | big => have := fold_lt l hl 0; simpa [fromBytes] using this
  | little =>
    have := fold_lt l.reverse (fun x hx => hl x (List.mem_reverse.mp hx)) 0
    simpa [fromBytes] using this

theorem fromBytes_storedAt (e : Endian) (data : List Nat) (b p : Nat) (h : p + b ≤ data.length) :
    fromBytes e ((data.drop p).take b) = storedAt e data b p := by
  have hl : ((data.drop p).take b).length = b := by rw [List.length_take, List.length_drop]; omega
  cases e with
  | big =>
    have : (data.drop p).take b = (List.range b).map fun i => data.getD (p + i) 0 := by
      apply List.ext_getElem
      · rw [hl]; simp
      · intro i h1 h2
        rw [hl] at h1
        simp only [List.getElem_take, List.getElem_drop, List.getElem_map, List.getElem_range]
        rw [getD_lt' _ _ (by omega)]
    rw [fromBytes, this, List.foldl_map]; rfl
  | little =>
    have : ((data.drop p).take b).reverse = (List.range b).map fun i => data.getD (p + (b - 1 - i)) 0 := by
      apply List.ext_getElem
      · rw [List.length_reverse, hl]; simp
      · intro i h1 h2
        rw [List.length_reverse, hl] at h1
        simp only [List.getElem_reverse, List.getElem_take, List.getElem_drop, List.getElem_map, List.getElem_range]
        rw [getD_lt' _ _ (by omega)]
        congr 1
        rw [hl]
    rw [fromBytes, this, List.foldl_map]; rfl

/-- The layout of a floating point sample of `bps` bits: fraction and exponent widths. -/
def layout (bps : Nat) : Nat × Nat := if bps = 32 then (23, 8) else if bps = 24 then (16, 7) else (10, 5)

theorem readFloat_ok (e : Endian) (bps : Nat) (hb : bps = 32 ∨ bps = 24 ∨ bps = 16) (b : List Nat) (hl : b.length = bps / 8) (hbytes : IsBytes b) :
    ∃ r, readFloat e bps b = .ok r ∧ fval 23 8 r = fval (layout bps).1 (layout bps).2 (fromBytes e b) ∧ (bps = 32 → r = fromBytes e b) := by
  have hlt := fromBytes_lt e b hbytes
  rw [hl] at hlt
  rcases hb with rfl | rfl | rfl
  · exact ⟨_, rfl, rfl, fun _ => rfl⟩
  · obtain ⟨r, h1, _, h2⟩ := C15_float_widened_exactly binary24 (Or.inr rfl) (fromBytes e b) hlt
    exact ⟨r, h1, h2, by simp⟩
  · obtain ⟨r, h1, _, h2⟩ := C15_float_widened_exactly binary16 (Or.inl rfl) (fromBytes e b) hlt
    exact ⟨r, h1, h2, by simp⟩

theorem mapM_index {α β : Type} (F : α → R β) (P : Nat → β → Prop) : ∀ (l : List α),
    (∀ (i : Nat) (h : i < l.length), ∃ y, F l[i] = .ok y ∧ P i y) →
    ∃ out : List β, l.mapM F = .ok out ∧ out.length = l.length ∧ ∀ (i : Nat) (h : i < out.length), P i out[i] := by
  intro l
  induction l generalizing P with
  | nil => intro _; exact ⟨[], rfl, rfl, fun i h => by simp at h⟩
  | cons x l ih =>
    intro h
    obtain ⟨y, h1, h2⟩ := h 0 (by simp)
    obtain ⟨ys, h3, h4, h5⟩ := ih (fun i => P (i + 1)) (fun i hi => h (i + 1) (by simpa using hi))
    refine ⟨y :: ys, ?_, by simp [h4], ?_⟩
    · rw [List.mapM_cons, h3]
      rw [List.getElem_cons_zero] at h1
      rw [h1]; rfl
    · intro i hi
      cases i with
      | zero => exact h2
      | succ i => exact h5 i (by simpa using hi)

/-- **C15 for uncompressed strips and tiles.** Unpacking 16, 24 or 32 bit floats of either byte order gives, at every row and column, a
single precision number with the value stored at that place (bit for bit the same for 32 bit data); short data is an error. -/
theorem C15_packed_floats (e : Endian) (bps : Nat) (hb : bps = 32 ∨ bps = 24 ∨ bps = 16) (src : List Nat) (hs : IsBytes src) (skip : Nat)
    (lines : List (List Nat)) (width : Nat) (hl : ∀ l ∈ lines, l.length = width) :
    (src.length < (skip + lines.length) * width * (bps / 8) → unpackFloat e bps src skip lines width = fail') ∧
    ((skip + lines.length) * width * (bps / 8) ≤ src.length → ∃ out, unpackFloat e bps src skip lines width = .ok out ∧
      out.length = lines.length ∧ ∀ (r : Nat) (hr : r < out.length), out[r].length = width ∧ ∀ (c : Nat) (hc : c < out[r].length),
        fval 23 8 out[r][c] = fval (layout bps).1 (layout bps).2 (storedAt e src (bps / 8) (((skip + r) * width + c) * (bps / 8))) ∧
        (bps = 32 → out[r][c] = storedAt e src 4 (((skip + r) * width + c) * 4))) := by
  have hbytes : 8 * (bps / 8) = bps := by rcases hb with rfl | rfl | rfl <;> decide
  have hpos : 0 < bps / 8 := by rcases hb with rfl | rfl | rfl <;> decide
  have hneed : Packed.need (skip + lines.length) width bps = (skip + lines.length) * width * (bps / 8) := by
    rw [Packed.need]
    conv => lhs; rw [← hbytes, ← Nat.mul_assoc, Nat.mul_right_comm]
    omega
  refine ⟨fun h => ?_, fun h => ?_⟩
  · rw [unpackFloat, if_pos hb, if_pos (by rw [hneed]; exact h)]
  rw [unpackFloat, if_pos hb, if_neg (by rw [hneed]; omega)]
  obtain ⟨out, o1, o2, o3⟩ := mapM_index (fun (p : List Nat × Nat) => do
      let inb ← Packed.from' src ((skip + p.2) * width * (bps / 8))
      floatLine e bps inb p.1)
    (fun r (o : List Nat) => o.length = width ∧ ∀ (c : Nat) (hc : c < o.length),
      fval 23 8 o[c] = fval (layout bps).1 (layout bps).2 (storedAt e src (bps / 8) (((skip + r) * width + c) * (bps / 8))) ∧
      (bps = 32 → o[c] = storedAt e src 4 (((skip + r) * width + c) * 4))) lines.zipIdx
    (by
      intro r hr
      rw [List.length_zipIdx] at hr
      have hline : lines[r].length = width := hl _ (List.getElem_mem _)
      have hend : ((skip + r) * width + width) * (bps / 8) ≤ src.length := by
        have h1 : (skip + r + 1) * width ≤ (skip + lines.length) * width := Nat.mul_le_mul_right _ (by omega)
        rw [Nat.succ_mul] at h1
        exact Nat.le_trans (Nat.mul_le_mul_right _ h1) h
      generalize hoff : (skip + r) * width = off at *
      have hsum : (off + width) * (bps / 8) = off * (bps / 8) + width * (bps / 8) := Nat.add_mul ..
      simp only [List.getElem_zipIdx, Nat.zero_add, hoff]
      rw [Packed.from', if_pos (by omega)]
      simp only [bind, Except.bind]
      rw [floatLine, chunksExact, if_neg (by omega)]
      simp only [bind, Except.bind]
      have hcount : width ≤ (src.drop (off * (bps / 8))).length / (bps / 8) := by
        rw [Nat.le_div_iff_mul_le hpos, List.length_drop]; omega
      generalize hcnt : (src.drop (off * (bps / 8))).length / (bps / 8) = cnt at *
      obtain ⟨o, a1, a2, a3⟩ := mapM_index (fun p : Nat × List Nat => readFloat e bps p.2)
        (fun c q => fval 23 8 q = fval (layout bps).1 (layout bps).2 (storedAt e src (bps / 8) ((off + c) * (bps / 8))) ∧
          (bps = 32 → q = storedAt e src 4 ((off + c) * 4)))
        (lines[r].zip ((List.range cnt).map fun i => ((src.drop (off * (bps / 8))).drop (i * (bps / 8))).take (bps / 8)))
        (by
          intro c hc
          have hcw : c < width := by
            rw [List.length_zip, List.length_map, List.length_range, hline] at hc; omega
          have hpe : (off + c) * (bps / 8) + bps / 8 ≤ src.length := by
            have : (off + c + 1) * (bps / 8) ≤ (off + width) * (bps / 8) := Nat.mul_le_mul_right _ (by omega)
            rw [Nat.succ_mul] at this; omega
          simp only [List.getElem_zip, List.getElem_map, List.getElem_range, List.drop_drop]
          rw [← Nat.add_mul]
          have hlen : ((src.drop ((off + c) * (bps / 8))).take (bps / 8)).length = bps / 8 := by
            rw [List.length_take, List.length_drop]; omega
          obtain ⟨q, q1, q2, q3⟩ := readFloat_ok e bps hb _ hlen
            (fun x hx => hs x (List.mem_of_mem_drop (List.mem_of_mem_take hx)))
          rw [fromBytes_storedAt e src _ _ hpe] at q2 q3
          exact ⟨q, q1, q2, fun h32 => by subst h32; exact q3 rfl⟩)
      rw [a1]
      have hol : o.length = width := by
        rw [a2, List.length_zip, List.length_map, List.length_range, hline]; omega
      simp only [List.length_map, List.length_range]
      rw [List.drop_of_length_le (by omega), List.append_nil]
      exact ⟨o, rfl, hol, a3⟩)
  refine ⟨out, o1, by rw [o2, List.length_zipIdx], o3⟩

/-- two rows of big-endian half floats -/
example : unpackFloat .big 16 [0x3c, 0, 0, 1, 0xfc, 0, 0x80, 0] 0 [[0, 0], [0, 0]] 2 = .ok [[0x3f800000, 0x33800000], [0xff800000, 0x80000000]] := by
  decide +kernel
example : storedAt .little [1, 2, 3] 3 0 = 0x030201 := by decide

end Verif.Props
