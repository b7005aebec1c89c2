import Verif.Proofs.IiqS
import Verif.Proofs.CiffFile
import Verif.Props.Srw
/-!
# C73: Phase One images decode to the stored image
-/

namespace Verif.Props
open Verif Verif.Iiq Verif.Pumps Verif.Spec Verif.Spec.Iiq
open Verif.Spec.Srw (BitsAt)
open Verif.Spec.Ciff (At le)
open Verif.Orf (ok_bind)

/-! ## The formats -/

/-- **C73**, not compressed: samples of `b` bits in little-endian words arrive scaled to 16 bits. -/
theorem C73_uncompressed (buf : List Nat) (w h b : Nat) (hw : 0 < w) (hb : b ≤ 16) (px : Nat → Nat → Nat)
    (hpx : ∀ r c, r < h → c < w → px r c < 2 ^ b) (hS : ∀ r c, r < h → c < w → At buf (2 * (r * w + c)) (le 2 (px r c))) :
    ∃ img, decodeUncompressed buf w h b = .ok img ∧ Holds img w h fun r c => px r c * 2 ^ (16 - b) := by
  obtain ⟨img, e, hi⟩ := Packed.linesFn_ok w h hw (rowU buf w (16 - b)) (fun r c => px r c * 2 ^ (16 - b)) (by
    intro r hr
    obtain ⟨line, e, hl, hline⟩ := forN_inv w (fun i line => do
        let v ← Ciff.leU16 buf (r * (w * 2) + i * 2)
        upd line i (shl16 v (16 - b)))
      (fun i line => line.length = w ∧ ∀ j, j < i → line[j]? = some (px r j * 2 ^ (16 - b))) (List.replicate w 0)
      ⟨by simp, fun j hj => by omega⟩ (by
        rintro i line hi ⟨hl, hline⟩
        have hlt := hpx r i hr hi
        have hle : (2 : Nat) ^ b ≤ 2 ^ 16 := Nat.pow_le_pow_right (by omega) hb
        refine ⟨line.set i (px r i * 2 ^ (16 - b)), ?_, by simp [hl], ?_⟩
        · rw [show r * (w * 2) + i * 2 = 2 * (r * w + i) by rw [Nat.mul_add, Nat.mul_comm w 2, Nat.mul_left_comm, Nat.mul_comm i 2],
            Verif.Ciff.leU16_at (hS r i hr hi) (by omega), ok_bind, shl16_lt hb hlt, upd_lt _ _ _ (by omega)]
        · intro j hj
          by_cases c : j = i
          · rw [c, List.getElem?_set_self (by omega)]
          · rw [List.getElem?_set_ne (by omega), hline j (by omega)])
    rw [rowU]
    exact e.trans (by rw [line_eq hl hline]))
  refine ⟨img, ?_, hi⟩
  rw [decodeUncompressed, usub, if_pos hb, ok_bind, e]

/-- A file of type IIQ L and the picture it stores, for some choices of the writer. -/
def StoredL (buf strips : List Nat) (w h : Nat) (px : Nat → Nat → Nat) : Prop :=
  IsBytes buf ∧ ∃ (R : Nat → Row) (off : Nat → Nat), (∀ r, (R r).Ok) ∧ (∀ r, r < h → (R r).Fits w (px r)) ∧ Strips strips off h ∧
    ∀ r, r < h → BitsAt buf (off r) ((R r).bits w (px r))

theorem decodeCompressed_ok {buf strips : List Nat} {w h b : Nat} (hw0 : 0 < w) (hw : w < 2 ^ 32) (hb : b ≤ 16) {px : Nat → Nat → Nat}
    (hpx : ∀ r c, r < h → c < w → px r c < 2 ^ b) (hS : StoredL buf strips w h px) :
    ∃ img, decodeCompressed buf strips w h b = .ok img ∧ Holds img w h fun r c => px r c * 2 ^ (16 - b) := by
  obtain ⟨hbuf, R, off, hR, hF, hst, hbits⟩ := hS
  have hle : (2 : Nat) ^ b ≤ 2 ^ 16 := Nat.pow_le_pow_right (by omega) hb
  obtain ⟨img, e, hi⟩ := Packed.linesFn_ok w h hw0 (rowL buf strips w (16 - b)) (fun r c => px r c * 2 ^ (16 - b)) (by
    intro r hr
    rw [rowL_ok (hR r) hw (fun c hc => lt_of_lt_of_le (hpx r c hr hc) hle) (hF r hr) hbuf (hst r hr).1 (hst r hr).2 (hbits r hr)]
    congr 1
    apply List.map_congr_left
    intro c hc
    exact shl16_lt hb (hpx r c hr (List.mem_range.1 hc)))
  refine ⟨img, ?_, hi⟩
  rw [decodeCompressed, usub, if_pos hb, ok_bind, e]

/-- **C73**, IIQ L with samples of `b` bits (14 or 16): every sample arrives, scaled to 16 bits. -/
theorem C73_compressed (buf strips : List Nat) (w h b : Nat) (hw0 : 0 < w) (hw : w < 2 ^ 32) (hb : b ≤ 16) (px : Nat → Nat → Nat)
    (hpx : ∀ r c, r < h → c < w → px r c < 2 ^ b) (hS : StoredL buf strips w h px) :
    ∃ img, decodeCompressed buf strips w h b = .ok img ∧ Holds img w h fun r c => px r c * 2 ^ (16 - b) :=
  decodeCompressed_ok hw0 hw hb hpx hS

/-- **C73**, IIQ S: stored like IIQ L; samples up to 255 arrive as what the curve says, scaled to 16 bits, others as they are. -/
theorem C73_nonlinear (curve buf strips : List Nat) (w h b : Nat) (hw0 : 0 < w) (hw : w < 2 ^ 32) (hb : b ≤ 16) (px : Nat → Nat → Nat)
    (hcurve : curve.length = 256) (hc : ∀ i, i < 256 → curve.getD i 0 < 2 ^ b)
    (hpx : ∀ r c, r < h → c < w → px r c < 2 ^ 16) (hS : StoredL buf strips w h px) :
    ∃ img, decodeNonlinear curve buf strips w h b = .ok img ∧
      Holds img w h fun r c => if px r c < 256 then curve.getD (px r c) 0 * 2 ^ (16 - b) else px r c := by
  obtain ⟨img, e, h1, h2⟩ := decodeCompressed_ok (b := 16) hw0 hw (by omega) hpx hS
  refine ⟨img.map fun pix => if pix < 256 then curve.getD pix 0 * 2 ^ (16 - b) else pix, ?_, ?_⟩
  · rw [decodeNonlinear, e, ok_bind, usub, if_pos hb, ok_bind]
    apply mapM_ok_of
    intro pix _
    by_cases c : pix < 256
    · rw [if_pos c, if_pos c, idx_lt _ _ (show pix < curve.length by omega), ok_bind]
      have := hc pix c
      rw [List.getD_eq_getElem?_getD, List.getElem?_eq_getElem (show pix < curve.length by omega), Option.getD_some] at this ⊢
      rw [shl16_lt hb this]
    · rw [if_neg c, if_neg c]
  · refine ⟨by rw [List.length_map, h1], ?_⟩
    intro r c hr hc
    rw [List.getElem?_map, h2 r c hr hc]
    simp

/-- A file of type IIQ S, version 2, and the picture it stores, for some choices of the writer. -/
def StoredS (buf strips : List Nat) (w h : Nat) (px : Nat → Nat → Nat) : Prop :=
  IsBytes buf ∧ ∃ (R : Nat → Spec.Iiq.RowS) (off junk : Nat → Nat) (pad : Nat → List Bool), (∀ r, (R r).Ok) ∧ (∀ r, r < h → (R r).Fits w (px r)) ∧
    Strips strips off h ∧ ∀ r, r < h → junk r < 2 ^ 13 ∧ 7 ≤ (pad r).length ∧ BitsAt buf (off r) ((R r).bits w (px r) (junk r) ++ pad r)

/-- **C73**, IIQ S, version 2: every sample that was stored arrives, scaled to 16 bits. -/
theorem C73_sv2 (buf strips : List Nat) (w h : Nat) (hw0 : 0 < w) (px : Nat → Nat → Nat)
    (hpx : ∀ r c, r < h → c < w → px r c < 2 ^ 14) (hS : StoredS buf strips w h px) :
    ∃ img, decodeSv2 buf strips w h 14 = .ok img ∧ Holds img w h fun r c => px r c * 4 := by
  obtain ⟨hbuf, R, off, junk, pad, hR, hF, hst, hbits⟩ := hS
  obtain ⟨img, e, hi⟩ := Packed.linesFn_ok w h hw0 (rowS buf strips w 2) (fun r c => px r c * 4) (by
    intro r hr
    obtain ⟨hj, hp, hB⟩ := hbits r hr
    rw [rowS_ok (hR r) (fun c hc => hpx r c hr hc) (hF r hr) hbuf (hst r hr).1 hj (hst r hr).2 hp hB]
    congr 1
    apply List.map_congr_left
    intro c hc
    exact shl16_lt (b := 14) (by omega) (hpx r c hr (List.mem_range.1 hc)))
  refine ⟨img, ?_, hi⟩
  rw [decodeSv2, usub, if_pos (by omega), ok_bind, e]

/-! ## Every picture has a file -/

/-- Rows of bits can be put in a file, unless it is so large that the table has no room for the positions. -/
theorem rows_file (h L : Nat) (hsize : h * (L / 8 + 16) < 2 ^ 32) (f : Nat → List Bool) (hf : ∀ r, r < h → (f r).length ≤ L) :
    ∃ buf strips off, IsBytes buf ∧ Strips strips off h ∧ ∀ r, r < h → BitsAt buf (off r) (f r) := by
  obtain ⟨off, hoff⟩ : ∃ off : Nat → Nat, off = fun r => ((List.range r).flatMap fun r => wordFile (f r)).length := ⟨_, rfl⟩
  have hol : ∀ r, r ≤ h → off r ≤ r * (L / 8 + 16) := by
    intro r
    rw [hoff]
    induction r with
    | zero => simp
    | succ r ih =>
      intro hr
      have ih := ih (by omega)
      simp only at ih ⊢
      rw [List.range_succ, List.flatMap_append, List.length_append, Nat.add_mul]
      have h1 := (wordFile_spec (f r)).1
      have h2 := hf r (by omega)
      simp only [List.flatMap_cons, List.flatMap_nil, List.append_nil, Nat.one_mul]
      rw [h1]
      omega
  refine ⟨(List.range h).flatMap fun r => wordFile (f r), (List.range h).flatMap fun r => le 4 (off r), off,
    isBytes_flatMap _ _ fun r _ => (wordFile_spec _).2.1, ?_, ?_⟩
  · intro r hr
    refine ⟨Nat.lt_of_le_of_lt (hol r (by omega)) (Nat.lt_of_le_of_lt (Nat.mul_le_mul_right _ (by omega)) hsize), ?_⟩
    have := Verif.Ciff.at_range (f := (List.range h).flatMap fun r => le 4 (off r)) (p := 0) (n := h) (k := 4) (g := fun r => le 4 (off r))
      ⟨by rw [List.drop_zero, List.take_length], by rw [Nat.zero_add]⟩ (fun i _ => rfl) r hr
    rwa [Nat.zero_add] at this
  · intro r hr
    obtain ⟨c, hc⟩ := range_split (fun r => wordFile (f r)) h r hr
    rw [hc, hoff]
    exact bitsAt_wordFile _ _ _

theorem flatMap_le {α : Type} (n k : Nat) (g : Nat → List α) (hg : ∀ i, i < n → (g i).length ≤ k) : ((List.range n).flatMap g).length ≤ k * n := by
  induction n with
  | zero => simp
  | succ n ih =>
    rw [List.range_succ, List.flatMap_append, List.length_append]
    have := ih fun i hi => hg i (by omega)
    have := hg n (by omega)
    simp only [List.flatMap_cons, List.flatMap_nil, List.append_nil, Nat.mul_succ]
    omega

/-- Every 16 bit picture has a file of type IIQ L. -/
theorem C73_compressed_every (w h : Nat) (hw0 : 0 < w) (hw : w < 2 ^ 32) (hsize : h * (4 * w + 16) < 2 ^ 32) (px : Nat → Nat → Nat)
    (hpx : ∀ r c, r < h → c < w → px r c < 2 ^ 16) :
    ∃ buf strips img, StoredL buf strips w h px ∧ decodeCompressed buf strips w h 16 = .ok img ∧ Holds img w h px := by
  obtain ⟨R, hRdef⟩ : ∃ R : Row, R = ⟨fun _ _ => 14, fun _ _ => false⟩ := ⟨_, rfl⟩
  have hl : ∀ c, R.lenAt w c = 14 := by intro c; rw [hRdef, Row.lenAt]; split <;> rfl
  have hR : R.Ok := by
    intro k p
    rw [hRdef]
    exact ⟨(by decide : 5 ≤ 14), Nat.le_refl 14, fun h => Bool.noConfusion h⟩
  have hlen : ∀ r, (R.bits w (px r)).length ≤ 28 * w := by
    intro r
    apply flatMap_le
    intro c _
    rw [List.length_append, Row.pixel, hl, if_pos rfl, length_bitsMSB, hRdef]
    split
    · simp [Row.lenBits, lenWord]
    · simp
  obtain ⟨buf, strips, off, hb, hs, hB⟩ := rows_file h (28 * w) (Nat.lt_of_le_of_lt (Nat.mul_le_mul_left _ (by omega)) hsize)
    (fun r => R.bits w (px r)) fun r _ => hlen r
  have hS : StoredL buf strips w h px :=
    ⟨hb, fun _ => R, off, fun _ => hR, fun r _ c _ hne => absurd (hl c) hne, hs, hB⟩
  obtain ⟨img, e, hi⟩ := C73_compressed buf strips w h 16 hw0 hw (by omega) px hpx hS
  exact ⟨buf, strips, img, hS, e, Verif.Srw.holds_congr hi fun r c _ _ => by simp⟩

/-- Every 14 bit picture has a file of type IIQ S, version 2. -/
theorem C73_sv2_every (w h : Nat) (hw0 : 0 < w) (hsize : h * (16 * ((w + 7) / 8) + 32) < 2 ^ 32) (px : Nat → Nat → Nat)
    (hpx : ∀ r c, r < h → c < w → px r c < 2 ^ 14) :
    ∃ buf strips img, StoredS buf strips w h px ∧ decodeSv2 buf strips w h 14 = .ok img ∧ Holds img w h fun r c => px r c * 4 := by
  obtain ⟨R, hRdef⟩ : ∃ R : Spec.Iiq.RowS, R = ⟨0, fun _ _ => 9, fun _ _ => false, fun _ => 0⟩ := ⟨_, rfl⟩
  have hraw : ∀ c, R.Raw w c := by intro c; rw [hRdef]; exact Or.inr rfl
  have hR : R.Ok := by
    rw [hRdef]
    exact ⟨(by decide : 0 < 8), fun _ => (by decide : 0 ≤ 4), fun k p => ⟨Nat.le_refl 9, fun h => Bool.noConfusion h⟩⟩
  have hlen : ∀ r, (R.bits w (px r) 0 ++ List.replicate 7 false).length ≤ 128 * ((w + 7) / 8) + 23 := by
    intro r
    have hg : ((List.range ((w + 7) / 8)).flatMap (R.group w (px r))).length ≤ 128 * ((w + 7) / 8) := by
      apply flatMap_le
      intro k _
      have hp : ∀ n, ((List.range n).flatMap fun i => R.pixel w (px r) (8 * k + i)).length ≤ 14 * n := by
        intro n
        apply flatMap_le
        intro i _
        rw [Spec.Iiq.RowS.pixel, if_pos (hraw _), length_bitsMSB]
      rw [Spec.Iiq.RowS.group]
      split
      · have h8 := hp 8
        have h0 : (R.sizeBits k 0).length = 7 ∧ (R.sizeBits k 1).length = 7 ∧ (R.extraBits k).length = 1 := by
          rw [hRdef]; exact ⟨rfl, rfl, rfl⟩
        simp only [List.length_append]
        omega
      · have := hp (w - 8 * k)
        omega
    simp only [Spec.Iiq.RowS.bits, List.length_append, length_bitsMSB, List.length_replicate]
    omega
  obtain ⟨buf, strips, off, hb, hs, hB⟩ := rows_file h (128 * ((w + 7) / 8) + 23) (Nat.lt_of_le_of_lt (Nat.mul_le_mul_left _ (by omega)) hsize)
    (fun r => R.bits w (px r) 0 ++ List.replicate 7 false) fun r _ => hlen r
  have hS : StoredS buf strips w h px :=
    ⟨hb, fun _ => R, off, fun _ => 0, fun _ => List.replicate 7 false, fun _ => hR, fun r _ c _ hne => absurd (hraw c) hne, hs,
      fun r hr => ⟨(by decide : 0 < 2 ^ 13), by simp, hB r hr⟩⟩
  obtain ⟨img, e, hi⟩ := C73_sv2 buf strips w h hw0 px hpx hS
  exact ⟨buf, strips, img, hS, e, hi⟩

/-! ## Concrete files -/

/-- Ten samples of IIQ L: lengths 5 and 14 for the eight, then two as they are. -/
def rowExL : Row := ⟨fun _ p => if p = 0 then 5 else 14, fun _ _ => false⟩

example : rowExL.bits 10 (fun c => if c % 2 = 0 then 3 + c else 60000 + c) =
    bitsMSB 6 2 ++ bitsMSB 6 0 ++ bitsMSB 5 18 ++ bitsMSB 16 60001 ++ bitsMSB 5 17 ++ bitsMSB 16 60003 ++ bitsMSB 5 17 ++ bitsMSB 16 60005 ++
      bitsMSB 5 17 ++ bitsMSB 16 60007 ++ bitsMSB 16 11 ++ bitsMSB 16 60009 := by decide +kernel

example : decodeCompressed (wordFile (rowExL.bits 10 fun c => if c % 2 = 0 then 3 + c else 60000 + c)) [0, 0, 0, 0] 10 1 16 =
    .ok [3, 60001, 5, 60003, 7, 60005, 9, 60007, 11, 60009] := by decide +kernel

example : StoredL (wordFile (rowExL.bits 10 fun c => if c % 2 = 0 then 3 + c else 60000 + c)) [0, 0, 0, 0] 10 1
    (fun _ c => if c % 2 = 0 then 3 + c else 60000 + c) := by
  refine ⟨(wordFile_spec _).2.1, fun _ => rowExL, fun _ => 0, fun _ => ?_, ?_, ?_, ?_⟩
  · intro k p
    unfold rowExL
    by_cases h : p = 0
    · simp [h]
    · simp [h]
  · intro r _
    show rowExL.Fits 10 (fun c => if c % 2 = 0 then 3 + c else 60000 + c)
    unfold Row.Fits
    decide +kernel
  · intro r hr
    have : r = 0 := by omega
    subst this
    exact ⟨by decide, by decide, by decide⟩
  · intro r _
    have := bitsAt_wordFile [] (rowExL.bits 10 fun c => if c % 2 = 0 then 3 + c else 60000 + c) []
    rwa [List.append_nil] at this

/-- Nine samples of IIQ S, version 2, with size 2 (said by its word) and 1 (said by its change), two extra digits. -/
def rowExS : Spec.Iiq.RowS := ⟨3, fun _ p => if p = 0 then 2 else 1, fun _ p => p = 1, fun _ => 2⟩

example : decodeSv2 (wordFile (rowExS.bits 9 (fun c => 2 + c / 2) 77 ++ List.replicate 7 true)) [0, 0, 0, 0] 9 1 14 =
    .ok [8, 8, 12, 12, 16, 16, 20, 20, 24] := by decide +kernel

example : rowExS.Fits 9 (fun c => 2 + c / 2) := by
  unfold Spec.Iiq.RowS.Fits
  decide +kernel

/-! ## What goes wrong -/

/-- A row of IIQ L that begins with two ones, that is, keeps the lengths of an eight that is not there, makes the decoder panic. -/
theorem C73_first_keep_panics (buf strips : List Nat) (w h b off : Nat) (hw8 : 8 ≤ w) (hw : w < 2 ^ 32) (hh : 0 < h) (hb : b ≤ 16) (hbuf : IsBytes buf) (ho : off < 2 ^ 32)
    (hs : At strips 0 (le 4 off)) (l : List Bool) (hB : BitsAt buf off (true :: true :: l)) :
    decodeCompressed buf strips w h b = .error .panic := by
  obtain ⟨src, pad, e1, h1⟩ := rep_at hbuf hB
  obtain ⟨p1, e2, h2⟩ := newLen_keep 0 _ _ h1
  obtain ⟨p2, e3, h3⟩ := newLen_keep 0 _ _ h2
  have hcol : colL w (16 - b) 0 (PumpMSB32.new src, ⟨0, 0, 0, 0, List.replicate w 0⟩) = .error .panic := by
    unfold colL lensAt
    rw [mask8 hw, if_neg (by omega), if_pos (show 0 &&& 7 = 0 by decide)]
    simp only
    rw [e2, ok_bind]
    simp only
    rw [e3, ok_bind]
    rfl
  have hrow : rowL buf strips w (16 - b) (List.replicate w 0) 0 = .error .panic := by
    obtain ⟨n, rfl⟩ : ∃ n, w = n + 1 := ⟨w - 1, by omega⟩
    rw [rowL, Verif.Ciff.leU32_at (p := 0 * 4) (by simpa using hs) ho, ok_bind, e1, ok_bind, forN, List.range_succ_eq_map, List.foldlM_cons, hcol]
    rfl
  obtain ⟨n, rfl⟩ : ∃ n, h = n + 1 := ⟨h - 1, by omega⟩
  rw [decodeCompressed, usub, if_pos hb, ok_bind, Packed.linesFn, if_neg (by omega), List.range_succ_eq_map, List.mapM_cons, hrow]
  rfl

example : decodeCompressed (List.replicate 8 255) [0, 0, 0, 0] 8 1 14 = .error .panic :=
  C73_first_keep_panics _ _ 8 1 14 0 (by decide) (by decide) (by decide) (by decide) (by decide) (by decide) ⟨by decide, by decide⟩ (List.replicate 62 true)
    ⟨by decide, 2, [], by decide, by decide⟩

/-- The samples of the next theorem: the third is beyond 14 bits, as can happen with steps. -/
def pxExR : Nat → Nat := fun c => [8001, 1, 16386, 2, 10003, 3, 10004, 4].getD c 0

/-- If one sample of eight is beyond 14 bits, the decoder decodes the eight again; but from the wrong bits, and starting from the last samples of the first
attempt: samples before the bad one, which were right, are changed. -/
theorem C73_sv2_recovery_wrong : ∃ (R : Spec.Iiq.RowS) (buf strips out : List Nat), R.Ok ∧ R.Fits 8 pxExR ∧ IsBytes buf ∧ Strips strips (fun _ => 0) 1 ∧
    BitsAt buf 0 (R.bits 8 pxExR 0 ++ List.replicate 7 false) ∧ decodeSv2 buf strips 8 1 14 = .ok out ∧ out.length = 8 ∧
    pxExR 0 < 2 ^ 14 ∧ out[0]? ≠ some (pxExR 0 * 4) ∧ pxExR 1 < 2 ^ 14 ∧ out[1]? ≠ some (pxExR 1 * 4) := by
  refine ⟨⟨7, fun _ _ => 8, fun _ _ => false, fun _ => 4⟩, wordFile (Spec.Iiq.RowS.bits ⟨7, fun _ _ => 8, fun _ _ => false, fun _ => 4⟩ 8 pxExR 0 ++ List.replicate 7 false),
    [0, 0, 0, 0], [35796, 8212, 0, 16408, 0, 0, 0, 0], ?_, ?_, (wordFile_spec _).2.1, ?_, ?_, ?_, by decide, by decide, by decide, by decide, by decide⟩
  · exact ⟨by decide, fun _ => Nat.le_refl 4, fun k p => ⟨(by decide : 8 ≤ 9), fun h => Bool.noConfusion h⟩⟩
  · unfold Spec.Iiq.RowS.Fits
    decide +kernel
  · intro r hr
    have : r = 0 := by omega
    subst this
    exact ⟨by decide, by decide, by decide⟩
  · have := bitsAt_wordFile [] (Spec.Iiq.RowS.bits ⟨7, fun _ _ => 8, fun _ _ => false, fun _ => 4⟩ 8 pxExR 0 ++ List.replicate 7 false) []
    rwa [List.append_nil] at this
  · decide +kernel

/-- The samples of the next theorem -/
def pxExC : Nat → Nat := fun c => [8001, 1, 16386, 2, 10003, 3, 24372, 4].getD c 0

/-- What would be beyond 14 bits in the second attempt as well becomes the largest value of 14 bits, not less. -/
theorem C73_sv2_recovery_clamped : ∃ (R : Spec.Iiq.RowS) (buf strips out : List Nat), R.Ok ∧ R.Fits 8 pxExC ∧ IsBytes buf ∧ Strips strips (fun _ => 0) 1 ∧
    BitsAt buf 0 (R.bits 8 pxExC 0 ++ List.replicate 7 false) ∧ decodeSv2 buf strips 8 1 14 = .ok out ∧ out[0]? = some ((2 ^ 14 - 1) * 4) := by
  refine ⟨⟨7, fun _ _ => 8, fun _ _ => false, fun _ => 4⟩, wordFile (Spec.Iiq.RowS.bits ⟨7, fun _ _ => 8, fun _ _ => false, fun _ => 4⟩ 8 pxExC 0 ++ List.replicate 7 false),
    [0, 0, 0, 0], [65532, 8212, 12352, 16408, 0, 0, 0, 0], ?_, ?_, (wordFile_spec _).2.1, ?_, ?_, ?_, by decide⟩
  · exact ⟨by decide, fun _ => Nat.le_refl 4, fun k p => ⟨(by decide : 8 ≤ 9), fun h => Bool.noConfusion h⟩⟩
  · unfold Spec.Iiq.RowS.Fits
    decide +kernel
  · intro r hr
    have : r = 0 := by omega
    subst this
    exact ⟨by decide, by decide, by decide⟩
  · have := bitsAt_wordFile [] (Spec.Iiq.RowS.bits ⟨7, fun _ _ => 8, fun _ _ => false, fun _ => 4⟩ 8 pxExC 0 ++ List.replicate 7 false) []
    rwa [List.append_nil] at this
  · decide +kernel

end Verif.Props
