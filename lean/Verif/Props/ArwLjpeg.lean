import Verif.Proofs.ArwLjpeg
import Verif.Props.Cr2
import Verif.Props.JpegExists
import Verif.Props.CrxRange
/-!
# C63: Sony ARW images in lossless JPEG tiles

The JPEG data are those of C59 and C60, the missing colours are filled in as in C62.
-/

namespace Verif.Props
open Verif Verif.Ljpeg Verif.Spec Verif.Spec.Jpeg Verif.Spec.Cr2 Verif.ArwLjpeg

/-- At `off` there is a lossless JPEG file with four components, 256 by 256 of them: `px`. -/
def HasTile (buffer : List Nat) (off : Nat) (px : Nat → Nat → Nat → Nat) : Prop :=
  off ≤ buffer.length ∧ ∃ F pre post sel pred pt data T, buffer.drop off = file F pre post sel pred pt data ∧
    StoredAs F pre post sel false false pred pt data T 256 px ∧ 256 ≤ F.width ∧ 256 ≤ F.height ∧ F.comps.length = 4

/-- The picture in the tile in row `R` and column `C` of the tiles: its 512 by 512 samples, each square of two by two as the four
components. -/
def tileOf (f : Nat → Nat → Nat) (R C : Nat) : Nat → Nat → Nat → Nat := fun r c k =>
  f (512 * R + (2 * r + k / 2)) (512 * C + (2 * c + k % 2))

/-- The tags of an image of `rt` by `ct` tiles of 512 by 512. -/
structure TiledBy (t : Tags) (ct rt : Nat) : Prop where
  ct_pos : 0 < ct
  rt_pos : 0 < rt
  width : t.width = ct * 512
  height : t.height = rt * 512
  twidth : t.twidth = 512
  tlength : t.tlength = 512
  offsets : t.offsets.length = ct * rt

theorem tiles_exact {ct : Nat} (h : 0 < ct) : tiles (ct * 512) 512 = .ok ct := by
  rw [tiles, usub, if_pos (by omega)]
  simp only [bind, Except.bind]
  rw [if_neg (by omega)]
  congr 1
  omega

theorem drop_from {buffer : List Nat} {off : Nat} (h : off ≤ buffer.length) : from' buffer off = .ok (buffer.drop off) := if_pos h

theorem tile_decodes {buffer : List Nat} {off : Nat} {px : Nat → Nat → Nat → Nat} (h : HasTile buffer off px) :
    ∃ d data, Dec.newFull (buffer.drop off) false false = .ok d ∧ d.decode (List.replicate (256 * 256 * 4) 0) 0 1024 1024 256 = .ok data ∧
      Holds data 1024 256 fun r i => px r (i / 4) (i % 4) := by
  obtain ⟨_, F, pre, post, sel, pred, pt, data, T, e, hS, hw, hh, h4⟩ := h
  obtain ⟨d, out, e1, e2, hl, hout, _⟩ := C59_window F pre post sel false false pred pt data T px 256 256 0 1024
    (List.replicate (256 * 256 * 4) 0) hS ⟨by omega, hw⟩ ⟨by omega, hh⟩ (by omega) (by rw [h4, List.length_replicate])
  rw [h4] at e2 hout
  refine ⟨d, out, by rw [e]; exact e1, e2, by rw [hl, List.length_replicate], ?_⟩
  intro r i hr hi
  have := hout r (i / 4) (i % 4) hr (by omega) (by omega)
  rw [Nat.add_zero, Nat.div_add_mod' i 4] at this
  exact this

/-- **C63.** Sensor data in tiles: every sample of the image arrives at its place. -/
theorem C63_sensor (t : Tags) (ct rt : Nat) (ht : TiledBy t ct rt) (hc : t.cpp = 1) (rgb : List Nat → List Nat) (buffer : List Nat)
    (f : Nat → Nat → Nat)
    (hf : ∀ R C, R < rt → C < ct → ∃ off, t.offsets[R * ct + C]? = some off ∧ HasTile buffer off (tileOf f R C)) :
    ∃ out, decodeArw t rgb buffer = .ok out ∧ Holds out t.width t.height f := by
  have hc0 := ht.ct_pos
  obtain ⟨out, e, ho⟩ := stripsFn_ok (W := ct * 512) (n := 512) (rt := rt) (f := f) (strip1 t buffer ct) (by omega) (by omega) (by
    intro R lines hR hl
    refine tiles_ok (tw := 512) _ ct rfl ?_ hl
    intro C lines g hC hl
    obtain ⟨off, e0, ht'⟩ := hf R C hR hC
    obtain ⟨d, data, e1, e2, hd⟩ := tile_decodes ht'
    obtain ⟨l', e3, hl'⟩ := unpackTile_ok (W := ct * 512) (x := C * 512) (f := fun r c => f (R * 512 + r) c) hd hl (by
      have : (C + 1) * 512 ≤ ct * 512 := Nat.mul_le_mul_right _ hC
      omega) (by
      intro line e i k h1 h2 h3 h4
      show _ = tileOf f R C line ((4 * i + (2 * e + k)) / 4) ((4 * i + (2 * e + k)) % 4)
      rw [show (4 * i + (2 * e + k)) / 4 = i by omega, show (4 * i + (2 * e + k)) % 4 = 2 * e + k by omega, tileOf]
      congr 1 <;> omega)
    refine ⟨l', ?_, hl'⟩
    rw [idx, e0]
    simp only [bind, Except.bind]
    simp only [drop_from ht'.1, e1, e2]
    rw [ht.width, ht.twidth]
    exact e3)
  refine ⟨out, ?_, by rw [ht.width, ht.height]; exact ho⟩
  rw [decodeArw, ht.width, ht.height, ht.twidth, ht.tlength, tiles_exact ht.ct_pos, tiles_exact ht.rt_pos]
  simp only [bind, Except.bind]
  rw [if_neg (by rw [ht.offsets]; simp), if_neg (by omega), if_pos hc]
  exact e

/-! ### three samples per pixel -/

/-- At `off` there is a lossless JPEG file of 512 by 512 pixels with colours for two or four pixels together: `p`. -/
def HasYuvTile (s : Sub) (buffer : List Nat) (off : Nat) (p : SubPic) : Prop :=
  off ≤ buffer.length ∧ ∃ F pre post sel pred pt data T bh, buffer.drop off = file F pre post sel pred pt data ∧
    StoredSub s F pre post sel false false pred pt data T 256 bh p ∧ F.height = 512

theorem yuv_decodes {s : Sub} (hs : s ≠ .canonFour) {buffer : List Nat} {off : Nat} {p : SubPic} (h : HasYuvTile s buffer off p) :
    ∃ d data, Dec.newFull (buffer.drop off) false false = .ok d ∧ d.decodeSony (List.replicate (512 * 512 * 3) 0) 0 1536 1536 512 = .ok data ∧
      Cr2.supers d = .ok (2, s.rows) ∧ Holds data (512 * 3) 512 fun r i => s.pixel p r (i / 3) (i % 3) := by
  obtain ⟨_, F, pre, post, sel, pred, pt, data, T, bh, e, hS, hF⟩ := h
  have hw : F.width = 512 := hS.width
  obtain ⟨d, e0, _, hw', hh', c, cs, e1, e2, e3⟩ := subCtx_of_stored hS
  obtain ⟨d', out, e', e4, hl, hout⟩ := C60_sony s hs F pre post sel false false pred pt data T 256 bh p hS
    (List.replicate (512 * 512 * 3) 0) (by rw [List.length_replicate, hF, hw])
  rw [e0] at e'
  have hdd := Except.ok.inj e'
  subst hdd
  rw [hw', hh', hw, hF] at e4
  rw [hw, hF] at hl hout
  refine ⟨d, out, by rw [e]; exact e0, e4, by rw [Cr2.supers, e1]; simp [idx, e2, e3, bind, Except.bind], hl, ?_⟩
  intro r i hr hi
  have := hout r (i / 3) (i % 3) hr (by omega) (Nat.mod_lt _ (by omega))
  rw [Nat.div_add_mod' i 3] at this
  exact this

/-- The whole picture from the pictures in the tiles, missing colours filled in tile by tile. -/
def joined (s : Sub) (p : Nat → Nat → SubPic) : Pic := fun r c k =>
  filled s.rows 512 512 (s.pixel (p (r / 512) (c / 512))) (r % 512) (c % 512) k

/-- **C63.** Brightness and colours in tiles: the image is the picture, colours filled in, converted by `rgb`. -/
theorem C63_yuv_partial (t : Tags) (ct rt : Nat) (ht : TiledBy t ct rt) (hc : t.cpp = 3) (rgb : List Nat → List Nat) (buffer : List Nat)
    (s : Sub) (hs : s ≠ .canonFour) (p : Nat → Nat → SubPic)
    (hf : ∀ R C, R < rt → C < ct → ∃ off, t.offsets[R * ct + C]? = some off ∧ HasYuvTile s buffer off (p R C)) :
    ∃ mid, decodeArw t rgb buffer = .ok (rgb mid) ∧
      Holds mid (t.width * 3) t.height fun r i => joined s p r (i / 3) (i % 3) := by
  have hc0 := ht.ct_pos
  have hW : ct * 512 * 3 = ct * 1536 := by ring
  obtain ⟨mid, e, ho⟩ := stripsFn_ok (W := ct * 512 * 3) (n := 512) (rt := rt) (f := fun r i => joined s p r (i / 3) (i % 3)) (strip3 t buffer ct)
      (by omega) (by omega) (by
    intro R lines hR hl
    refine tiles_ok (tw := 1536) _ ct hW ?_ hl
    intro C lines g hC hl
    obtain ⟨off, e0, ht'⟩ := hf R C hR hC
    obtain ⟨d, data, e1, e2, es, hd⟩ := yuv_decodes hs ht'
    obtain ⟨data', e5, hd'⟩ := C62_interpolation 512 512 s.rows (by omega) (s.pixel (p R C)) data hd
    obtain ⟨l', e3, hl'⟩ := copyTile_ok (w := ct * 512) (x := C * 1536) (f := fun r i => joined s p (R * 512 + r) (i / 3) (i % 3)) hd' hl (by
      have : (C + 1) * 1536 ≤ ct * 1536 := Nat.mul_le_mul_right _ hC
      omega) (by
      intro r i h1 h2
      show joined s p (R * 512 + r) ((C * 1536 + i) / 3) ((C * 1536 + i) % 3) = _
      rw [joined, show (R * 512 + r) / 512 = R by omega, show (R * 512 + r) % 512 = r by omega,
        show (C * 1536 + i) / 3 / 512 = C by omega, show (C * 1536 + i) / 3 % 512 = i / 3 by omega, show (C * 1536 + i) % 3 = i % 3 by omega])
    refine ⟨l', ?_, hl'⟩
    rw [idx, e0]
    simp only [bind, Except.bind]
    simp only [drop_from ht'.1, e1, e2, es]
    rw [ht.width, ht.twidth, Nat.mul_assoc C 512 3]
    rw [show Cr2.interpolateYuv 2 s.rows 1536 data = .ok data' from e5]
    exact e3)
  refine ⟨mid, ?_, by rw [ht.width, ht.height]; exact ho⟩
  rw [decodeArw, ht.width, ht.height, ht.twidth, ht.tlength, tiles_exact ht.ct_pos, tiles_exact ht.rt_pos]
  simp only [bind, Except.bind]
  rw [if_neg (by rw [ht.offsets]; simp), if_pos hc, e]

/-! ### every picture of 1024 by 512 samples in a file; two tiles of brightness and colours -/

/-- The frame of a tile. -/
def exTileFrame : Frame := ⟨256, 256, 14, [⟨0, 1, 1, 0⟩, ⟨1, 1, 1, 0⟩, ⟨2, 1, 1, 0⟩, ⟨3, 1, 1, 0⟩]⟩

theorem file_append (F : Frame) (pre post : List Segment) (sel : List Nat) (pred pt : Nat) (data tail : List Nat) :
    file F pre post sel pred pt (data ++ tail) = file F pre post sel pred pt data ++ tail := by simp [file]

theorem tile_exists (px : Nat → Nat → Nat → Nat) (hpx : ∀ r c k, px r c k < 65536) (tail : List Nat) (ht : IsBytes tail) :
    ∃ file, IsBytes file ∧ ∀ buffer off, off ≤ buffer.length → buffer.drop off = file ++ tail → HasTile buffer off px := by
  obtain ⟨data, hb, hS⟩ := C59_every_picture exTileFrame (by decide) (by decide) (by decide) 1 (by decide) false px (fun r c k _ _ _ => hpx r c k) tail ht
  refine ⟨file exTileFrame [.tables [(0, allTab)]] [] (exTileFrame.comps.map (·.id)) 1 0 data, ?_, ?_⟩
  · have h0 : IsBytes (file exTileFrame [.tables [(0, allTab)]] [] (exTileFrame.comps.map (·.id)) 1 0 []) := by unfold IsBytes; decide +kernel
    rw [show data = [] ++ data from rfl, file_append]
    intro b hm
    rcases List.mem_append.1 hm with h | h
    · exact h0 b h
    · exact hb b h
  · intro buffer off ho hd
    exact ⟨ho, exTileFrame, _, _, _, _, _, _, _, by rw [hd, ← file_append], hS, by decide, by decide, by decide⟩

/-- The theorem applies to some file for every picture of two tiles. -/
example (f : Nat → Nat → Nat) (hf : ∀ r c, f r c < 65536) (rgb : List Nat → List Nat) : ∃ (t : Tags) (buffer out : List Nat),
    t.width = 1024 ∧ t.height = 512 ∧ decodeArw t rgb buffer = .ok out ∧ Holds out 1024 512 f := by
  obtain ⟨f1, b1, h1⟩ := tile_exists (tileOf f 0 1) (fun r c k => hf _ _) [] (by simp [IsBytes])
  obtain ⟨f0, b0, h0⟩ := tile_exists (tileOf f 0 0) (fun r c k => hf _ _) (f1 ++ []) (by rw [List.append_nil]; exact b1)
  obtain ⟨out, e, ho⟩ := C63_sensor ⟨[2, 2 + f0.length], 1024, 512, 512, 512, 1⟩ 2 1
    ⟨by omega, by omega, rfl, rfl, rfl, rfl, rfl⟩ rfl rgb (77 :: 77 :: (f0 ++ f1)) f (by
      intro R C hR hC
      obtain rfl : R = 0 := by omega
      match C, hC with
      | 0, _ => exact ⟨2, rfl, h0 _ 2 (by simp) (by simp)⟩
      | 1, _ => exact ⟨2 + f0.length, rfl, h1 _ _ (by simp; omega) (by rw [Nat.add_comm]; simp)⟩)
  exact ⟨_, _, out, rfl, rfl, e, ho⟩

/-- The frame of a tile with a colour for two pixels. -/
def exYuvFrame : Frame := ⟨512, 512, 14, [⟨1, 2, 1, 0⟩, ⟨2, 1, 1, 0⟩, ⟨3, 1, 1, 0⟩]⟩

/-- A tile with samples of 14 bits. -/
example (p : SubPic) (hY : ∀ r c, p.y r c < 16384) (hB : ∀ r c, p.cb r c < 16384) (hR : ∀ r c, p.cr r c < 16384) (rgb : List Nat → List Nat) :
    ∃ (t : Tags) (buffer mid : List Nat), t.width = 512 ∧ t.height = 512 ∧ decodeArw t rgb buffer = .ok (rgb mid) ∧
      Holds mid 1536 512 fun r i => joined .two (fun _ _ => p) r (i / 3) (i % 3) := by
  obtain ⟨data, _, hS⟩ := C60_every_picture .two exYuvFrame (by decide) (by decide) (by decide) (by decide) 256 512 rfl rfl false p (by
    intro R C _ _ t ht
    have hp : ∀ a b R' C', a < 16384 → b < 16384 → before 8192 R' C' a b < 16384 := by
      intro a b R' C' ha hb
      unfold before
      split
      · split <;> omega
      · exact hb
    have e : (2 : Nat) ^ (exYuvFrame.prec - 0 - 1) = 8192 := by decide
    rw [e] at ht
    simp only [Sub.samples, List.cons_append, List.nil_append, List.mem_cons, List.not_mem_nil, or_false] at ht
    have hh : t.2.1 < 16384 ∧ t.2.2 < 16384 := by
      rcases ht with rfl | rfl | rfl | rfl
      · exact ⟨hY _ _, hp _ _ _ _ (hY _ _) (hY _ _)⟩
      · exact ⟨hY _ _, hY _ _⟩
      · exact ⟨hB _ _, hp _ _ _ _ (hB _ _) (hB _ _)⟩
      · exact ⟨hR _ _, hp _ _ _ _ (hR _ _) (hR _ _)⟩
    omega) [] (by simp [IsBytes])
  obtain ⟨mid, e, hm⟩ := C63_yuv_partial ⟨[0], 512, 512, 512, 512, 3⟩ 1 1 ⟨by omega, by omega, rfl, rfl, rfl, rfl, rfl⟩ rfl rgb
    (file exYuvFrame [.tables [(0, allTab)]] [] (exYuvFrame.comps.map (·.id)) 1 0 (data ++ [])) .two (by decide) (fun _ _ => p) (by
      intro R C hR hC
      obtain rfl : R = 0 := by omega
      obtain rfl : C = 0 := by omega
      exact ⟨0, rfl, by omega, exYuvFrame, _, _, _, _, _, _, _, _, rfl, hS, rfl⟩)
  exact ⟨_, _, mid, rfl, rfl, e, hm⟩

/-! ### other sizes -/

theorem upd_inv {l l' : List Nat} {i v : Nat} (h : upd l i v = .ok l') : i < l.length ∧ l'.length = l.length := by
  unfold upd at h
  split at h
  · rename_i hi; cases h; exact ⟨hi, by simp⟩
  · cases h

theorem unpackLine_inv {W x base : Nat} {data : List Nat} {line : Nat} {lines lines' : List Nat}
    (h : unpackLine W x base data line lines = .ok lines') : lines'.length = lines.length ∧ base + (W + x + 255 * 2 + 1) < lines.length := by
  have step : ∀ i s s', (fun i (lines : List Nat) => do
      let c0 ← idx data (line * 1024 + 4 * i)
      let lines ← upd lines (base + (x + i * 2)) c0
      let c1 ← idx data (line * 1024 + 4 * i + 1)
      let lines ← upd lines (base + (x + i * 2 + 1)) c1
      let c2 ← idx data (line * 1024 + 4 * i + 2)
      let lines ← upd lines (base + (W + x + i * 2)) c2
      let c3 ← idx data (line * 1024 + 4 * i + 3)
      upd lines (base + (W + x + i * 2 + 1)) c3) i s = .ok s' → s'.length = s.length ∧ base + (W + x + i * 2 + 1) < s.length := by
    intro i s s' h
    obtain ⟨c0, _, h⟩ := bind_inv _ _ _ h
    obtain ⟨s1, h1, h⟩ := bind_inv _ _ _ h
    obtain ⟨c1, _, h⟩ := bind_inv _ _ _ h
    obtain ⟨s2, h2, h⟩ := bind_inv _ _ _ h
    obtain ⟨c2, _, h⟩ := bind_inv _ _ _ h
    obtain ⟨s3, h3, h⟩ := bind_inv _ _ _ h
    obtain ⟨c3, _, h⟩ := bind_inv _ _ _ h
    have a1 := upd_inv h1
    have a2 := upd_inv h2
    have a3 := upd_inv h3
    have a4 := upd_inv h
    omega
  rw [unpackLine, forN_succ 255] at h
  obtain ⟨s, h1, h2⟩ := bind_inv _ _ _ h
  have l1 : s.length = lines.length := forN_post 255 _ (fun l => l.length = lines.length) (fun i a b hab hl => by rw [(step i a b hab).1, hl]) _ _ h1 rfl
  have := step 255 _ _ h2
  omega

theorem unpackTile_inv {W x : Nat} {data lines lines' : List Nat} (h : unpackTile W x data lines = .ok lines') :
    lines'.length = lines.length ∧ 511 * W + x + 511 < lines.length ∧ 512 * W ≤ lines.length := by
  have step : ∀ line s s', (fun line (lines : List Nat) => do
      let lines ← unpackLine W x (line * (2 * W)) data line lines
      assert' ((line + 1) * (2 * W) ≤ lines.length)
      Except.ok lines) line s = .ok s' → s'.length = s.length ∧ line * (2 * W) + (W + x + 255 * 2 + 1) < s.length ∧ (line + 1) * (2 * W) ≤ s.length := by
    intro i s s' h
    obtain ⟨s1, h1, h⟩ := bind_inv _ _ _ h
    obtain ⟨u, h2, h⟩ := bind_inv _ _ _ h
    cases h
    have := unpackLine_inv h1
    unfold assert' at h2
    split at h2
    · rename_i hb
      have := of_decide_eq_true hb
      omega
    · cases h2
  rw [unpackTile, forN_succ 255] at h
  obtain ⟨s, h1, h2⟩ := bind_inv _ _ _ h
  have l1 : s.length = lines.length := forN_post 255 _ (fun l => l.length = lines.length) (fun i a b hab hl => by rw [(step i a b hab).1, hl]) _ _ h1 rfl
  have := step 255 _ _ h2
  omega

theorem copyTile_inv {w x : Nat} {data lines lines' : List Nat} (h : copyTile w x data lines = .ok lines') :
    lines'.length = lines.length ∧ 511 * (w * 3) + x + 1536 ≤ lines.length ∧ 512 * (w * 3) ≤ lines.length := by
  have step : ∀ line s s', (fun line (lines : List Nat) => do
      let lines ← Cr2.copyIn lines (line * (w * 3) + x) data (line * 1536) 1536
      assert' ((line + 1) * (w * 3) ≤ lines.length)
      Except.ok lines) line s = .ok s' → s'.length = s.length ∧ line * (w * 3) + x + 1536 ≤ s.length ∧ (line + 1) * (w * 3) ≤ s.length := by
    intro i s s' h
    obtain ⟨s1, h1, h⟩ := bind_inv _ _ _ h
    obtain ⟨u, h2, h⟩ := bind_inv _ _ _ h
    cases h
    obtain ⟨b, h3, h4⟩ := bind_inv _ _ _ h1
    have hb : b.length = 1536 := by
      unfold slice at h3
      split at h3
      · rename_i hlt
        cases h3
        rw [List.length_take, List.length_drop]; omega
      · cases h3
    split at h4
    · rename_i hr
      cases h4
      unfold assert' at h2
      split at h2
      · rename_i hb'
        have := of_decide_eq_true hb'
        rw [List.length_append, List.length_append, List.length_take, List.length_drop, hb] at this ⊢
        omega
      · cases h2
    · cases h4
  rw [copyTile, forN_succ 511] at h
  obtain ⟨s, h1, h2⟩ := bind_inv _ _ _ h
  have l1 : s.length = lines.length := forN_post 511 _ (fun l => l.length = lines.length) (fun i a b hab hl => by rw [(step i a b hab).1, hl]) _ _ h1 rfl
  have := step 511 _ _ h2
  omega

/-- What a strip needs: all its tiles fit. -/
theorem strip_inv {t : Tags} {buffer lines out : List Nat} {ct row n : Nat} (hct : 0 < ct) (hw : t.twidth = 512)
    (h : (n = 1 ∧ strip1 t buffer ct row lines = .ok out) ∨ (n = 3 ∧ strip3 t buffer ct row lines = .ok out)) :
    511 * (t.width * n) + ct * 512 * n ≤ lines.length ∧ 512 * (t.width * n) ≤ lines.length := by
  obtain ⟨k, rfl⟩ : ∃ k, ct = k + 1 := ⟨ct - 1, by omega⟩
  rcases h with ⟨rfl, h⟩ | ⟨rfl, h⟩
  · have step : ∀ col s s', (fun col (lines : List Nat) => do
        let offset ← idx t.offsets (row * (k + 1) + col)
        let src ← from' buffer offset
        let d ← Dec.newFull src false false
        let data ← d.decode (List.replicate (256 * 256 * 4) 0) 0 1024 1024 256
        unpackTile t.width (col * t.twidth) data lines) col s = .ok s' →
        s'.length = s.length ∧ 511 * t.width + col * 512 + 511 < s.length ∧ 512 * t.width ≤ s.length := by
      intro col s s' h
      obtain ⟨_, _, h⟩ := bind_inv _ _ _ h
      obtain ⟨_, _, h⟩ := bind_inv _ _ _ h
      obtain ⟨_, _, h⟩ := bind_inv _ _ _ h
      obtain ⟨_, _, h⟩ := bind_inv _ _ _ h
      rw [hw] at h
      exact unpackTile_inv h
    rw [strip1, forN_succ k] at h
    obtain ⟨s, h1, h2⟩ := bind_inv _ _ _ h
    have l1 : s.length = lines.length := forN_post k _ (fun l => l.length = lines.length) (fun i a b hab hl => by rw [(step i a b hab).1, hl]) _ _ h1 rfl
    have := step k _ _ h2
    omega
  · have step : ∀ col s s', (fun col (lines : List Nat) => do
        let offset ← idx t.offsets (row * (k + 1) + col)
        let src ← from' buffer offset
        let d ← Dec.newFull src false false
        let data ← d.decodeSony (List.replicate (512 * 512 * 3) 0) 0 1536 1536 512
        let (sh, sv) ← Cr2.supers d
        let data ← Cr2.interpolateYuv sh sv 1536 data
        copyTile t.width (col * t.twidth * 3) data lines) col s = .ok s' →
        s'.length = s.length ∧ 511 * (t.width * 3) + col * 512 * 3 + 1536 ≤ s.length ∧ 512 * (t.width * 3) ≤ s.length := by
      intro col s s' h
      obtain ⟨_, _, h⟩ := bind_inv _ _ _ h
      obtain ⟨_, _, h⟩ := bind_inv _ _ _ h
      obtain ⟨_, _, h⟩ := bind_inv _ _ _ h
      obtain ⟨_, _, h⟩ := bind_inv _ _ _ h
      obtain ⟨_, _, h⟩ := bind_inv _ _ _ h
      obtain ⟨_, _, h⟩ := bind_inv _ _ _ h
      rw [hw] at h
      exact copyTile_inv h
    rw [strip3, forN_succ k] at h
    obtain ⟨s, h1, h2⟩ := bind_inv _ _ _ h
    have l1 : s.length = lines.length := forN_post k _ (fun l => l.length = lines.length) (fun i a b hab hl => by rw [(step i a b hab).1, hl]) _ _ h1 rfl
    have := step k _ _ h2
    omega

theorem mapM_each {α β : Type} (f : α → R β) : ∀ (l : List α) (out : List β), l.mapM f = .ok out → ∀ a ∈ l, ∃ b, f a = .ok b := by
  intro l
  induction l with
  | nil => intro out h a ha; cases ha
  | cons x l ih =>
    intro out h a ha
    rw [List.mapM_cons] at h
    obtain ⟨y, h1, h2⟩ := bind_inv _ _ _ h
    obtain ⟨ys, h3, h4⟩ := bind_inv _ _ _ h2
    rcases List.mem_cons.1 ha with rfl | ha
    · exact ⟨y, h1⟩
    · exact ih _ h3 a ha

theorem stripsFn_last {W H : Nat} {closure : Nat → List Nat → R (List Nat)} {out : List Nat} (h : stripsFn W H 512 closure = .ok out) (hW : 0 < W)
    (hH : 0 < H) : ∃ lines o, closure ((H - 1) / 512) lines = .ok o ∧ lines.length = W * (H - (H - 1) / 512 * 512) := by
  have hn : 0 < W * 512 := by omega
  unfold stripsFn at h
  obtain ⟨cs, h1, h⟩ := bind_inv _ _ _ h
  obtain ⟨os, h2, h⟩ := bind_inv _ _ _ h
  unfold chunks at h1
  rw [if_neg (by omega), List.length_replicate] at h1
  have hcount : (W * H + W * 512 - 1) / (W * 512) = (H - 1) / 512 + 1 := by
    obtain ⟨q, r, hr, rfl⟩ : ∃ q r, r < 512 ∧ H = q * 512 + r + 1 := ⟨(H - 1) / 512, (H - 1) % 512, by omega, by omega⟩
    rw [show (q * 512 + r + 1 - 1) / 512 = q by omega]
    have e1 : W * (q * 512 + r + 1) = q * (W * 512) + (W * r + W) := by ring
    have e2 : W * r ≤ W * 511 := Nat.mul_le_mul_left _ (by omega)
    refine Nat.div_eq_of_lt_le ?_ ?_
    · rw [e1, Nat.add_mul]; omega
    · rw [e1, show (q + 1 + 1) * (W * 512) = q * (W * 512) + W * 512 + W * 512 by ring]; omega
  rw [hcount] at h1
  cases h1
  obtain ⟨o, ho⟩ := mapM_each _ _ _ h2 ((H - 1) / 512) (by simp)
  obtain ⟨c, e1, e2⟩ := bind_inv _ _ _ ho
  refine ⟨c, o, e2, ?_⟩
  rw [idx_lt _ _ (by simp)] at e1
  cases e1
  have hle : (H - 1) / 512 * (W * 512) = W * ((H - 1) / 512 * 512) := by ring
  have hsub : W * (H - (H - 1) / 512 * 512) = W * H - W * ((H - 1) / 512 * 512) := Nat.mul_sub ..
  have hmax : W * (H - (H - 1) / 512 * 512) ≤ W * 512 := Nat.mul_le_mul_left _ (by omega)
  simp only [List.getElem_map, List.getElem_range, List.length_take, List.length_drop, List.length_replicate]
  omega

/-- **C63.** Tiles of 512 by 512: no file with an image whose width or height is not a multiple of 512 is decoded, whatever it contains:
the tiles at the edge have no room. -/
theorem C63_other_sizes (t : Tags) (rgb : List Nat → List Nat) (buffer out : List Nat) (hw : t.twidth = 512) (hl : t.tlength = 512)
    (h : decodeArw t rgb buffer = .ok out) : t.width % 512 = 0 ∧ t.height % 512 = 0 := by
  unfold decodeArw at h
  obtain ⟨ct, h1, h⟩ := bind_inv _ _ _ h
  obtain ⟨rt, h2, h⟩ := bind_inv _ _ _ h
  have htiles : ∀ n k, tiles n 512 = .ok k → 0 < n ∧ k = (n - 1) / 512 + 1 := by
    intro n k hk
    unfold tiles usub at hk
    split at hk
    · simp only [bind, Except.bind] at hk
      rw [if_neg (by omega)] at hk
      cases hk
      exact ⟨by omega, rfl⟩
    · cases hk
  rw [hw] at h1
  rw [hl] at h2
  obtain ⟨a1, a2⟩ := htiles _ _ h1
  obtain ⟨b1, b2⟩ := htiles _ _ h2
  split at h
  · cases h
  have fin : ∀ n, 0 < n → ∀ L, L = t.width * n * (t.height - (t.height - 1) / 512 * 512) →
      511 * (t.width * n) + ct * 512 * n ≤ L ∧ 512 * (t.width * n) ≤ L → t.width % 512 = 0 ∧ t.height % 512 = 0 := by
    intro n hn L hL hh
    have hp : 0 < t.width * n := Nat.mul_pos a1 hn
    have h5 : t.height - (t.height - 1) / 512 * 512 = 512 := by
      have := Nat.le_of_mul_le_mul_right (show 512 * (t.width * n) ≤ (t.height - (t.height - 1) / 512 * 512) * (t.width * n) by
        rw [Nat.mul_comm (t.height - _)]; omega) hp
      omega
    rw [h5] at hL
    have h6 := Nat.le_of_mul_le_mul_right (show ct * 512 * n ≤ t.width * n by omega) hn
    omega
  split at h
  · obtain ⟨image, h3, _⟩ := bind_inv _ _ _ h
    rw [hl] at h3
    obtain ⟨lines, o, h4, h5⟩ := stripsFn_last h3 (by omega) b1
    exact fin 3 (by omega) _ h5 (strip_inv (by omega) hw (Or.inr ⟨rfl, h4⟩))
  · split at h
    · rw [hl] at h
      obtain ⟨lines, o, h4, h5⟩ := stripsFn_last h a1 b1
      exact fin 1 (by omega) _ (by rw [h5, Nat.mul_one]) (strip_inv (by omega) hw (Or.inl ⟨rfl, h4⟩))
    · cases h

end Verif.Props
