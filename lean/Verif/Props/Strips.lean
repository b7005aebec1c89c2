import Verif.Model.Strips
import Verif.Props.PackedRows
/-! # C17: uncompressed DNG strips round trip -/

namespace Verif.Props
open Verif Verif.Pumps Verif.Spec Verif.Packed Verif.Strips

theorem le16_bytes (l : List Nat) : IsBytes (l.flatMap le16) := by
  intro x hx
  rw [List.mem_flatMap] at hx
  obtain ⟨v, _, hx⟩ := hx
  simp only [le16, List.mem_cons, List.not_mem_nil, or_false] at hx
  rcases hx with rfl | rfl <;> omega

theorem le16_len (l : List Nat) : (l.flatMap le16).length = 2 * l.length := by
  induction l with
  | nil => rfl
  | cons a l ih => rw [List.flatMap_cons, List.length_append, ih, List.length_cons]; simp only [le16, List.length_cons, List.length_nil]; omega

theorem le16_bits (l : List Nat) (h : IsU16 l) : bytesMSB (swapPairs (l.flatMap le16)) = l.flatMap (bitsMSB 16) := by
  induction l with
  | nil => rfl
  | cons a l ih =>
    have ha : a < 65536 := h a (by simp)
    rw [List.flatMap_cons, List.flatMap_cons, ← ih (fun x hx => h x (by simp [hx]))]
    have := bits2 (a / 256 % 256) (a % 256) (by omega)
    rw [show a / 256 % 256 * 256 + a % 256 = a by omega] at this
    rw [this, swapPairs_app _ _ (by simp [le16])]
    simp [le16, swapPairs, bytesMSB]

theorem field_of_flatMap (enc : Nat → List Bool) (n : Nat) (henc : ∀ v, (enc v).length = n) (l : List Nat) (i : Nat) (hi : i < l.length) :
    ((l.flatMap enc).drop (i * n)).take n = enc l[i] := by
  induction l generalizing i with
  | nil => simp at hi
  | cons x l ih =>
    rw [List.flatMap_cons]
    match i with
    | 0 => rw [Nat.zero_mul, List.drop_zero, List.take_left' (henc x), List.getElem_cons_zero]
    | i + 1 =>
      rw [Nat.add_mul, Nat.one_mul, Nat.add_comm, drop_past _ _ _ _ (henc x), ih i (by simpa using hi), List.getElem_cons_succ]

theorem field_le16 (l : List Nat) (h : IsU16 l) (p : Nat) (hp : p < l.length) : fieldMSB 16 (swapPairs (l.flatMap le16)) p = l[p] := by
  have : l[p] < 65536 := h _ (List.getElem_mem _)
  rw [fieldMSB, le16_bits l h, field_of_flatMap _ 16 (length_bitsMSB 16) l p hp, natMSB_bitsMSB, Nat.mod_eq_of_lt this]

/-- A run of rows stored as little-endian words decodes to itself. -/
theorem decode_le16 (l : List Nat) (h : IsU16 l) (w c : Nat) (hl : l.length = c * w) :
    (do let rows ← decompress .little 16 (l.flatMap le16) 0 (List.replicate c (List.replicate w 0)) w
        .ok rows.flatten : R (List Nat)) = .ok l := by
  rw [C13_sixteen_le _ (le16_bytes l) 0 _ w (fun x hx => by rw [List.eq_of_mem_replicate hx, List.length_replicate]),
    if_pos (by rw [le16_len, List.length_replicate, hl, Nat.zero_add]; omega)]
  simp only [bind, Except.bind, List.length_replicate, Nat.zero_add]
  congr 1
  have h1 := holds_genRows c w (fun r i => fieldMSB 16 (swapPairs (l.flatMap le16)) (r * w + i))
  rw [List.flatMap_def] at h1
  refine Verif.Holds.unique h1 (f := fun r i => fieldMSB 16 (swapPairs (l.flatMap le16)) (r * w + i)) ⟨hl, ?_⟩
  intro r i hr hi
  have := mul_add_lt hr hi
  simp only []
  rw [field_le16 l h _ (by omega), List.getElem?_eq_getElem (by omega)]

theorem padWord_ext (file : List Nat) : ∃ e, padWord file = file ++ e := by
  rw [padWord]
  split
  · exact ⟨_, rfl⟩
  · exact ⟨[], by simp⟩

/-- What the strip writer leaves behind. -/
theorem putStrips_ok (lw : Nat) (strips : List (List Nat)) (file : List Nat) (post : List Nat)
    (hlen : (putStrips lw strips file).1.length + post.length < 2 ^ 32) :
    (∃ e, (putStrips lw strips file).1 = file ++ e) ∧
    (putStrips lw strips file).2.1.length = strips.length ∧
    (putStrips lw strips file).2.2.1 = strips.map (fun s => 2 * s.length) ∧
    (putStrips lw strips file).2.2.2 = strips.map (fun s => s.length / lw) ∧
    ∀ x ∈ (putStrips lw strips file).2.1.zip strips,
      x.1 + 2 * x.2.length ≤ (putStrips lw strips file).1.length ∧
      ((((putStrips lw strips file).1 ++ post).drop x.1).take (2 * x.2.length)) = x.2.flatMap le16 := by
  induction strips generalizing file with
  | nil => exact ⟨⟨[], by simp [putStrips]⟩, rfl, rfl, rfl, by simp [putStrips]⟩
  | cons s strips ih =>
    obtain ⟨e0, he0⟩ := padWord_ext file
    simp only [putStrips, writeU16le] at hlen ⊢
    obtain ⟨⟨e1, he1⟩, h2, h3, h4, h5⟩ := ih (padWord file ++ s.flatMap le16) hlen
    generalize hr : putStrips lw strips (padWord file ++ s.flatMap le16) = r at *
    have hl : (padWord file).length + 2 * s.length ≤ r.1.length := by
      rw [he1, List.length_append, List.length_append, le16_len]; omega
    have hd : s.length / lw ≤ s.length := Nat.div_le_self _ _
    have m1 : (padWord file).length % 2 ^ 32 = (padWord file).length := Nat.mod_eq_of_lt (by omega)
    have m2 : 2 * s.length % 2 ^ 32 = 2 * s.length := Nat.mod_eq_of_lt (by omega)
    have m3 : s.length / lw % 2 ^ 32 = s.length / lw := Nat.mod_eq_of_lt (by omega)
    simp only [m1, m2, m3]
    refine ⟨⟨e0 ++ (s.flatMap le16 ++ e1), by rw [he1, he0]; simp⟩, by simp [h2], by simp [h3], by simp [h4], ?_⟩
    intro x hx
    rw [List.zip_cons_cons, List.mem_cons] at hx
    rcases hx with rfl | hx
    · refine ⟨hl, ?_⟩
      simp only []
      rw [he1, List.append_assoc, List.append_assoc, List.drop_left' rfl, List.take_left' (by rw [le16_len])]
    · exact h5 x hx

theorem continuity_false (e : Nat) (l : List (Nat × Nat)) : ∃ e', continuity (false, e) l = .ok (false, e') := by
  induction l generalizing e with
  | nil => exact ⟨e, rfl⟩
  | cons a l ih => rw [continuity, if_neg (by simp)]; exact ih 0

/-- Continuous pieces of a file, put together, are one piece. -/
theorem continuity_ok (file : List Nat) (hf : file.length < 2 ^ 32) (l : List (Nat × Nat)) (a : Nat) (ha : a ≤ file.length)
    (hl : ∀ x ∈ l, x.1 + x.2 ≤ file.length) :
    (∃ e, continuity (true, a) l = .ok (false, e)) ∨
    ∃ n, continuity (true, a) l = .ok (true, a + n) ∧ a + n ≤ file.length ∧
      (file.drop a).take n = (l.map fun x => (file.drop x.1).take x.2).flatten := by
  induction l generalizing a with
  | nil => exact Or.inr ⟨0, rfl, by omega, by simp⟩
  | cons x l ih =>
    obtain ⟨o, s⟩ := x
    have hx := hl (o, s) (by simp)
    by_cases h : a = o
    · subst h
      simp only [] at hx
      rw [continuity, if_pos ⟨rfl, rfl⟩]
      simp only [add32]
      rw [if_pos (by omega)]
      simp only [bind, Except.bind]
      rcases ih (a + s) hx (fun x hx => hl x (by simp [hx])) with h | ⟨n, e1, e2, e3⟩
      · exact Or.inl h
      · refine Or.inr ⟨s + n, by rw [e1, Nat.add_assoc], by omega, ?_⟩
        rw [List.map_cons, List.flatten_cons, ← e3, List.take_add, List.drop_drop]
    · left
      rw [continuity, if_neg (by simp [h])]
      exact continuity_false 0 l

/-- **C17.** Write any 16 bit image as uncompressed strips, after any bytes `pre` already in the file and followed by any bytes
`post`, with any settings of the strip height; reading the strips back gives the image.  (The file stays below 4 GiB, the
offsets' range.) -/
theorem C17_uncompressed_round_trip (threshold rows : Option Nat) (hrows : rows ≠ some 0) (pre post data : List Nat) (w h cpp : Nat)
    (hw : 0 < w) (hh : 0 < h) (hc : 0 < cpp) (hd : data.length = w * h * cpp) (h16 : IsU16 data) :
    ∃ file offs sizes rws, putUncompressed threshold rows pre data w h cpp = .ok (file, offs, sizes, rws) ∧
      ((file ++ post).length < 2 ^ 32 → readUncompressed 0 (file ++ post) offs sizes rws w h cpp = .ok data) := by
  have hrps : 0 < rowsPerStrip threshold rows h := by
    rw [rowsPerStrip]
    split
    · match rows, hrows with
      | none, _ => simp
      | some 0, hr => exact absurd rfl hr
      | some (n + 1), _ => simp
    · exact hh
  generalize hs0 : rowsPerStrip threshold rows h = s at hrps
  have hlw : 0 < w * cpp := Nat.mul_pos hw hc
  have hpos : 0 < s * w * cpp := by rw [Nat.mul_assoc]; exact Nat.mul_pos hrps hlw
  have hdl : data.length = h * (w * cpp) := by rw [hd, Nat.mul_comm w h, Nat.mul_assoc]
  generalize hlwe : w * cpp = lw at *
  have hcs : s * w * cpp = s * lw := by rw [Nat.mul_assoc, hlwe]
  rw [hcs] at hpos
  -- the strips
  let piece := fun i : Nat => (data.drop (i * (s * lw))).take (s * lw)
  have hN : (data.length + s * lw - 1) / (s * lw) = (h + s - 1) / s := by
    have := strips_of_zero lw h s hlw hrps
    rw [chunks, if_neg (by rw [Nat.mul_comm]; omega)] at this
    have := congrArg (fun x => (x.toOption.getD []).length) this
    simp only [Except.toOption, Option.getD_some, List.length_map, List.length_range, List.length_replicate] at this
    rw [hdl, Nat.mul_comm h lw, Nat.mul_comm s lw]; exact this
  have hNs : (h + s - 1) / s * s ≥ h ∧ ((h + s - 1) / s) * s < h + s := by
    have h1 := Nat.div_add_mod (h + s - 1) s
    have h2 := Nat.mod_lt (h + s - 1) hrps
    rw [Nat.mul_comm] at h1; omega
  generalize hNe : (h + s - 1) / s = N at *
  have hN0 : 0 < N := by apply Nat.pos_of_ne_zero; rintro rfl; omega
  have hplen : ∀ i, (piece i).length = min s (h - i * s) * lw := by
    intro i
    simp only [piece]
    rw [List.length_take, List.length_drop, hdl, Nat.mul_comm (min s _), mul_min', Nat.mul_sub, Nat.mul_comm lw s, Nat.mul_comm lw h,
      Nat.mul_comm lw (i * s), Nat.mul_assoc]
  have hchunks : chunks data (s * w * cpp) = .ok ((List.range N).map piece) := by
    rw [hcs, chunks, if_neg (by omega), hN]
  have hflat : ((List.range N).map piece).flatten = data := by
    have := flatten_strips (h * lw) (s * lw) (fun r => (data[r]?).toList) N
    have key : ∀ n a, ((List.range n).map fun r => (data[a + r]?).toList).flatten = (data.drop a).take n := by
      intro n
      induction n with
      | zero => simp
      | succ n ih =>
        intro a
        rw [List.range_succ, List.map_append, List.flatten_append, ih, List.take_succ, List.getElem?_drop]
        simp
    rw [show (fun i => ((List.range (min (s * lw) (h * lw - i * (s * lw)))).map fun r => (data[i * (s * lw) + r]?).toList).flatten) =
        piece from ?_] at this
    · rw [this]
      have k0 := key (min (h * lw) (N * (s * lw))) 0
      simp only [Nat.zero_add, List.drop_zero] at k0
      rw [k0, List.take_of_length_le]
      rw [hdl]
      have : h * lw ≤ N * s * lw := Nat.mul_le_mul_right _ hNs.1
      rw [Nat.mul_assoc] at this; omega
    · funext i
      rw [key]
      simp only [piece]
      rcases Nat.le_total (s * lw) (h * lw - i * (s * lw)) with hle | hle
      · rw [Nat.min_eq_left hle]
      · rw [Nat.min_eq_right hle, List.take_of_length_le (by rw [List.length_drop, hdl]; exact Nat.le_refl _),
          List.take_of_length_le (by rw [List.length_drop, hdl]; exact hle)]
  have hp16 : ∀ i, IsU16 (piece i) := fun i x hx => h16 x (List.mem_of_mem_drop (List.mem_of_mem_take hx))
  refine ⟨_, _, _, _, by rw [putUncompressed, hs0, hchunks, hlwe]; rfl, ?_⟩
  intro hlen
  rw [List.length_append] at hlen
  obtain ⟨_, hol, hsz, hrw, hv⟩ := putStrips_ok lw ((List.range N).map piece) pre post hlen
  generalize putStrips lw ((List.range N).map piece) pre = r at *
  obtain ⟨file, offs, sizes, rws⟩ := r
  simp only [] at *
  subst hsz hrw
  rw [List.length_map, List.length_range] at hol
  -- the views
  have hzip : ∀ i, i < N → ∀ o, offs[i]? = some o → o + 2 * (piece i).length ≤ file.length ∧
      (((file ++ post).drop o).take (2 * (piece i).length)) = (piece i).flatMap le16 := by
    intro i hi o ho
    refine hv (o, piece i) ?_
    have : (offs.zip ((List.range N).map piece))[i]? = some (o, piece i) := by
      rw [List.getElem?_zip_eq_some]
      exact ⟨ho, by rw [List.getElem?_map, List.getElem?_range hi]; rfl⟩
    exact List.mem_of_getElem? this
  generalize hpairs : offs.zip (((List.range N).map piece).map fun s => 2 * s.length) = pairs
  have hpl : pairs.length = N := by rw [← hpairs, List.length_zip, hol]; simp
  have hpg : ∀ i, i < N → ∃ o, offs[i]? = some o ∧ pairs[i]? = some (o, 2 * (piece i).length) := by
    intro i hi
    have hio : i < offs.length := by omega
    refine ⟨offs[i], List.getElem?_eq_getElem hio, ?_⟩
    clear hpl
    rw [← hpairs, List.getElem?_zip_eq_some]
    exact ⟨List.getElem?_eq_getElem hio, by
      rw [List.getElem?_map, List.getElem?_map, List.getElem?_range hi]; rfl⟩
  have hmaps : (pairs.map fun x => ((file ++ post).drop x.1).take x.2) = (List.range N).map fun i => (piece i).flatMap le16 := by
    apply List.ext_getElem?
    intro i
    rw [List.getElem?_map, List.getElem?_map]
    by_cases hi : i < N
    · obtain ⟨o, ho, hp⟩ := hpg i hi
      rw [hp, List.getElem?_range hi, Option.map_some, (hzip i hi o ho).2]; rfl
    · rw [List.getElem?_eq_none (by omega), List.getElem?_eq_none (by simp; omega)]; rfl
  have hle : ∀ x ∈ pairs, x.1 + x.2 ≤ (file ++ post).length := by
    intro x hx
    obtain ⟨i, hi, rfl⟩ := List.getElem_of_mem hx
    obtain ⟨o, ho, hp⟩ := hpg i (by omega)
    rw [List.getElem?_eq_getElem hi] at hp
    rw [Option.some.inj hp, List.length_append]
    have := (hzip i (by omega) o ho).1
    simp only []; omega
  have hviews : (pairs.mapM fun (o, s) => (do let a ← add32 0 o; subview (file ++ post) a s : R (List Nat))) =
      .ok ((List.range N).map fun i => (piece i).flatMap le16) := by
    rw [← hmaps]
    refine mapM_ok_of _ _ _ ?_
    rintro ⟨o, s⟩ hx
    have := hle _ hx
    simp only [List.length_append] at this
    simp only [add32, Nat.zero_add]
    rw [if_pos (by omega)]
    simp only [bind, Except.bind]
    rw [subview, if_pos (by rw [List.length_append]; omega)]
  obtain ⟨o0, ho0, hp0⟩ := hpg 0 hN0
  have ho0' : idx offs 0 = .ok o0 := by rw [idx_lt (h := by omega)]; rw [List.getElem?_eq_getElem (by omega)] at ho0; rw [Option.some.inj ho0]
  have ho0l : o0 ≤ (file ++ post).length := by
    have := (hzip 0 hN0 o0 ho0).1
    rw [List.length_append]; omega
  have hrow0 : ((List.map (fun s => s.length / lw) ((List.range N).map piece)).getD 0 0) = min s h := by
    rw [List.getD_eq_getElem?_getD, List.getElem?_map, List.getElem?_map, List.getElem?_range hN0]
    simp only [Option.map_some, Option.getD_some]
    rw [hplen, Nat.mul_div_cancel _ hlw, Nat.zero_mul, Nat.sub_zero]
  -- strip by strip
  have hA : decodeStrips (decompress .little 16) true ((List.range N).map fun i => (piece i).flatMap le16) none w h cpp (min s h) = .ok data := by
    rw [decodeStrips, hlwe]
    · rw [stripsFn, strips_of_zero lw h (min s h) hlw (by omega)]
      have hNm : (h + min s h - 1) / min s h = N := by
        rcases Nat.le_total s h with hsh | hsh
        · rw [Nat.min_eq_left hsh, hNe]
        · rw [Nat.min_eq_right hsh]
          have h1 : (h + h - 1) / h = 1 := by
            rw [show h + h - 1 = h * 1 + (h - 1) by omega, Nat.mul_add_div hh, Nat.div_eq_of_lt (by omega)]
          have : N = 1 := by
            apply Classical.byContradiction
            intro hne
            have : 2 * s ≤ N * s := Nat.mul_le_mul_right _ (by omega)
            omega
          omega
      rw [hNm]
      simp only [bind, Except.bind]
      rw [mapM_ok_iff' _ _ piece 0]
      · simp only [List.length_zipIdx, List.length_map, List.length_range, Nat.zero_add]
        rw [show (fun i => piece i) = piece from rfl, hflat]
      · intro i hi
        rw [List.length_zipIdx, List.length_map, List.length_range] at hi
        simp only [List.getElem_zipIdx, List.getElem_map, List.getElem_range, Nat.zero_add]
        rw [idx_lt (h := by rw [List.length_map, List.length_range]; exact hi)]
        simp only [List.getElem_map, List.getElem_range]
        have hsame : min (min s h) (h - i * min s h) = min s (h - i * s) := by
          rcases Nat.le_total s h with hsh | hsh
          · rw [Nat.min_eq_left hsh]
          · rw [Nat.min_eq_right hsh]
            have : N = 1 := by
              apply Classical.byContradiction
              intro hne
              have : 2 * s ≤ N * s := Nat.mul_le_mul_right _ (by omega)
              omega
            have hi0 : i = 0 := by omega
            subst hi0; omega
        rw [hsame]
        obtain ⟨nd, G, H⟩ := rowWise_packed .little 16 (by omega) ((piece i).flatMap le16) (le16_bytes _) lw (by unfold RowAligned; omega)
        have hd1 := decode_le16 (piece i) (hp16 i) lw _ (hplen i)
        rw [H.whole _ 0] at hd1
        rw [H.strip hlw]
        revert hd1
        split
        · intro h; simp [fail', bind, Except.bind] at h
        · exact id
    · intro _ h; simp at h
  have hB : decodeStrips (decompress .little 16) true ((List.range N).map fun i => (piece i).flatMap le16) (some (data.flatMap le16)) w h cpp
      (min s h) = .ok data := by
    rw [decodeStrips, hlwe]
    have := C14_row_parallel_partial .little 16 (by omega) (data.flatMap le16) (le16_bytes _) lw h hlw (by unfold RowAligned; omega)
    rw [decompressLines] at this
    rw [this]
    exact decode_le16 data h16 lw h hdl
  rw [readUncompressed, stripData, if_neg (by simp [hol]), ho0', hpairs, hrow0]
  simp only [bind, Except.bind]
  rcases continuity_ok (file ++ post) (by rw [List.length_append]; exact hlen) pairs o0 ho0l hle with ⟨e, he⟩ | ⟨n, e1, e2, e3⟩
  · rw [he]
    simp only []
    have hv' := hviews
    simp only [bind, Except.bind] at hv'
    rw [hv']
    simpa using hA
  · rw [e1]
    simp only []
    have hv' := hviews
    simp only [bind, Except.bind] at hv'
    rw [hv']
    rw [List.length_append] at e2 ho0l
    simp only [if_true, add32, Nat.zero_add]
    rw [if_pos (by omega)]
    simp only [usub]
    rw [if_pos (by omega)]
    simp only []
    rw [subview, if_pos (by rw [List.length_append]; omega), Nat.add_sub_cancel_left, e3, hmaps]
    simp only []
    have : ((List.range N).map fun i => (piece i).flatMap le16).flatten = data.flatMap le16 := by
      rw [← hflat, List.flatMap_def, List.map_flatten, List.flatten_flatten, List.map_map, List.map_map]
      rfl
    rw [this]
    exact hB

theorem subview_base (B f : List Nat) (hl : (B ++ f).length < 2 ^ 32) (o s : Nat) (v : List Nat)
    (h : (do let a ← add32 0 o; subview f a s : R (List Nat)) = .ok v) :
    (do let a ← add32 B.length o; subview (B ++ f) a s : R (List Nat)) = .ok v := by
  rw [List.length_append] at hl
  by_cases h1 : 0 + o < 2 ^ 32
  · rw [add32, if_pos h1, Nat.zero_add] at h
    simp only [bind, Except.bind, subview] at h
    by_cases h2 : o + s ≤ f.length
    · rw [if_pos h2] at h
      simp only [add32, if_pos (show B.length + o < 2 ^ 32 by omega), bind, Except.bind, subview, List.length_append]
      rw [if_pos (by omega), ← h, drop_past _ _ _ _ rfl]
    · rw [if_neg h2] at h; exact absurd h (by simp [fail'])
  · simp only [add32, if_neg h1, bind, Except.bind] at h; exact absurd h (by simp [panic'])

theorem mapM_views_base (B f : List Nat) (hl : (B ++ f).length < 2 ^ 32) (l : List (Nat × Nat)) (v : List (List Nat))
    (h : (l.mapM fun (o, s) => (do let a ← add32 0 o; subview f a s : R (List Nat))) = .ok v) :
    (l.mapM fun (o, s) => (do let a ← add32 B.length o; subview (B ++ f) a s : R (List Nat))) = .ok v := by
  induction l generalizing v with
  | nil => simpa using h
  | cons x l ih =>
    obtain ⟨o, s⟩ := x
    rw [List.mapM_cons] at h ⊢
    simp only [] at h ⊢
    cases hx : (do let a ← add32 0 o; subview f a s : R (List Nat)) with
    | error e => rw [hx] at h; simp [bind, Except.bind] at h
    | ok y =>
      rw [hx] at h
      rw [subview_base B f hl o s y hx]
      cases hm : (l.mapM fun (o, s) => (do let a ← add32 0 o; subview f a s : R (List Nat))) with
      | error e => rw [hm] at h; simp [bind, Except.bind] at h
      | ok ys => rw [hm] at h; rw [ih ys hm]; exact h

/-- Offsets count from the base: what is read from a TIFF file is read from the same file behind `B.length` other bytes. -/
theorem readUncompressed_base (B f : List Nat) (hl : (B ++ f).length < 2 ^ 32) (offs sizes rws : List Nat) (w h cpp : Nat) (d : List Nat)
    (hr : readUncompressed 0 f offs sizes rws w h cpp = .ok d) : readUncompressed B.length (B ++ f) offs sizes rws w h cpp = .ok d := by
  suffices H : ∀ v, stripData 0 f offs sizes = .ok v → stripData B.length (B ++ f) offs sizes = .ok v by
    rw [readUncompressed] at hr ⊢
    cases hs : stripData 0 f offs sizes with
    | error e => rw [hs] at hr; simp [bind, Except.bind] at hr
    | ok v => rw [hs] at hr; rw [H v hs]; exact hr
  intro v hv
  rw [stripData] at hv ⊢
  split at hv
  · simp [fail'] at hv
  · rename_i hne
    rw [if_neg hne]
    cases h1 : idx offs 0 with
    | error e => rw [h1] at hv; simp [bind, Except.bind] at hv
    | ok first =>
    rw [h1] at hv
    simp only [bind, Except.bind] at hv ⊢
    cases h2 : continuity (true, first) (offs.zip sizes) with
    | error e => rw [h2] at hv; simp at hv
    | ok ce =>
    obtain ⟨cont, e⟩ := ce
    rw [h2] at hv
    simp only [] at hv ⊢
    have hb := mapM_views_base B f hl (offs.zip sizes)
    simp only [bind, Except.bind] at hb
    revert hv hb
    generalize ((offs.zip sizes).mapM fun x => (_ : R (List Nat))) = m3
    generalize ((offs.zip sizes).mapM fun x => (_ : R (List Nat))) = m4
    intro hv hb
    cases h3 : m3 with
    | error e => rw [h3] at hv; simp at hv
    | ok views =>
    rw [h3] at hv
    rw [hb views h3]
    simp only [] at hv ⊢
    cases cont with
    | false => simpa using hv
    | true =>
      simp only [if_true] at hv ⊢
      have hs := fun n => subview_base B f hl first n
      simp only [bind, Except.bind] at hs
      cases h4 : usub e first with
      | error er =>
        rw [h4] at hv
        cases h5 : add32 0 first with
        | error _ => rw [h5] at hv; simp at hv
        | ok _ => rw [h5] at hv; simp at hv
      | ok n =>
      rw [h4] at hv
      cases h5 : add32 0 first with
      | error _ => rw [h5] at hv; simp at hv
      | ok a =>
      rw [h5] at hv
      simp only [] at hv
      cases h6 : subview f a n with
      | error _ => rw [h6] at hv; simp at hv
      | ok y =>
      rw [h6] at hv
      have := hs n y (by rw [h5]; exact h6)
      cases h7 : add32 B.length first with
      | error _ => rw [h7] at this; simp at this
      | ok b => rw [h7] at this; simp only [] at this ⊢; rw [this]; exact hv

/-- **C17**, for a TIFF structure that begins at any place in the file (`base`, as in raw files that embed one): strip offsets
are counted from there. -/
theorem C17_at_base (threshold rows : Option Nat) (hrows : rows ≠ some 0) (outer pre post data : List Nat) (w h cpp : Nat)
    (hw : 0 < w) (hh : 0 < h) (hc : 0 < cpp) (hd : data.length = w * h * cpp) (h16 : IsU16 data) :
    ∃ file offs sizes rws, putUncompressed threshold rows pre data w h cpp = .ok (file, offs, sizes, rws) ∧
      ((outer ++ (file ++ post)).length < 2 ^ 32 →
        readUncompressed outer.length (outer ++ (file ++ post)) offs sizes rws w h cpp = .ok data) := by
  obtain ⟨file, offs, sizes, rws, h1, h2⟩ := C17_uncompressed_round_trip threshold rows hrows pre post data w h cpp hw hh hc hd h16
  refine ⟨file, offs, sizes, rws, h1, fun hl => readUncompressed_base _ _ hl _ _ _ _ _ _ _ (h2 ?_)⟩
  rw [List.length_append] at hl
  omega

theorem putStrips_aligned (lw : Nat) (strips : List (List Nat)) (file : List Nat) :
    ∀ o ∈ (putStrips lw strips file).2.1, o % 4 = 0 := by
  induction strips generalizing file with
  | nil => simp [putStrips]
  | cons s strips ih =>
    intro o ho
    simp only [putStrips, writeU16le, List.mem_cons] at ho
    rcases ho with rfl | ho
    · have : (padWord file).length % 4 = 0 := by
        rw [padWord]
        split
        · rw [List.length_append, List.length_take, List.length_cons, List.length_cons, List.length_cons, List.length_nil]; omega
        · omega
      rw [Nat.mod_mod_of_dvd _ (by decide), this]
    · exact ih _ o ho

/-- Every strip begins on a word (4 byte) boundary, wherever the writer stood before. -/
theorem C17_aligned (threshold rows : Option Nat) (pre data : List Nat) (w h cpp : Nat) (file offs sizes rws : List Nat)
    (hp : putUncompressed threshold rows pre data w h cpp = .ok (file, offs, sizes, rws)) : ∀ o ∈ offs, o % 4 = 0 := by
  rw [putUncompressed] at hp
  cases hc : chunks data (rowsPerStrip threshold rows h * w * cpp) with
  | error e => rw [hc] at hp; simp [bind, Except.bind] at hp
  | ok strips =>
    rw [hc] at hp
    simp only [bind, Except.bind, Except.ok.injEq] at hp
    have := putStrips_aligned (w * cpp) strips pre
    rw [hp] at this
    exact this

/-- a file with strips at an odd base -/
example : readUncompressed 3 ([1, 2, 3] ++ ([9, 9, 9, 9, 9, 0, 0, 0] ++ (List.range 15).flatMap le16)) [8, 20, 32] [12, 12, 6] [2, 2, 1] 3 5 1 =
    .ok (List.range 15) := by decide +kernel

/-- 3 by 5 image in strips of two rows (12 bytes each, contiguous) behind five other bytes -/
example : putUncompressed (some 1) (some 2) [9, 9, 9, 9, 9] (List.range 15) 3 5 1 =
    .ok ([9, 9, 9, 9, 9, 0, 0, 0] ++ (List.range 15).flatMap le16, [8, 20, 32], [12, 12, 6], [2, 2, 1]) ∧
    readUncompressed 0 ([9, 9, 9, 9, 9, 0, 0, 0] ++ (List.range 15).flatMap le16 ++ [7, 7]) [8, 20, 32] [12, 12, 6] [2, 2, 1] 3 5 1 =
    .ok (List.range 15) := by decide +kernel

/-- 3 by 2 image in strips of one row: the strips are not contiguous -/
example : (do let (f, o, s, r) ← putUncompressed (some 1) (some 1) [9] [1, 2, 3, 4, 5, 6] 3 2 1
              let v ← stripData 0 f o s
              let d ← readUncompressed 0 f o s r 3 2 1
              .ok (v.2, d) : R _) = .ok (none, [1, 2, 3, 4, 5, 6]) := by decide +kernel

/-- A strip height of zero in the environment makes the writer panic. -/
theorem C17_zero_rows_panics : putUncompressed none (some 0) [] (List.replicate 101 7) 1 101 1 = panic' := by decide +kernel

end Verif.Props
