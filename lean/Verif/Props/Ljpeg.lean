import Verif.Proofs.LjpegRound
import Verif.Spec.Ljpeg
/-! # C01, C06, C07: lossless JPEG -/

namespace Verif.Props
open Verif Verif.Ljpeg Verif.Pumps Verif.Spec

theorem enc_new_ok {image w h n bd px pt padding dbg} (hpx1 : 1 ≤ px) (hpx7 : px ≤ 7)
    (hlen : h * ((w + padding) * n) ≤ image.length) (hbd1 : 2 ≤ bd) (hbd2 : bd ≤ 16) (hh : h ≤ 65535) (hw : w ≤ 65535) :
    Enc.new image w h n bd px pt padding dbg = .ok ⟨image, w, h, n, bd, pt, px, padding, dbg⟩ := by
  rw [Enc.new, if_neg (by omega), if_neg (by omega), if_neg (by omega), if_neg (by omega), if_neg (by omega)]

theorem samples_eq (e : Enc) (h : e.OK) : (List.range e.N).map e.X' =
    ((imageRows e.image e.width e.height e.components e.padding).flatten).map (· >>> e.pt) := by
  have h1 := flatMap_range_map e.X e.W e.height h.hW
  have h2 : (List.range e.N).map e.X' = (List.range e.height).flatMap fun r => (List.range e.W).map (e.X r) := h1.symm
  rw [h2, imageRows, ← List.flatMap_def, List.map_flatMap]
  apply List.flatMap_congr
  intro r hr
  rw [List.mem_range] at hr
  obtain ⟨ls, hls⟩ : ∃ ls, ls = (e.width + e.padding) * e.components := ⟨_, rfl⟩
  have hsize := h.size
  rw [← hls] at hsize ⊢
  have hWls : e.W ≤ ls := by rw [hls]; exact Nat.mul_le_mul_right _ (by omega)
  have hc : r * ls + ls ≤ e.image.length := by
    have : (r + 1) * ls ≤ e.height * ls := Nat.mul_le_mul_right _ hr
    rw [Nat.add_mul, Nat.one_mul] at this; omega
  apply List.ext_getElem?
  intro i
  by_cases hi : i < e.W
  · rw [List.getElem?_map, List.getElem?_range hi, List.getElem?_map, List.getElem?_take_of_lt hi, List.getElem?_drop,
      List.getElem?_eq_getElem (by omega)]
    simp only [Option.map_some, Enc.X, ← hls]
    rw [List.getD_eq_getElem?_getD, List.getElem?_eq_getElem (by omega)]; rfl
  · have hi' : e.width * e.components ≤ i := Nat.le_of_not_lt hi
    rw [List.getElem?_eq_none (by rw [List.length_map, List.length_range]; exact hi'), List.getElem?_eq_none (by
      rw [List.length_map, List.length_take]; omega)]

/-- Decoding what was encoded, for every predictor, component count, padding and point transform: the image rows without
padding, each sample shifted right by the point transform. -/
theorem ljpeg_round_trip_general (image : List Nat) (w h n bd px pt padding : Nat) (dbg : Bool)
    (hw : 1 ≤ w ∧ w ≤ 65535) (hh : 1 ≤ h ∧ h ≤ 65535) (hn : 1 ≤ n ∧ n ≤ 4) (hpx : 1 ≤ px ∧ px ≤ 7)
    (hbd : 10 ≤ bd ∧ bd ≤ 16) (hpt : pt < bd) (hlen : h * ((w + padding) * n) ≤ image.length) (hs : IsU16 image)
    (hdbg : dbg = true → ∀ s ∈ image.take (h * ((w + padding) * n)), s >>> pt < 2 ^ (bd - pt)) :
    ∃ bytes, encode image w h n bd px pt padding dbg = .ok bytes ∧
      decodeAll bytes = .ok ((imageRows image w h n padding).flatten.map (· >>> pt)) := by
  have hok : Enc.OK ⟨image, w, h, n, bd, pt, px, padding, dbg⟩ :=
    ⟨hw.1, hw.2, hh.1, hh.2, hn.1, hn.2, hlen, hs, hbd.2, hpt, hpx.1, hpx.2, hdbg⟩
  obtain ⟨bytes, e1, e2⟩ := encode_decode _ hok hbd.1
  refine ⟨bytes, ?_, ?_⟩
  · rw [encode, enc_new_ok hpx.1 hpx.2 hlen (by omega) hbd.2 hh.2 hw.2]
    exact e1
  · rw [e2, samples_eq _ hok]

/-- **C01.** Every image (any size up to 65535, 1 to 4 components, predictor 1 to 7, bit depth 10 to 16, no point
transform, row padding allowed) that the lossless JPEG compressor encodes is decoded to exactly the input samples.
`dbg` says whether the encoder is built with its debug assertions, which demand samples below `2^bd`. -/
theorem C01_ljpeg_round_trip (image : List Nat) (w h n bd px padding : Nat) (dbg : Bool)
    (hw : 1 ≤ w ∧ w ≤ 65535) (hh : 1 ≤ h ∧ h ≤ 65535) (hn : 1 ≤ n ∧ n ≤ 4) (hpx : 1 ≤ px ∧ px ≤ 7)
    (hbd : 10 ≤ bd ∧ bd ≤ 16) (hlen : h * ((w + padding) * n) ≤ image.length) (hs : IsU16 image)
    (hdbg : dbg = true → ∀ s ∈ image, s < 2 ^ bd) :
    ∃ bytes, encode image w h n bd px 0 padding dbg = .ok bytes ∧
      decodeAll bytes = .ok (imageRows image w h n padding).flatten := by
  obtain ⟨bytes, e1, e2⟩ := ljpeg_round_trip_general image w h n bd px 0 padding dbg hw hh hn hpx hbd (by omega) hlen hs
    (fun hd s hm => by simpa using hdbg hd s (List.mem_of_mem_take hm))
  exact ⟨bytes, e1, by simpa using e2⟩

theorem imageRows_flatten (image : List Nat) (w h n : Nat) (hlen : h * (w * n) = image.length) :
    (imageRows image w h n 0).flatten = image := by
  rw [imageRows, ← List.flatMap_def, Nat.add_zero]
  induction h generalizing image with
  | zero =>
    have : image = [] := List.eq_nil_of_length_eq_zero (by rw [← hlen, Nat.zero_mul])
    simp [this]
  | succ h ih =>
    rw [Nat.add_mul, Nat.one_mul] at hlen
    rw [List.range_succ_eq_map, List.flatMap_cons, List.flatMap_map, Nat.zero_mul, List.drop_zero]
    have := ih (image.drop (w * n)) (by rw [List.length_drop]; omega)
    have e : ∀ r, (image.drop (w * n)).drop (r * (w * n)) = image.drop ((r + 1) * (w * n)) := by
      intro r; rw [List.drop_drop, Nat.add_mul, Nat.one_mul, Nat.add_comm]
    simp only [e] at this
    simp only [Nat.succ_eq_add_one]
    rw [this, List.take_append_drop]

/-- C01 for an image without padding: decoding returns the input itself. -/
theorem C01_ljpeg_round_trip_plain (image : List Nat) (w h n bd px : Nat) (dbg : Bool)
    (hw : 1 ≤ w ∧ w ≤ 65535) (hh : 1 ≤ h ∧ h ≤ 65535) (hn : 1 ≤ n ∧ n ≤ 4) (hpx : 1 ≤ px ∧ px ≤ 7)
    (hbd : 10 ≤ bd ∧ bd ≤ 16) (hlen : h * (w * n) = image.length) (hs : IsU16 image)
    (hdbg : dbg = true → ∀ s ∈ image, s < 2 ^ bd) :
    ∃ bytes, encode image w h n bd px 0 0 dbg = .ok bytes ∧ decodeAll bytes = .ok image := by
  obtain ⟨bytes, e1, e2⟩ := C01_ljpeg_round_trip image w h n bd px 0 dbg hw hh hn hpx hbd
    (by rw [Nat.add_zero]; omega) hs hdbg
  exact ⟨bytes, e1, by rw [e2, imageRows_flatten image w h n hlen]⟩

/-- the hypotheses hold for a 3x2 image with two components, extreme differences and row padding -/
example : ∃ bytes, encode [0, 65535, 65535, 0, 1, 2, 9, 9, 32768, 3, 4, 5, 6, 7, 9, 9] 3 2 2 16 6 0 1 false = .ok bytes ∧
    decodeAll bytes = .ok [0, 65535, 65535, 0, 1, 2, 32768, 3, 4, 5, 6, 7] :=
  C01_ljpeg_round_trip _ 3 2 2 16 6 1 false (by decide) (by decide) (by decide) (by decide) (by decide) (by decide)
    (by decide) (by simp)

/-! ### through the decompressor interface -/

theorem chunks_of_rows (rows : List (List Nat)) (L : Nat) (hL : 0 < L) (hrows : ∀ r ∈ rows, r.length = L) :
    (List.range (rows.flatten.length / L)).map (fun i => (rows.flatten.drop (i * L)).take L) = rows := by
  have hlen : rows.flatten.length = rows.length * L := by
    clear hL
    induction rows with
    | nil => simp
    | cons a rows ih =>
      rw [List.flatten_cons, List.length_append, ih (fun r hr => hrows r (by simp [hr])), hrows a (by simp),
        List.length_cons, Nat.add_mul]; omega
  rw [hlen, Nat.mul_div_cancel _ hL]
  clear hlen
  induction rows with
  | nil => rfl
  | cons a rows ih =>
    have ha := hrows a (by simp)
    rw [List.length_cons, List.range_succ_eq_map, List.map_cons, List.map_map, Nat.zero_mul, List.drop_zero,
      List.flatten_cons, List.take_left' ha]
    congr 1
    conv => rhs; rw [← ih (fun r hr => hrows r (by simp [hr]))]
    apply List.map_congr_left
    intro i _
    simp only [Function.comp_apply, Nat.succ_eq_add_one]
    rw [Nat.add_mul, Nat.one_mul, Nat.add_comm, ← List.drop_drop, List.drop_left' ha]

theorem zip_map_snd {α β} (a : List α) (b : List β) (h : a.length ≤ b.length) : (a.zip b).map (·.2) = b.take a.length := by
  induction a generalizing b with
  | nil => simp
  | cons x a ih =>
    cases b with
    | nil => simp at h
    | cons y b => simp [ih b (by simpa using h)]

/-- C01 through the decompressor trait: whatever destination rows the caller passes (at most as many as remain after
`skip` rows), they are filled with the rows of the image from row `skip` on. -/
theorem C01_decompress_rows (image : List Nat) (w h n bd px padding skip : Nat) (dbg : Bool) (lines : List (List Nat))
    (hw : 1 ≤ w ∧ w ≤ 65535) (hh : 1 ≤ h ∧ h ≤ 65535) (hn : 1 ≤ n ∧ n ≤ 4) (hpx : 1 ≤ px ∧ px ≤ 7)
    (hbd : 10 ≤ bd ∧ bd ≤ 16) (hlen : h * ((w + padding) * n) ≤ image.length) (hs : IsU16 image)
    (hdbg : dbg = true → ∀ s ∈ image, s < 2 ^ bd) (hlines : ∀ l ∈ lines, l.length = w * n)
    (hfit : lines.length + skip ≤ h) :
    ∃ bytes, encode image w h n bd px 0 padding dbg = .ok bytes ∧
      decompress bytes skip lines (w * n) =
        .ok (((imageRows image w h n padding).drop skip).take lines.length) := by
  obtain ⟨bytes, e1, e2⟩ := C01_ljpeg_round_trip image w h n bd px padding dbg hw hh hn hpx hbd hlen hs hdbg
  refine ⟨bytes, e1, ?_⟩
  have hL : 0 < w * n := Nat.mul_pos hw.1 hn.1
  have hrl : (imageRows image w h n padding).length = h := by simp [imageRows]
  have hrows : ∀ r ∈ imageRows image w h n padding, r.length = w * n := by
    intro r hr
    simp only [imageRows, List.mem_map, List.mem_range] at hr
    obtain ⟨i, hi, rfl⟩ := hr
    have h1 : (i + 1) * ((w + padding) * n) ≤ h * ((w + padding) * n) := Nat.mul_le_mul_right _ hi
    have h2 : w * n ≤ (w + padding) * n := Nat.mul_le_mul_right _ (by omega)
    rw [Nat.add_mul, Nat.one_mul] at h1
    rw [List.length_take, List.length_drop]; omega
  rw [decompress, e2]
  simp only [bind, Except.bind]
  rw [if_neg (by omega), chunks_of_rows _ _ hL hrows]
  generalize hrs : (imageRows image w h n padding).drop skip = rs
  have hrs1 : lines.length ≤ rs.length := by rw [← hrs, List.length_drop, hrl]; omega
  have hrs2 : ∀ r ∈ rs, r.length = w * n := fun r hr => hrows r (List.mem_of_mem_drop (hrs ▸ hr))
  rw [if_pos (by
    intro p hp
    obtain ⟨a, b⟩ := p
    have := List.of_mem_zip hp
    rw [hlines _ this.1, hrs2 _ this.2])]
  rw [List.drop_of_length_le (by omega), List.append_nil]
  rw [zip_map_snd _ _ hrs1]

/-! ### C06 -/

/-- **C06 is false as stated.** The encoder accepts 8 bit data and returns a stream that the decoder rejects: the decoder
wants a precision of at least 10. -/
theorem C06_low_bitdepth_rejected : ∃ bytes, encode [1, 2, 3, 4] 2 2 1 8 1 0 0 true = .ok bytes ∧ decodeAll bytes = fail' :=
  ⟨match encode [1, 2, 3, 4] 2 2 1 8 1 0 0 true with | .ok b => b | .error _ => [], by decide +kernel, by decide +kernel⟩

/-- An empty image with no component is accepted, too, and rejected by the decoder. -/
theorem C06_no_component_rejected : ∃ bytes, encode [] 5 0 0 12 1 0 0 true = .ok bytes ∧ decodeAll bytes = fail' :=
  ⟨match encode [] 5 0 0 12 1 0 0 true with | .ok b => b | .error _ => [], by decide +kernel, by decide +kernel⟩

theorem forN_ok_inv {σ} (n : Nat) (f : Nat → σ → R σ) (s r : σ) (h : forN n f s = .ok r) (i : Nat) (hi : i < n) :
    ∃ a b, f i a = .ok b := by
  induction n generalizing r with
  | zero => omega
  | succ n ih =>
    rw [forN_succ] at h
    cases hf : forN n f s with
    | error e => simp [hf, Except.bind] at h
    | ok a =>
      rw [hf] at h
      by_cases hin : i = n
      · subst hin; exact ⟨a, r, h⟩
      · exact ih a hf (by omega)

theorem diffRow_inv {e : Enc} {first prev curr ds} (h : diffRow e first prev curr = .ok ds) :
    1 ≤ e.components ∧ e.components ≤ 4 ∧ e.pt + 1 ≤ e.bitdepth ∧
      (e.dbg = true → ∀ s ∈ curr.take ((e.width + e.padding) * e.components), s >>> e.pt < 2 ^ (e.bitdepth - e.pt)) := by
  unfold diffRow at h
  simp only at h
  split at h
  · simp at h
  · rename_i h1
    split at h
    · simp at h
    · split at h
      · simp at h
      · rename_i h3
        split at h
        · simp at h
        · rename_i h4
          refine ⟨by omega, by omega, by omega, ?_⟩
          intro hd s hs
          have h5 : ∀ s ∈ List.take ((e.width + e.padding) * e.components / e.components * e.components) curr,
              s >>> e.pt ≤ 2 ^ (e.bitdepth - e.pt) - 1 := by
            by_contra hc
            exact h4 ⟨hd, hc⟩
          rw [Nat.mul_div_cancel _ (by omega)] at h5
          have := h5 s hs
          have := Nat.two_pow_pos (e.bitdepth - e.pt)
          omega

theorem mapM_error_head {α β} (f : α → R β) (a : α) (l : List α) (e : Err) (h : f a = .error e) :
    (a :: l).mapM f = .error e := by
  rw [List.mapM_cons, h]; rfl

theorem encode_ok_inv (e : Enc) (bytes : List Nat) (h : e.encode = .ok bytes) (hn : 1 ≤ e.components)
    (hwm : e.width ≤ 65535) (hhm : e.height ≤ 65535) (hbd : e.bitdepth ≤ 16) (hpx1 : 1 ≤ e.predictor) (hpx7 : e.predictor ≤ 7)
    (hsize : e.height * ((e.width + e.padding) * e.components) ≤ e.image.length) (hu : IsU16 e.image) : e.OK := by
  simp only [Enc.encode, bind, Except.bind] at h
  cases hs : scan e with
  | error err => rw [hs] at h; simp at h
  | ok cache =>
    rw [hs] at h
    simp only at h
    -- the cache is not empty, otherwise building the first table panics
    have hcache : cache ≠ [] := by
      rintro rfl
      obtain ⟨m, hm⟩ : ∃ m, e.components = m + 1 := ⟨e.components - 1, by omega⟩
      have h0 : buildTable (histogram e.components [] 0) = panic' := by
        rw [show histogram e.components [] 0 = List.replicate 17 0 from rfl]; exact C03_empty_histogram_panics
      rw [hm] at h h0
      rw [List.range_succ_eq_map, mapM_error_head (fun c => buildTable (histogram (m + 1) [] c)) 0 _ _ h0] at h
      simp at h
    have hh1 : 1 ≤ e.height := by
      rcases Nat.eq_zero_or_pos e.height with h0 | h0
      · exfalso; rw [scan, h0, forN_zero] at hs; simp at hs; exact hcache hs
      · exact h0
    have hw1 : 1 ≤ e.width := by
      rcases Nat.eq_zero_or_pos e.width with h0 | h0
      · exfalso
        apply hcache
        have hinv : ∀ n r, forN n (fun row cache => do
            let ds ← scanRow e row
            .ok (cache ++ ds)) [] = .ok r → r = ([] : List Int) := by
          intro n
          induction n with
          | zero => intro r hr; rw [forN_zero] at hr; simp at hr; exact hr
          | succ n ih =>
            intro r hr
            rw [forN_succ] at hr
            cases hf : forN n (fun row cache => do
                let ds ← scanRow e row
                .ok (cache ++ ds)) ([] : List Int) with
            | error err => simp [hf, Except.bind] at hr
            | ok a =>
              have ha := ih a hf
              subst ha
              rw [hf] at hr
              simp only [Except.bind, bind, List.nil_append] at hr
              cases hsr : scanRow e n with
              | error err => rw [hsr] at hr; simp at hr
              | ok ds =>
                rw [hsr] at hr
                simp only [Except.ok.injEq] at hr
                subst hr
                simp only [scanRow, bind, Except.bind, h0] at hsr
                split at hsr
                · simp at hsr
                · simp only [Nat.zero_mul, List.take_zero, Except.ok.injEq] at hsr
                  exact hsr.symm
        exact hinv _ _ hs
      · exact h0
    have hrow : ∀ row, row < e.height → ∃ ds, diffRow e (row = 0)
        (e.image.drop ((row - 1) * ((e.width + e.padding) * e.components)))
        (e.image.drop (row * ((e.width + e.padding) * e.components))) = .ok ds := by
      intro row hr
      obtain ⟨a, b, hab⟩ := forN_ok_inv _ _ _ _ hs row hr
      simp only [bind, Except.bind] at hab
      cases hsr : scanRow e row with
      | error err => rw [hsr] at hab; simp at hab
      | ok ds =>
        simp only [scanRow, bind, Except.bind] at hsr
        split at hsr
        · simp at hsr
        · rename_i ds' hds; exact ⟨ds', hds⟩
    obtain ⟨ds0, hds0⟩ := hrow 0 hh1
    obtain ⟨_, hn4, hpt, _⟩ := diffRow_inv hds0
    refine ⟨hw1, hwm, hh1, hhm, hn, hn4, hsize, hu, hbd, hpt, hpx1, hpx7, ?_⟩
    intro hd s hs
    obtain ⟨k, hk, rfl⟩ := List.getElem_of_mem hs
    obtain ⟨ls, hls⟩ : ∃ ls, ls = (e.width + e.padding) * e.components := ⟨_, rfl⟩
    rw [← hls] at hsize hrow
    simp only [← hls] at hk
    rw [List.length_take] at hk
    have hls0 : 0 < ls := by
      rcases Nat.eq_zero_or_pos ls with h0 | h0
      · rw [h0] at hk; omega
      · exact h0
    have hkd : k / ls < e.height := by rw [Nat.div_lt_iff_lt_mul hls0]; omega
    obtain ⟨ds, hds⟩ := hrow (k / ls) hkd
    have hb := (diffRow_inv hds).2.2.2 hd
    rw [← hls] at hb
    have hdm := Nat.div_add_mod k ls
    rw [Nat.mul_comm] at hdm
    have hml := Nat.mod_lt k hls0
    apply hb
    rw [List.getElem_take]
    have hlen2 : k % ls < ((e.image.drop (k / ls * ls)).take ls).length := by
      rw [List.length_take, List.length_drop]; omega
    have hget : ((e.image.drop (k / ls * ls)).take ls)[k % ls] = e.image[k]'(by omega) := by
      rw [List.getElem_take, List.getElem_drop]
      congr 1
    rw [← hget]
    exact List.getElem_mem hlen2

/-- **C06, restricted to bit depths of at least 10 and at least one component** (partial: for bit depths 2 to 9 and for
zero components the claim is false, see `C06_low_bitdepth_rejected`). Whatever else the parameters are, if the encoder
returns bytes, the decoder accepts them and returns as many samples as the image has. -/
theorem C06_accepted_params_decodable_partial (image : List Nat) (w h n bd px pt padding : Nat) (dbg : Bool) (bytes : List Nat)
    (henc : encode image w h n bd px pt padding dbg = .ok bytes) (h10 : 10 ≤ bd) (hn : 1 ≤ n) (hs : IsU16 image) :
    ∃ out, decodeAll bytes = .ok out ∧ out.length = h * (w * n) := by
  have hnew : ∃ e, Enc.new image w h n bd px pt padding dbg = .ok e ∧ e.encode = .ok bytes := by
    simp only [encode, bind, Except.bind] at henc
    split at henc
    · simp at henc
    · rename_i e he; exact ⟨e, he, henc⟩
  obtain ⟨e, h1, h2⟩ := hnew
  unfold Enc.new at h1
  split at h1
  · simp at h1
  rename_i c1
  split at h1
  · simp at h1
  rename_i c2
  split at h1
  · simp at h1
  rename_i c3
  split at h1
  · simp at h1
  rename_i c4
  split at h1
  · simp at h1
  rename_i c5
  simp only [Except.ok.injEq] at h1
  subst h1
  have hok := encode_ok_inv _ _ h2 hn (by simp only; omega) (by simp only; omega) (by simp only; omega)
    (by simp only; omega) (by simp only; omega) (by simp only; omega) hs
  obtain ⟨bytes', e1, e2⟩ := encode_decode _ hok h10
  rw [h2] at e1
  simp only [Except.ok.injEq] at e1
  subst e1
  exact ⟨_, e2, by simp [Enc.N, Enc.W]⟩

/-! ### C07 -/

/-- **C07, what actually holds** (partial: the claim is that the samples come back with the low `pt` bits cleared; the
decoder never shifts back, so they come back shifted right instead). -/
theorem C07_point_transform_partial (image : List Nat) (w h n bd px pt : Nat) (dbg : Bool)
    (hw : 1 ≤ w ∧ w ≤ 65535) (hh : 1 ≤ h ∧ h ≤ 65535) (hn : 1 ≤ n ∧ n ≤ 4) (hpx : 1 ≤ px ∧ px ≤ 7)
    (hbd : 10 ≤ bd ∧ bd ≤ 16) (hpt : pt < bd) (hlen : h * (w * n) = image.length) (hs : ∀ s ∈ image, s < 2 ^ bd) :
    ∃ bytes, encode image w h n bd px pt 0 dbg = .ok bytes ∧ decodeAll bytes = .ok (image.map (· >>> pt)) := by
  obtain ⟨bytes, e1, e2⟩ := ljpeg_round_trip_general image w h n bd px pt 0 dbg hw hh hn hpx hbd hpt
    (by rw [Nat.add_zero]; omega)
    (fun s hm => Nat.lt_of_lt_of_le (hs s hm) (Nat.pow_le_pow_right (by omega) hbd.2)) (by
      intro _ s hm
      rw [Nat.shiftRight_eq_div_pow, Nat.div_lt_iff_lt_mul (Nat.two_pow_pos _), ← Nat.pow_add,
        show bd - pt + pt = bd by omega]
      exact hs s (List.mem_of_mem_take hm))
  exact ⟨bytes, e1, by rw [e2, imageRows_flatten image w h n hlen]⟩

/-- the hypothesis of `C06_accepted_params_decodable_partial` is met: this parameter set is accepted -/
example : ∃ bytes, encode [100, 200, 300, 400, 5, 6] 3 1 2 12 7 3 0 true = .ok bytes :=
  let ⟨b, h, _⟩ := C07_point_transform_partial [100, 200, 300, 400, 5, 6] 3 1 2 12 7 3 true (by decide) (by decide)
    (by decide) (by decide) (by decide) (by decide) (by decide) (by decide)
  ⟨b, h⟩

/-- **C07 is false as stated**: the sample 5 with a point transform of 1 comes back as 2, not as 4. -/
theorem C07_point_transform_not_undone : ∃ bytes out, encode [5] 1 1 1 10 1 1 0 true = .ok bytes ∧
    decodeAll bytes = .ok out ∧ out ≠ [5].map (fun s => (s >>> 1) <<< 1) := by
  obtain ⟨bytes, e1, e2⟩ := C07_point_transform_partial [5] 1 1 1 10 1 1 true (by decide) (by decide) (by decide)
    (by decide) (by decide) (by decide) (by decide) (by decide)
  exact ⟨bytes, _, e1, e2, by decide⟩

end Verif.Props
