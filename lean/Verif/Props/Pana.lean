import Verif.Proofs.PanaFile
/-! # Panasonic raw data (C66) -/

namespace Verif.Props
open Verif Verif.Pumps Verif.Packed Verif.Spec Verif.Spec.Pana Verif.Pana

/-! ## Version 5 -/

/-- C66, version 5: sample number `p` of the image is field `p % n` of packet `p / n`, where a packet has `n` fields. The samples that do
not fill a packet are 0. -/
theorem C66_v5 (buf : List Nat) (hb : IsBytes buf) (w h bps n : Nat) (hbps : bps = 12 ∧ n = 10 ∨ bps = 14 ∧ n = 9)
    (hl : ∀ p, p < w * h → (p / (1024 * n) + 1) * 0x4000 ≤ buf.length) :
    ∃ out, decodeV5 buf w h bps = .ok out ∧ Holds out w h fun r c =>
      if r * w + c < w * h / n * n then plain bps (packet true buf ((r * w + c) / n)) ((r * w + c) % n) else 0 := by
  have hn : 0 < n := by omega
  have key : ∃ out, chunkedFn w h (1024 * n) (blockV5 buf bps n) = .ok out ∧ out.length = w * h ∧
      ∀ p v, out[p]? = some v → v = at5 buf bps n (w * h) p := by
    refine chunkedFn_ok w h (1024 * n) (by omega) (blockV5 buf bps n) (fun p v => v = at5 buf bps n (w * h) p) ?_
    intro i hi
    refine blockV5_ok buf hb bps n (w * h) i (by omega) hn (by rcases hbps with ⟨rfl, rfl⟩ | ⟨rfl, rfl⟩ <;> omega) hi ?_
    have := hl _ hi
    rwa [Nat.mul_div_cancel _ (by omega)] at this
  obtain ⟨out, e, hol, hov⟩ := key
  refine ⟨out, ?_, by rw [hol, Nat.mul_comm], ?_⟩
  · rw [decodeV5]
    rcases hbps with ⟨rfl, rfl⟩ | ⟨rfl, rfl⟩
    · rw [if_pos rfl]; exact e
    · rw [if_neg (by omega), if_pos rfl]; exact e
  · intro r c hr hc
    have hlt : r * w + c < out.length := by rw [hol, Nat.mul_comm w h]; exact mul_add_lt hr hc
    rw [List.getElem?_eq_getElem hlt, hov _ _ (List.getElem?_eq_getElem hlt)]
    rfl

/-- Packets that hold given fields. -/
theorem plain_packet (n k : Nat) (hk : k * n ≤ 128) (f : Nat → Nat) (hf : ∀ i, i < k → f i < 2 ^ n) :
    ∃ bytes : List Nat, bytes.length = 16 ∧ IsBytes bytes ∧ ∀ i, i < k → plain n bytes i = f i := by
  have hlen : ∀ k, ((List.range k).flatMap fun i => bitsLSB n (f i)).length = k * n := by
    intro k
    induction k with
    | zero => simp
    | succ k ih => rw [List.range_succ, List.flatMap_append, List.length_append, ih, Nat.add_mul]; simp [bitsLSB]
  obtain ⟨bytes, h16, hb, hw⟩ := packet_of (((List.range k).flatMap fun i => bitsLSB n (f i)) ++ List.replicate (128 - k * n) false).reverse
    (by rw [List.length_reverse, List.length_append, hlen, List.length_replicate]; omega)
  refine ⟨bytes, h16, hb, ?_⟩
  intro i hi
  rw [plain, bytesLSB_word, hw, List.reverse_reverse]
  have hs : (List.range k).flatMap (fun i => bitsLSB n (f i)) = (List.range i).flatMap (fun i => bitsLSB n (f i)) ++
      (bitsLSB n (f i) ++ ((List.range (k - i - 1)).map (i + 1 + ·)).flatMap fun i => bitsLSB n (f i)) := by
    rw [show k = i + 1 + (k - i - 1) by omega, List.range_add, List.flatMap_append, List.range_succ, List.flatMap_append, List.append_assoc,
      show i + 1 + (k - i - 1) - i - 1 = k - i - 1 by omega]
    simp
  rw [hs, List.append_assoc, List.drop_left' (hlen i), List.append_assoc, List.take_left' (by simp [bitsLSB]), natLSB_bitsLSB, Nat.mod_eq_of_lt (hf i hi)]

/-- Every picture whose samples fill whole packets has a file of version 5. -/
theorem C66_v5_every_picture (w h bps n : Nat) (hbps : bps = 12 ∧ n = 10 ∨ bps = 14 ∧ n = 9) (hwh : w * h % n = 0) (img : Nat → Nat → Nat)
    (himg : ∀ r c, r < h → c < w → img r c < 2 ^ bps) :
    ∃ buf out, IsBytes buf ∧ decodeV5 buf w h bps = .ok out ∧ Holds out w h img := by
  have hn : 0 < n := by omega
  let N := (w * h + 1024 * n - 1) / (1024 * n) * 1024
  have hex : ∀ g, ∃ bytes : List Nat, bytes.length = 16 ∧ IsBytes bytes ∧ ∀ i, i < n → plain bps bytes i =
      if g * n + i < w * h then img ((g * n + i) / w) ((g * n + i) % w) else 0 := by
    intro g
    refine plain_packet bps n (by rcases hbps with ⟨rfl, rfl⟩ | ⟨rfl, rfl⟩ <;> omega)
      (fun i => if g * n + i < w * h then img ((g * n + i) / w) ((g * n + i) % w) else 0) ?_
    intro i hi
    show (if g * n + i < w * h then img ((g * n + i) / w) ((g * n + i) % w) else 0) < 2 ^ bps
    split
    · rename_i hlt
      have hw : 0 < w := Nat.pos_of_ne_zero fun h0 => by rw [h0, Nat.zero_mul] at hlt; omega
      exact himg _ _ ((Nat.div_lt_iff_lt_mul hw).2 (by rw [Nat.mul_comm h w]; exact hlt)) (Nat.mod_lt _ hw)
    · exact Nat.two_pow_pos bps
  obtain ⟨buf, hb, hlen, hpk⟩ := file_of true (fun g => (hex g).choose) N (fun _ => Nat.mul_mod_left _ _) (fun g _ => (hex g).choose_spec.1)
    (fun g _ => (hex g).choose_spec.2.1) [] (by simp [IsBytes])
  have hpN : ∀ p, p < w * h → p / (1024 * n) + 1 ≤ (w * h + 1024 * n - 1) / (1024 * n) := by
    intro p hp
    rw [Nat.le_div_iff_mul_le (by omega), Nat.add_mul, Nat.one_mul]
    have := Nat.div_mul_le_self p (1024 * n)
    omega
  obtain ⟨out, e, ho⟩ := C66_v5 buf hb w h bps n hbps (by
    intro p hp
    rw [hlen]
    have := Nat.mul_le_mul_right 0x4000 (hpN p hp)
    show _ ≤ 16 * ((w * h + 1024 * n - 1) / (1024 * n) * 1024) + 0
    omega)
  refine ⟨buf, out, hb, e, ho.1, ?_⟩
  intro r c hr hc
  rw [ho.2 r c hr hc]
  have hlt : r * w + c < w * h := by rw [Nat.mul_comm w h]; exact mul_add_lt hr hc
  have hfull : w * h / n * n = w * h := by have := Nat.div_add_mod' (w * h) n; omega
  show some (if _ then _ else _) = _
  rw [if_pos (by rw [hfull]; exact hlt), hpk]
  · rw [(hex _).choose_spec.2.2 _ (Nat.mod_lt _ hn), Nat.div_add_mod', if_pos hlt]
    have hw : 0 < w := by omega
    rw [Nat.mul_comm r w, Nat.mul_add_div hw, Nat.mul_add_mod, Nat.div_eq_of_lt hc, Nat.mod_eq_of_lt hc, Nat.add_zero]
  · have h1 := hpN _ hlt
    have h2 : (r * w + c) / n / 1024 = (r * w + c) / (1024 * n) := by rw [Nat.div_div_eq_div_mul, Nat.mul_comm n]
    show _ < (w * h + 1024 * n - 1) / (1024 * n) * 1024
    omega

/-! ## Version 7 -/

/-- C66, version 7, 14 bit: each row is a sequence of packets of nine fields. -/
theorem C66_v7 (buf : List Nat) (hb : IsBytes buf) (w h : Nat) (hw0 : 0 < w) (hw : w % 9 = 0) (hl : h * (16 * (w / 9)) ≤ buf.length) :
    ∃ out, decodeV7 buf w h 14 = .ok out ∧ Holds out w h fun r c => plain 14 (packet false buf (r * (w / 9) + c / 9)) (c % 9) := by
  obtain ⟨out, e, ho⟩ := linesFn_ok w h hw0 (lineV7 buf w 9) (fun r c => plain 14 (packet false buf (r * (w / 9) + c / 9)) (c % 9)) fun r hr =>
    lineV7_ok buf hb w r hw (Nat.le_trans (Nat.mul_le_mul_right _ hr) hl)
  refine ⟨out, ?_, ho⟩
  rw [decodeV7, if_pos rfl]
  show (if w % 9 ≠ 0 then panic' else linesFn w h (lineV7 buf w 9)) = _
  rw [if_neg (by omega)]
  exact e

/-- Every picture has a file of version 7. -/
theorem C66_v7_every_picture (w h : Nat) (hw0 : 0 < w) (hw : w % 9 = 0) (img : Nat → Nat → Nat) (himg : ∀ r c, r < h → c < w → img r c < 2 ^ 14) :
    ∃ buf out, IsBytes buf ∧ decodeV7 buf w h 14 = .ok out ∧ Holds out w h img := by
  obtain ⟨m, rfl⟩ : ∃ m, w = m * 9 := ⟨w / 9, by omega⟩
  have hm : 0 < m := by omega
  have hex : ∀ g, ∃ bytes : List Nat, bytes.length = 16 ∧ IsBytes bytes ∧ ∀ i, i < 9 → plain 14 bytes i =
      if g < h * m then img (g / m) (g % m * 9 + i) else 0 := by
    intro g
    refine plain_packet 14 9 (by omega) (fun i => if g < h * m then img (g / m) (g % m * 9 + i) else 0) ?_
    intro i hi
    show (if g < h * m then img (g / m) (g % m * 9 + i) else 0) < 2 ^ 14
    split
    · rename_i hlt
      have := Nat.mod_lt g hm
      exact himg _ _ ((Nat.div_lt_iff_lt_mul hm).2 hlt) (by omega)
    · omega
  obtain ⟨buf, hb, hlen, hpk⟩ := file_of false (fun g => (hex g).choose) (h * m) (by simp) (fun g _ => (hex g).choose_spec.1)
    (fun g _ => (hex g).choose_spec.2.1) [] (by simp [IsBytes])
  obtain ⟨out, e, ho⟩ := C66_v7 buf hb (m * 9) h hw0 hw (by
    rw [hlen, Nat.mul_div_cancel _ (by omega), show h * (16 * m) = 16 * (h * m) by ring]; exact Nat.le_add_right _ _)
  refine ⟨buf, out, hb, e, ho.1, ?_⟩
  intro r c hr hc
  have hlt : r * m + c / 9 < h * m := mul_add_lt hr (by omega)
  rw [ho.2 r c hr hc, Nat.mul_div_cancel _ (by omega)]
  show some (plain 14 (packet false buf (r * m + c / 9)) (c % 9)) = _
  rw [hpk _ hlt, (hex _).choose_spec.2.2 _ (by omega), if_pos hlt, Nat.mul_comm r m, Nat.mul_add_div hm,
    Nat.mul_add_mod, Nat.div_eq_of_lt (show c / 9 < m by omega), Nat.mod_eq_of_lt (show c / 9 < m by omega), Nat.add_zero, Nat.div_add_mod']

theorem readN_short : ∀ (n : Nat) (p : PumpLSB) (l : List Bool), p.Rep l → l.length = 14 * n + 2 → ∀ out, readN 14 (n + 1) p ≠ .ok out
  | 0, p, l, h, hl, out => by
    obtain ⟨h64, _, _, rfl⟩ := h
    have hbl : (bitsLSB p.nbits p.bits).length = p.nbits := by simp [bitsLSB]
    rw [List.length_append, length_bytesLSB, hbl] at hl
    have hr : p.rest = [] := List.eq_nil_of_length_eq_zero (by omega)
    have hg : getBits p 14 = panic' := by
      show (if 14 = 0 then _ else _) = _
      rw [if_neg (by omega)]
      show (do let (v, p) ← p.peek 14; let p ← p.consume 14; pure (v, p) : R _) = _
      rw [PumpLSB.peek, PumpLSB.fill, if_pos (by omega), hr]
      rfl
    rw [readN, hg]
    intro h; cases h
  | n + 1, p, l, h, hl, out => by
    obtain ⟨p', e, r⟩ := reads_lsb 14 (by omega) p l h (by omega)
    have ih := readN_short n p' _ r (by rw [List.length_drop]; omega)
    rw [readN, e]
    simp only [bind, Except.bind]
    intro h
    cases hr : readN 14 (n + 1) p' with
    | error x => rw [hr] at h; cases h
    | ok o => exact ih o hr

/-- Version 7 with 12 bit never decodes: the ten fields of a packet are read with 14 bits each, and there are only 128 bits. -/
theorem C66_v7_12_fails (buf : List Nat) (hb : IsBytes buf) (w h : Nat) (hw : 0 < w) (hh : 0 < h) (out : List Nat) :
    decodeV7 buf w h 12 ≠ .ok out := by
  rw [decodeV7, if_neg (by omega), if_pos rfl]
  show (if w % 10 ≠ 0 then panic' else linesFn w h (lineV7 buf w 10)) ≠ _
  by_cases h10 : w % 10 = 0
  · rw [if_neg (by omega)]
    have hline : ∀ r, r < h → ∀ o, lineV7 buf w 10 (List.replicate w 0) r ≠ .ok o := by
      intro r _ o
      rw [lineV7]
      obtain ⟨m, hm⟩ : ∃ m, w = (m + 1) * 10 := ⟨w / 10 - 1, by omega⟩
      rw [hm, Nat.mul_div_cancel _ (show 0 < 10 by omega), slice]
      by_cases hs : r * (16 * (m + 1)) ≤ r * (16 * (m + 1)) + 16 * (m + 1) ∧ r * (16 * (m + 1)) + 16 * (m + 1) ≤ buf.length
      · rw [if_pos hs]
        simp only [bind, Except.bind, Nat.add_sub_cancel_left]
        rw [chunksExact, if_neg (by omega)]
        simp only
        rw [List.length_take, List.length_drop, Nat.min_eq_left (by omega), Nat.mul_div_cancel_left _ (by omega), List.range_succ_eq_map, List.map_cons,
          List.mapM_cons]
        have h16 : ((((buf.drop (r * (16 * (m + 1)))).take (16 * (m + 1))).drop (0 * 16)).take 16).length = 16 := by
          rw [List.length_take, List.length_drop, List.length_take, List.length_drop]; omega
        have hf := readN_short 9 _ _ (PumpLSB.rep_new ((((buf.drop (r * (16 * (m + 1)))).take (16 * (m + 1))).drop (0 * 16)).take 16)
          (fun x hx => hb x (List.mem_of_mem_drop (List.mem_of_mem_take (List.mem_of_mem_drop (List.mem_of_mem_take hx)))))) (by rw [length_bytesLSB, h16])
        cases hr : readN 14 (9 + 1) (PumpLSB.new ((((buf.drop (r * (16 * (m + 1)))).take (16 * (m + 1))).drop (0 * 16)).take 16)) with
        | ok o => exact absurd hr (hf o)
        | error x =>
          intro h; cases h
      · rw [if_neg hs]
        intro h; cases h
    rw [linesFn, if_neg (by omega)]
    obtain ⟨k, rfl⟩ : ∃ k, h = k + 1 := ⟨h - 1, by omega⟩
    rw [List.range_succ_eq_map, List.mapM_cons]
    cases hr : lineV7 buf w 10 (List.replicate w 0) 0 with
    | ok o => exact absurd hr (hline 0 (by omega) o)
    | error x => simp only [bind, Except.bind]; intro h; cases h
  · rw [if_pos (by omega)]
    intro h; cases h

/-! ## Version 6 -/

/-- What the program stores for a value of 14 bit data: 15 less, but small values wrap around. -/
def store14 (v : Nat) : Nat := if 15 ≤ v then v - 15 else v + 65521

/-- The same for 12 bit data. -/
def store12 (v : Nat) : Nat := if 15 ≤ v then v - 15 else v + 16369

/-- Version 6, 14 bit: 11 samples in a packet. What is stored, exactly. -/
theorem C66_v6_14 (buf : List Nat) (hb : IsBytes buf) (m h : Nat) (hm : 0 < m) (hl : 16 * (m * h) ≤ buf.length) (code : Nat → Code6)
    (hc : ∀ g, g < m * h → Fits (code g) 14 10 11 3 ∧ ∃ pad : List Bool, pad.length = 4 ∧ word (packet false buf g) = (code g).bits 14 10 3 ++ pad) :
    ∃ out, decodeV6 buf (m * 11) h 14 = .ok out ∧
      Holds out (m * 11) h fun r c => store14 ((code (r * m + c / 11)).value 10 (c % 11 % 2) (c % 11 / 2)) := by
  have hline : ∀ r, r < h → lineV6 v6of14 0x3fff buf (m * 11) (List.replicate (m * 11) 0) r =
      .ok ((List.range (m * 11)).map fun c => store14 ((code (r * m + c / 11)).value 10 (c % 11 % 2) (c % 11 / 2))) := by
    intro r hr
    refine lineV6_ok v6of14 0x3fff buf m r (fun k i => store14 ((code (r * m + k)).value 10 (i % 2) (i / 2))) (by decide) ?_ ?_
    · intro k hk
      obtain ⟨hf, pad, hp, hw⟩ := hc (r * m + k) (by rw [Nat.mul_comm m h]; exact mul_add_lt hr hk)
      rw [block6_14 0x3fff (code (r * m + k)) hf _ (packet_bytes _ _ hb _) pad hp hw]
      congr 1
      apply List.map_congr_left
      intro i hi
      rw [List.mem_range] at hi
      have := value_lt (code (r * m + k)) 10 11 3 hf rfl (i % 2) (by omega) (i / 2) (by omega)
      exact stored14 _ _ (by omega)
    · have h1 : (r + 1) * (16 * m) ≤ h * (16 * m) := Nat.mul_le_mul_right _ hr
      have h2 : h * (16 * m) = 16 * (m * h) := by ring
      omega
  obtain ⟨out, e, ho⟩ := linesFn_ok (m * 11) h (by omega) (lineV6 v6of14 0x3fff buf (m * 11)) _ hline
  refine ⟨out, ?_, ho⟩
  rw [decodeV6, if_neg (by omega), if_pos rfl]
  show (if m * 11 % 11 ≠ 0 then panic' else linesFn (m * 11) h (lineV6 v6of14 0x3fff buf (m * 11))) = _
  rw [if_neg (by omega)]
  exact e

/-- Version 6, 12 bit: 14 samples in a packet. What is stored, exactly. -/
theorem C66_v6_12 (buf : List Nat) (hb : IsBytes buf) (m h : Nat) (hm : 0 < m) (hl : 16 * (m * h) ≤ buf.length) (code : Nat → Code6)
    (hc : ∀ g, g < m * h → Fits (code g) 12 8 14 4 ∧ word (packet false buf g) = (code g).bits 12 8 4) :
    ∃ out, decodeV6 buf (m * 14) h 12 = .ok out ∧
      Holds out (m * 14) h fun r c => store12 ((code (r * m + c / 14)).value 8 (c % 14 % 2) (c % 14 / 2)) := by
  have hline : ∀ r, r < h → lineV6 v6of12 0xfff buf (m * 14) (List.replicate (m * 14) 0) r =
      .ok ((List.range (m * 14)).map fun c => store12 ((code (r * m + c / 14)).value 8 (c % 14 % 2) (c % 14 / 2))) := by
    intro r hr
    refine lineV6_ok v6of12 0xfff buf m r (fun k i => store12 ((code (r * m + k)).value 8 (i % 2) (i / 2))) (by decide) ?_ ?_
    · intro k hk
      obtain ⟨hf, hw⟩ := hc (r * m + k) (by rw [Nat.mul_comm m h]; exact mul_add_lt hr hk)
      rw [block6_12 0xfff (code (r * m + k)) hf _ (packet_bytes _ _ hb _) hw]
      congr 1
      apply List.map_congr_left
      intro i hi
      rw [List.mem_range] at hi
      have := value_lt (code (r * m + k)) 8 14 4 hf rfl (i % 2) (by omega) (i / 2) (by omega)
      exact stored12 _ _ (by omega)
    · have h1 : (r + 1) * (16 * m) ≤ h * (16 * m) := Nat.mul_le_mul_right _ hr
      have h2 : h * (16 * m) = 16 * (m * h) := by ring
      omega
  obtain ⟨out, e, ho⟩ := linesFn_ok (m * 14) h (by omega) (lineV6 v6of12 0xfff buf (m * 14)) _ hline
  refine ⟨out, ?_, ho⟩
  rw [decodeV6, if_pos rfl]
  show (if m * 14 % 14 ≠ 0 then panic' else linesFn (m * 14) h (lineV6 v6of12 0xfff buf (m * 14))) = _
  rw [if_neg (by omega)]
  exact e

/-- Every packet is the packet of a code, so `C66_v6_14` and `C66_v6_12` speak of every file. -/
theorem C66_v6_every_packet (w : List Bool) (h : w.length = 128) :
    (∃ c : Code6, Fits c 14 10 11 3 ∧ ∃ pad : List Bool, pad.length = 4 ∧ w = c.bits 14 10 3 ++ pad) ∧
      ∃ c : Code6, Fits c 12 8 14 4 ∧ w = c.bits 12 8 4 := ⟨code14 w h, code12 w h⟩

/-- C66, version 6: a sample is its value less 15, 0 if the value is smaller.
Partial: where all values are 15 or more. Otherwise false, `C66_v6_black_wrong`. -/
theorem C66_v6_partial (buf : List Nat) (hb : IsBytes buf) (m h : Nat) (hm : 0 < m) (hl : 16 * (m * h) ≤ buf.length) (code : Nat → Code6) :
    ((∀ g, g < m * h → Fits (code g) 14 10 11 3 ∧ ∃ pad : List Bool, pad.length = 4 ∧ word (packet false buf g) = (code g).bits 14 10 3 ++ pad) →
      (∀ g i, g < m * h → i < 11 → 15 ≤ (code g).value 10 (i % 2) (i / 2)) →
      ∃ out, decodeV6 buf (m * 11) h 14 = .ok out ∧
        Holds out (m * 11) h fun r c => (code (r * m + c / 11)).value 10 (c % 11 % 2) (c % 11 / 2) - 15) ∧
    ((∀ g, g < m * h → Fits (code g) 12 8 14 4 ∧ word (packet false buf g) = (code g).bits 12 8 4) →
      (∀ g i, g < m * h → i < 14 → 15 ≤ (code g).value 8 (i % 2) (i / 2)) →
      ∃ out, decodeV6 buf (m * 14) h 12 = .ok out ∧
        Holds out (m * 14) h fun r c => (code (r * m + c / 14)).value 8 (c % 14 % 2) (c % 14 / 2) - 15) := by
  constructor
  · intro hc h15
    obtain ⟨out, e, ho⟩ := C66_v6_14 buf hb m h hm hl code hc
    refine ⟨out, e, ho.1, fun r c hr hcc => ?_⟩
    rw [ho.2 r c hr hcc]
    show some (store14 _) = _
    rw [store14, if_pos (h15 _ _ (by rw [Nat.mul_comm m h]; exact mul_add_lt hr (by omega)) (by omega))]
  · intro hc h15
    obtain ⟨out, e, ho⟩ := C66_v6_12 buf hb m h hm hl code hc
    refine ⟨out, e, ho.1, fun r c hr hcc => ?_⟩
    rw [ho.2 r c hr hcc]
    show some (store12 _) = _
    rw [store12, if_pos (h15 _ _ (by rw [Nat.mul_comm m h]; exact mul_add_lt hr (by omega)) (by omega))]

/-- A packet of ones: all its values are 15 or more, for both kinds of data. -/
example :
    (let c : Code6 := ⟨fun i => if i < 2 then 16383 else 1023, fun _ => 3⟩
     Fits c 14 10 11 3 ∧ word (packet false (List.replicate 16 255) 0) = c.bits 14 10 3 ++ List.replicate 4 true ∧ ∀ i, i < 11 → 15 ≤ c.value 10 (i % 2) (i / 2)) ∧
    (let c : Code6 := ⟨fun i => if i < 2 then 4095 else 255, fun _ => 3⟩
     Fits c 12 8 14 4 ∧ word (packet false (List.replicate 16 255) 0) = c.bits 12 8 4 ∧ ∀ i, i < 14 → 15 ≤ c.value 8 (i % 2) (i / 2)) := by
  refine ⟨⟨⟨by decide, by decide, fun i h _ => ?_, fun _ _ => (by decide : 3 < 4)⟩, by decide +kernel, by decide +kernel⟩,
    ⟨⟨by decide, by decide, fun i h _ => ?_, fun _ _ => (by decide : 3 < 4)⟩, by decide +kernel, by decide +kernel⟩⟩
  · show (if i < 2 then 16383 else 1023) < 2 ^ 10
    rw [if_neg (by omega)]; decide
  · show (if i < 2 then 4095 else 255) < 2 ^ 8
    rw [if_neg (by omega)]; decide

example : decodeV6 (List.replicate 16 255) 11 1 14 = .ok [16368, 16368, 16353, 16353, 16353, 16353, 16353, 16353, 16353, 16353, 16353] := by
  decide +kernel

/-- A packet of zeros, all of whose samples have the value 0, comes out as 65521 (14 bit) or 16369 (12 bit). -/
theorem C66_v6_black_wrong :
    decodeV6 (List.replicate 16 0) 11 1 14 = .ok (List.replicate 11 65521) ∧ decodeV6 (List.replicate 16 0) 14 1 12 = .ok (List.replicate 14 16369) ∧
      (let zero : Code6 := ⟨fun _ => 0, fun _ => 0⟩
       word (packet false (List.replicate 16 0) 0) = zero.bits 14 10 3 ++ List.replicate 4 false ∧
         word (packet false (List.replicate 16 0) 0) = zero.bits 12 8 4 ∧ ∀ i, i < 14 → zero.value 10 (i % 2) (i / 2) = 0 ∧ zero.value 8 (i % 2) (i / 2) = 0) := by
  refine ⟨by decide +kernel, by decide +kernel, by decide +kernel, by decide +kernel, by decide +kernel⟩

/-! ## Version 4 -/

/-- C66, version 4 without split: 14 samples in a packet, packets row by row; one byte must follow the last packet. -/
theorem C66_v4 (buf : List Nat) (hb : IsBytes buf) (m h : Nat) (hm : 0 < m) (hl : 16 * (m * h) + 1 ≤ buf.length) (code : Nat → Code4)
    (hc : ∀ g, g < m * h → Fits4 (code g) ∧ word (packet false buf g) = (code g).bits) :
    ∃ out, decodeV4 buf (m * 14) h false = .ok out ∧ Holds out (m * 14) h fun r c => (code (r * m + c / 14)).value (c % 14 % 2) (c % 14 / 2) := by
  obtain ⟨out, e, hol, hov⟩ := decodeV4_gen buf hb false m h hm (fun g hg => by rw [Pana.need, if_neg (by simp)]; omega) (Sample4 buf false) (by
      intro B g sh p out hn hp
      obtain ⟨sh', p', l, e, hll, hat, hlv⟩ := packet4_both _ (fun x hx => hb x (List.mem_of_mem_drop hx)) false g hn sh p hp out
      exact ⟨sh', p', l, e, hll, hat, fun j v hj _ c hf hw => hlv j v hj (.inl rfl) c hf (by rw [packet_drop]; exact hw)⟩)
  · refine ⟨out, e, by rw [hol, Nat.mul_comm], ?_⟩
    intro r c hr hcc
    have hlt : r * (m * 14) + c < out.length := by rw [hol, Nat.mul_comm (m * 14) h]; exact mul_add_lt hr hcc
    have h1 : (r * (m * 14) + c) / 14 = r * m + c / 14 := by rw [← Nat.mul_assoc, Nat.mul_comm _ 14, Nat.mul_add_div (by omega)]
    have h2 : (r * (m * 14) + c) % 14 = c % 14 := by rw [← Nat.mul_assoc, Nat.mul_comm _ 14, Nat.mul_add_mod]
    have := hov _ _ (List.getElem?_eq_getElem hlt)
    rw [h1, h2] at this
    obtain ⟨hf, hw⟩ := hc (r * m + c / 14) (by rw [Nat.mul_comm m h]; exact mul_add_lt hr (by omega))
    rw [List.getElem?_eq_getElem hlt, this (.inl rfl) _ hf hw]

/-- Every packet is the packet of a code, so `C66_v4` speaks of every file. -/
theorem C66_v4_every_packet (w : List Bool) (h : w.length = 128) : ∃ c : Code4, Fits4 c ∧ w = c.bits := code4_all w h

/-- Every sequence of codes has a file of version 4. -/
theorem C66_v4_every_code (m h : Nat) (hm : 0 < m) (code : Nat → Code4) (hc : ∀ g, g < m * h → Fits4 (code g) ∧ (code g).bits.length = 128) :
    ∃ buf out, IsBytes buf ∧ decodeV4 buf (m * 14) h false = .ok out ∧
      Holds out (m * 14) h fun r c => (code (r * m + c / 14)).value (c % 14 % 2) (c % 14 / 2) := by
  have hex : ∀ g, ∃ bytes : List Nat, g < m * h → bytes.length = 16 ∧ IsBytes bytes ∧ word bytes = (code g).bits := by
    intro g
    by_cases hg : g < m * h
    · obtain ⟨b, h1⟩ := packet_of _ (hc g hg).2
      exact ⟨b, fun _ => h1⟩
    · exact ⟨[], fun h => absurd h hg⟩
  obtain ⟨buf, hb, hlen, hpk⟩ := file_of false (fun g => (hex g).choose) (m * h) (by simp) (fun g hg => ((hex g).choose_spec hg).1)
    (fun g hg => ((hex g).choose_spec hg).2.1) [0] (by decide)
  obtain ⟨out, e, ho⟩ := C66_v4 buf hb m h hm (by rw [hlen]; exact Nat.le_refl _) code
    (fun g hg => ⟨(hc g hg).1, by rw [hpk g hg]; exact ((hex g).choose_spec hg).2.2⟩)
  exact ⟨buf, out, hb, e, ho⟩

example : (⟨fun i => if i < 3 then 200 - i else 130, fun _ => 1, fun s => 5 + s⟩ : Code4).bits.length = 128 ∧
    (List.range 14).map (fun j => (⟨fun i => if i < 3 then 200 - i else 130, fun _ => 1, fun s => 5 + s⟩ : Code4).value (j % 2) (j / 2)) =
      [3205, 3190, 3345, 3194, 3349, 3198, 3353, 3202, 3357, 3206, 3361, 3210, 3365, 3214] := by decide +kernel

/-- C66, version 4 with split: the same for packets put together from split data.
Partial: all samples but those of packet 512 of each block. Those can be wrong, `C66_v4_split_wrong`. -/
theorem C66_v4_split_partial (buf : List Nat) (hb : IsBytes buf) (m h : Nat) (hm : 0 < m)
    (hl : ∀ g, g < m * h → (g / 1024 + 1) * 0x4000 + 1 ≤ buf.length) (code : Nat → Code4)
    (hc : ∀ g, g < m * h → Fits4 (code g) ∧ word (packet true buf g) = (code g).bits) :
    ∃ out, decodeV4 buf (m * 14) h true = .ok out ∧ out.length = m * 14 * h ∧
      ∀ r c, r < h → c < m * 14 → (r * m + c / 14) % 1024 ≠ 512 →
        out[r * (m * 14) + c]? = some ((code (r * m + c / 14)).value (c % 14 % 2) (c % 14 / 2)) := by
  obtain ⟨out, e, hol, hov⟩ := decodeV4_gen buf hb true m h hm (fun g hg => by rw [Pana.need, if_pos rfl]; exact hl g hg) (Sample4 buf true) (by
      intro B g sh p out hn hp
      obtain ⟨sh', p', l, e, hll, hat, hlv⟩ := packet4_both _ (fun x hx => hb x (List.mem_of_mem_drop hx)) true g hn sh p hp out
      refine ⟨sh', p', l, e, hll, hat, fun j v hj hwh c hf hw => hlv j v hj ?_ c hf (by rw [packet_drop]; exact hw)⟩
      rcases hwh with h | h
      · exact .inl h
      · exact .inr (by omega))
  · refine ⟨out, e, hol, ?_⟩
    intro r c hr hcc hne
    have hlt : r * (m * 14) + c < out.length := by rw [hol, Nat.mul_comm (m * 14) h]; exact mul_add_lt hr hcc
    have h1 : (r * (m * 14) + c) / 14 = r * m + c / 14 := by rw [← Nat.mul_assoc, Nat.mul_comm _ 14, Nat.mul_add_div (by omega)]
    have h2 : (r * (m * 14) + c) % 14 = c % 14 := by rw [← Nat.mul_assoc, Nat.mul_comm _ 14, Nat.mul_add_mod]
    have := hov _ _ (List.getElem?_eq_getElem hlt)
    rw [h1, h2] at this
    obtain ⟨hf, hw⟩ := hc (r * m + c / 14) (by rw [Nat.mul_comm m h]; exact mul_add_lt hr (by omega))
    rw [List.getElem?_eq_getElem hlt, this (.inr hne) _ hf hw]

/-- A file with a single byte that is not zero, the first one. -/
def src9 : List Nat := 1 :: List.replicate 0x4000 0

/-- The program reads 0 from the field of `n` bits at bit `a` of packet 512 of `src9`. -/
def zeroAt (a n : Nat) : Bool :=
  match Pump.get ⟨src9, 0x4000, 65536 - a, true⟩ n with
  | .ok (v, _) => v == 0
  | .error _ => false

theorem src9_bytes : IsBytes src9 := by
  intro x hx
  rw [src9, List.mem_cons, List.mem_replicate] at hx
  omega

theorem src9_length : src9.length = 0x4001 := by rw [src9, List.length_cons, List.length_replicate]

theorem get9 (a n : Nat) (ha : a + n ≤ 128) (hn0 : 0 < n) (hn : n ≤ 8) (hz : zeroAt a n = true) (p : Pump) (hp : p.At src9 true (128 * 512 + a)) :
    ∃ p', p.get n = .ok (0, p') ∧ p'.At src9 true (128 * 512 + (a + n)) := by
  obtain ⟨v, p', e, hat, _, _⟩ := get_ok p src9 src9_bytes true 512 a n hp hn0 hn ha (by rw [Pana.need, if_pos rfl, src9_length])
  have hpp : p = ⟨src9, 0x4000, 65536 - a, true⟩ := by
    obtain ⟨h1, h2, h3, h4, h5⟩ := hp
    obtain ⟨b, pos, nb, sp⟩ := p
    simp only at h1 h2 h3 h4 h5
    have : pos = 0x4000 := by omega
    have : nb = 65536 - a := by omega
    subst h1 h2
    rw [this, ‹pos = 0x4000›]
  rw [zeroAt, ← hpp, e] at hz
  have : v = 0 := by simpa using hz
  subst this
  exact ⟨p', e, by rw [← Nat.add_assoc]; exact hat⟩

/-- Where sample `i` of packet 512 of `src9` begins, as the program reads it. -/
def pos9 (i : Nat) : Nat := 8 * i + 2 * (i / 3) + (if 13 ≤ i then 4 else 0) + if 14 ≤ i then 4 else 0

theorem zero9 : ∀ i : Fin 14, (i.val % 3 = 2 → zeroAt (pos9 i) 2 = true) ∧ zeroAt (pos9 i + if i.val % 3 = 2 then 2 else 0) 8 = true ∧
    (12 ≤ i.val → zeroAt (pos9 i + 8) 4 = true) := by decide +kernel

def Inv9 (out0 : List Nat) (i : Nat) (st : St4 × Pump × List Nat) : Prop :=
  st.2.1.At src9 true (128 * 512 + pos9 i) ∧ st.1.even = (0, 0) ∧ st.1.odd = (0, 0) ∧ st.2.2 = out0 ++ List.replicate i 0

theorem pixel9 (out0 : List Nat) (i : Nat) (hi : i < 14) (st : St4 × Pump × List Nat) (h : Inv9 out0 i st) :
    ∃ st', pixel4 i st = .ok st' ∧ Inv9 out0 (i + 1) st' := by
  obtain ⟨⟨sh, ev, od⟩, p, out⟩ := st
  obtain ⟨hat, hev, hod, hout⟩ := h
  simp only at hat hev hod hout
  subst hev hod
  obtain ⟨z1, z2, z3⟩ := zero9 ⟨i, hi⟩
  simp only at z1 z2 z3
  have hpl : pos9 i + 2 + 8 ≤ 128 := by rw [pos9]; split <;> split <;> omega
  obtain ⟨sh', p1, e1, hat1⟩ : ∃ sh' p1, reshift i p sh = .ok (sh', p1) ∧ p1.At src9 true (128 * 512 + (pos9 i + if i % 3 = 2 then 2 else 0)) := by
    by_cases h3 : i % 3 = 2
    · obtain ⟨p1, e, h⟩ := get9 (pos9 i) 2 (by omega) (by omega) (by omega) (z1 h3) p hat
      refine ⟨0, p1, ?_, by rw [if_pos h3]; exact h⟩
      rw [reshift, if_pos h3, e]
      rfl
    · exact ⟨sh, p, by rw [reshift, if_neg h3], by rw [if_neg h3]; exact hat⟩
  have hpl2 : pos9 i + (if i % 3 = 2 then 2 else 0) + 8 ≤ 128 := by split <;> omega
  obtain ⟨p2, e2, hat2⟩ := get9 _ 8 hpl2 (by omega) (by omega) z2 p1 hat1
  obtain ⟨p3, e3, hat3⟩ : ∃ p3, sample4 i sh' p1 (0, 0) = .ok ((0, 0), p3) ∧ p3.At src9 true (128 * 512 + pos9 (i + 1)) := by
    rw [sample4, if_neg (by simp), e2, Verif.Orf.ok_bind]
    by_cases h12 : 12 ≤ i
    · have h3 : ¬ i % 3 = 2 := by omega
      rw [if_neg h3, Nat.add_zero] at hat2
      obtain ⟨p3, e, h⟩ := get9 _ 4 (by rw [pos9]; split <;> split <;> omega) (by omega) (by omega) (z3 h12) p2 hat2
      refine ⟨p3, ?_, ?_⟩
      · simp only
        rw [if_pos (.inr (by omega)), e, Verif.Orf.ok_bind]
        simp
      · have : pos9 i + 8 + 4 = pos9 (i + 1) := by
          have : i = 12 ∨ i = 13 := by omega
          rcases this with rfl | rfl <;> rfl
        rw [← this]; exact h
    · refine ⟨p2, ?_, ?_⟩
      · simp only
        rw [if_neg (by omega)]
      · have : pos9 i + (if i % 3 = 2 then 2 else 0) + 8 = pos9 (i + 1) := by
          have h : ∀ i : Fin 12, pos9 i + (if i.val % 3 = 2 then 2 else 0) + 8 = pos9 (i + 1) := by decide
          exact h ⟨i, by omega⟩
        rw [← this]; exact hat2
  refine ⟨(⟨sh', (0, 0), (0, 0)⟩, p3, out ++ [0]), ?_, hat3, rfl, rfl, ?_⟩
  · rw [pixel4]
    simp only
    rw [e1, Verif.Orf.ok_bind]
    simp only [ite_self]
    rw [e3, Verif.Orf.ok_bind]
    simp only [ite_self]
    rfl
  · simp only
    rw [hout, List.append_assoc, List.replicate_succ']

/-- The picture of a file that has a 256 in it: the last bit of the value is in the last byte of the data as it is stored,
the others are in the first byte. The program takes them from the byte behind the data and finds 0. -/
theorem C66_v4_split_wrong :
    let code : Code4 := ⟨fun i => if i = 7 then 16 else 0, fun _ => 0, fun _ => 0⟩
    ∃ buf out, IsBytes buf ∧ buf.length = 0x4001 ∧ Fits4 code ∧ word (packet true buf 512) = code.bits ∧ code.value 1 3 = 256 ∧
      decodeV4 buf (513 * 14) 1 true = .ok out ∧ out[512 * 14 + 7]? = some 0 := by
  intro code
  obtain ⟨out, e, hol, hov⟩ := decodeV4_gen src9 src9_bytes true 513 1 (by omega)
    (fun g hg => by
      rw [Pana.need, if_pos rfl, src9_length]
      have : g / 1024 = 0 := by omega
      rw [this])
    (fun g _ v => g = 512 → v = 0) (by
      intro B g sh p out hn hp
      by_cases hB : B * 1024 + g = 512
      · have hB0 : B = 0 := by omega
        have hg : g = 512 := by omega
        subst hB0 hg
        rw [Nat.zero_mul, List.drop_zero] at hp ⊢
        obtain ⟨st, e, hi⟩ := forN_inv 14 pixel4 (Inv9 out) (⟨sh, (0, 0), (0, 0)⟩, p, out) ⟨hp, rfl, rfl, by simp⟩ (fun i st hi hs => pixel9 out i hi st hs)
        obtain ⟨s, p', o⟩ := st
        obtain ⟨h1, h2, h3, h4⟩ := hi
        simp only at h1 h4
        subst h4
        refine ⟨s.sh, p', List.replicate 14 0, ?_, rfl, h1, ?_⟩
        · rw [packet4]
          simp only
          rw [e, Verif.Orf.ok_bind]
        · intro j v hj _
          exact (List.mem_replicate.1 (List.mem_of_getElem? hj)).2
      · obtain ⟨sh', p', l, e, hll, hat⟩ := packet4_any _ (fun x hx => src9_bytes x (List.mem_of_mem_drop hx)) true g hn sh p hp out
        exact ⟨sh', p', l, e, hll, hat, fun _ _ _ h => absurd h hB⟩)
  refine ⟨src9, out, src9_bytes, src9_length, ?_, by decide +kernel, by decide +kernel, e, ?_⟩
  · refine ⟨fun i => ?_, fun _ => (by decide : 0 < 4), fun _ => (by decide : 0 < 16)⟩
    show (if i = 7 then 16 else 0) < 256
    split <;> omega
  · have hlt : 512 * 14 + 7 < out.length := by rw [hol]; omega
    rw [List.getElem?_eq_getElem hlt]
    exact congrArg some (hov _ _ (List.getElem?_eq_getElem hlt) (by omega))

end Verif.Props
