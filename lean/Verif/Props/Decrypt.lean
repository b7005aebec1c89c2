import Verif.Model.Decrypt
import Verif.Proofs.Grid
/-! # Decryption of maker notes (C43, C48) -/

namespace Verif.Props
open Verif Verif.Decrypt

/-! ## Nikon -/

theorem xor_xor_byte (b k : Nat) : (b ^^^ k) ^^^ k = b := by rw [Nat.xor_assoc, Nat.xor_self, Nat.xor_zero]

theorem nefLoop_twice (ci : Nat) (l : List Nat) : ∀ (cj ck : Nat) (out : List Nat), nefLoop ci l cj ck = .ok out →
    out.length = l.length ∧ nefLoop ci out cj ck = .ok l := by
  induction l with
  | nil => intro cj ck out h; cases h; exact ⟨rfl, rfl⟩
  | cons b l ih =>
    intro cj ck out h
    rw [nefLoop] at h
    split at h
    · rename_i hc
      cases hr : nefLoop ci l (cj + ci * ck) (ck + 1) with
      | error e => rw [hr] at h; cases h
      | ok rest =>
        rw [hr] at h
        cases h
        obtain ⟨h1, h2⟩ := ih _ _ _ hr
        refine ⟨by simp [h1], ?_⟩
        rw [nefLoop, if_pos hc, h2]
        simp only [bind, Except.bind]
        rw [xor_xor_byte]
    · cases h

/-- **C43**: for every buffer, start position, serial number and key: if decryption returns, the length and the bytes before the start are unchanged,
and decrypting the result with the same keys returns the input. (When it returns: `C43_returns`.) -/
theorem C43_involution (buf : List Nat) (start : Nat) (serial : List Nat) (key : Nat) (out : List Nat)
    (h : nefDecrypt buf start serial key = .ok out) :
    out.length = buf.length ∧ out.take start = buf.take start ∧ nefDecrypt out start serial key = .ok buf := by
  unfold nefDecrypt at h
  cases hs : serialNo serial with
  | error e => rw [hs] at h; cases h
  | ok s =>
    rw [hs] at h
    simp only [bind, Except.bind] at h
    split at h
    · cases h
    · rename_i hlen
      cases hci : idx serialMap (s % 256) with
      | error e => rw [hci] at h; cases h
      | ok ci =>
        cases hcj : idx keyMap (keyNo key % 256) with
        | error e => rw [hci, hcj] at h; cases h
        | ok cj =>
          cases hl : nefLoop ci (buf.drop start) cj 0x60 with
          | error e => rw [hci, hcj] at h; simp only [] at h; rw [hl] at h; cases h
          | ok o =>
            rw [hci, hcj] at h; simp only [] at h; rw [hl] at h
            cases h
            obtain ⟨h1, h2⟩ := nefLoop_twice ci _ _ _ _ hl
            rw [List.length_drop] at h1
            have ht : (buf.take start).length = start := by rw [List.length_take]; omega
            have e1 : (buf.take start ++ o).take start = buf.take start := by rw [List.take_append_of_le_length (by omega), List.take_of_length_le (by omega)]
            have e2 : (buf.take start ++ o).drop start = o := by
              rw [List.drop_append_of_le_length (by omega), List.drop_of_length_le (by omega), List.nil_append]
            refine ⟨by rw [List.length_append, ht, h1]; omega, e1, ?_⟩
            rw [nefDecrypt, hs]
            simp only [bind, Except.bind]
            rw [if_neg (by rw [List.length_append, ht]; omega), hci, hcj]
            simp only []
            rw [e2, h2]
            simp only []
            rw [e1, List.take_append_drop]

theorem nefLoop_ok (ci : Nat) (l : List Nat) : ∀ (cj ck : Nat), cj + ci * (l.length * (ck + l.length)) < 2 ^ 32 → ck + l.length < 2 ^ 32 →
    ∃ out, nefLoop ci l cj ck = .ok out := by
  induction l with
  | nil => intro cj ck _ _; exact ⟨[], rfl⟩
  | cons b l ih =>
    intro cj ck h h2
    rw [List.length_cons] at h h2
    have e1 : ci * ((l.length + 1) * (ck + (l.length + 1))) = ci * ck + ci * (l.length + 1) + ci * (l.length * (ck + 1 + l.length)) := by
      rw [← Nat.mul_add, ← Nat.mul_add, Nat.add_mul, Nat.one_mul, Nat.add_assoc ck 1, Nat.add_comm 1 l.length, Nat.add_comm (l.length * _)]
    rw [e1] at h
    obtain ⟨rest, hr⟩ := ih (cj + ci * ck) (ck + 1) (by omega) (by omega)
    rw [nefLoop, if_pos ⟨by omega, by omega, by omega⟩, hr]
    exact ⟨_, rfl⟩

theorem serialLoop_ok (l : List Nat) : ∀ (acc n : Nat), acc < 10 ^ n → n + l.length ≤ 19 → ∃ v, serialLoop l acc = .ok v := by
  induction l with
  | nil => intro acc n _ _; exact ⟨acc, rfl⟩
  | cons d l ih =>
    intro acc n h hn
    rw [serialLoop]
    split
    · exact ⟨acc, rfl⟩
    · rw [List.length_cons] at hn
      have hd : (if 48 ≤ d ∧ d ≤ 57 then d - 48 else d % 10) < 10 := by split <;> omega
      generalize (if 48 ≤ d ∧ d ≤ 57 then d - 48 else d % 10) = x at hd
      have h1 : acc * 10 + x < 10 ^ (n + 1) := by rw [Nat.pow_succ]; omega
      have h2 : 10 ^ (n + 1) ≤ 10 ^ 19 := Nat.pow_le_pow_right (by omega) (by omega)
      simp only []
      rw [if_pos (by have : 10 ^ 19 < 2 ^ 64 := by decide
                     omega)]
      exact ih _ (n + 1) h1 (by omega)

theorem serialMap_get (i : Nat) : ∃ ci, idx serialMap (i % 256) = .ok ci ∧ ci ≤ 251 := by
  have hl : serialMap.length = 256 := by decide +kernel
  refine ⟨serialMap[i % 256]'(by omega), idx_lt _ _ _, ?_⟩
  have : ∀ x ∈ serialMap, x ≤ 251 := by decide +kernel
  exact this _ (List.getElem_mem _)

theorem keyMap_get (i : Nat) : ∃ cj, idx keyMap (i % 256) = .ok cj ∧ cj < 256 := by
  have hl : keyMap.length = 256 := by decide +kernel
  refine ⟨keyMap[i % 256]'(by omega), idx_lt _ _ _, ?_⟩
  have : ∀ x ∈ keyMap, x < 256 := by decide +kernel
  exact this _ (List.getElem_mem _)

/-- **C43**: decryption returns for serial numbers of up to 19 characters and up to 4000 encrypted bytes. -/
theorem C43_returns (buf : List Nat) (start : Nat) (serial : List Nat) (key : Nat) (hs : serial.length ≤ 19) (h1 : start ≤ buf.length)
    (h2 : buf.length ≤ start + 4000) : ∃ out, nefDecrypt buf start serial key = .ok out := by
  obtain ⟨s, e⟩ := serialLoop_ok serial 0 0 (by decide) (by omega)
  obtain ⟨ci, e1, hci⟩ := serialMap_get s
  obtain ⟨cj, e2, hcj⟩ := keyMap_get (keyNo key)
  have hn : (buf.drop start).length ≤ 4000 := by rw [List.length_drop]; omega
  have hm : ci * ((buf.drop start).length * (0x60 + (buf.drop start).length)) ≤ 251 * (4000 * 4096) :=
    Nat.mul_le_mul hci (Nat.mul_le_mul hn (by omega))
  obtain ⟨o, e3⟩ := nefLoop_ok ci (buf.drop start) cj 0x60 (by omega) (by omega)
  refine ⟨buf.take start ++ o, ?_⟩
  rw [nefDecrypt, serialNo, e]
  simp only [bind, Except.bind]
  rw [if_neg (by omega), e1, e2]
  simp only []
  rw [e3]

theorem nefLoop_growth (ci : Nat) (l : List Nat) : ∀ (cj ck : Nat) (out : List Nat), nefLoop ci l cj ck = .ok out → cj < 2 ^ 32 →
    cj + ci * (ck * l.length) < 2 ^ 32 := by
  induction l with
  | nil => intro cj ck out _ h; simpa using h
  | cons b l ih =>
    intro cj ck out h _
    rw [nefLoop] at h
    split at h
    · rename_i hc
      cases hr : nefLoop ci l (cj + ci * ck) (ck + 1) with
      | error e => rw [hr] at h; cases h
      | ok rest =>
        have := ih _ _ _ hr hc.1
        have hmono : ci * (ck * l.length) ≤ ci * ((ck + 1) * l.length) := Nat.mul_le_mul_left _ (Nat.mul_le_mul_right _ (by omega))
        rw [List.length_cons, Nat.mul_add, Nat.mul_one, Nat.mul_add]
        omega
    · cases h

theorem nefLoop_second (ci : Nat) (m : Nat) : ∀ (l : List Nat) (cj ck : Nat) (out : List Nat), nefLoop ci l cj ck = .ok out → m ≤ l.length → cj < 2 ^ 32 →
    ∃ cj' out', nefLoop ci (l.drop m) cj' (ck + m) = .ok out' ∧ cj' < 2 ^ 32 := by
  induction m with
  | zero => intro l cj ck out h _ hc; exact ⟨cj, out, h, hc⟩
  | succ m ih =>
    intro l cj ck out h hm hc
    cases l with
    | nil => simp at hm
    | cons b l =>
      rw [nefLoop] at h
      split at h
      · rename_i hc'
        cases hr : nefLoop ci l (cj + ci * ck) (ck + 1) with
        | error e => rw [hr] at h; cases h
        | ok rest =>
          obtain ⟨cj', out', h1, h2⟩ := ih l _ _ _ hr (by simpa using hm) hc'.1
          refine ⟨cj', out', ?_, h2⟩
          rw [List.drop_succ_cons, ← h1]
          congr 1; omega
      · cases h

/-- Long buffers: with serial number 42 (key byte 251) every buffer with at least 8200 encrypted bytes panics in a checked build, since the running
key is a 32 bit sum that is never reduced. -/
theorem C43_long_buffer_panics (buf : List Nat) (key : Nat) (h : 8200 ≤ buf.length) : nefDecrypt buf 0 [52, 50] key = panic' := by
  obtain ⟨cj, e2, hcj⟩ := keyMap_get (keyNo key)
  rw [nefDecrypt, show serialNo [52, 50] = .ok 42 by decide]
  simp only [bind, Except.bind]
  rw [if_neg (by omega), show idx serialMap (42 % 256) = .ok 251 by decide, e2]
  simp only []
  have hp : nefLoop 251 (buf.drop 0) cj 0x60 = panic' := by
    cases hl : nefLoop 251 (buf.drop 0) cj 0x60 with
    | error e =>
      have : ∀ (l : List Nat) (cj ck : Nat) (e : Err), nefLoop 251 l cj ck = .error e → e = .panic := by
        intro l
        induction l with
        | nil => intro cj ck e h; cases h
        | cons b l ih =>
          intro cj ck e h
          rw [nefLoop] at h
          split at h
          · cases hr : nefLoop 251 l (cj + 251 * ck) (ck + 1) with
            | error e' => rw [hr] at h; cases h; exact ih _ _ _ hr
            | ok r => rw [hr] at h; cases h
          · cases h; rfl
      rw [this _ _ _ _ hl]
    | ok o =>
      exfalso
      rw [List.drop_zero] at hl
      obtain ⟨cj', o', h1, h2⟩ := nefLoop_second 251 4100 buf cj 0x60 o hl (by omega) (by omega)
      have h3 := nefLoop_growth 251 _ _ _ _ h1 h2
      rw [List.length_drop] at h3
      have h4 : (96 + 4100) * 4100 ≤ (0x60 + 4100) * (buf.length - 4100) := Nat.mul_le_mul (by omega) (by omega)
      omega
  rw [hp]

example : nefDecrypt [1, 2, 3, 4, 5, 6] 2 [52, 50] 0x01020304 = .ok [1, 2, 178, 200, 231, 245] := by decide
example : nefDecrypt [1, 2, 178, 200, 231, 245] 2 [52, 50] 0x01020304 = .ok [1, 2, 3, 4, 5, 6] := by decide

/-! ## Sony -/

theorem upd_ok {l : List Nat} {i : Nat} (v : Nat) (h : i < l.length) : upd l i v = .ok (l.set i v) := upd_lt l i v h

def Words (l : List Nat) : Prop := l.length = 128 ∧ ∀ x ∈ l, x < 2 ^ 32

theorem Words.get {l : List Nat} (h : Words l) {i : Nat} (hi : i < 128) : ∃ x, idx l i = .ok x ∧ x < 2 ^ 32 :=
  ⟨l[i]'(by rw [h.1]; exact hi), idx_lt _ _ _, h.2 _ (List.getElem_mem _)⟩

theorem Words.set {l : List Nat} (h : Words l) (i v : Nat) (hv : v < 2 ^ 32) : Words (l.set i v) := by
  refine ⟨by rw [List.length_set, h.1], ?_⟩
  intro x hx
  rcases List.mem_or_eq_of_mem_set hx with h' | rfl
  · exact h.2 x h'
  · exact hv

theorem shr31_lt {x : Nat} (h : x < 2 ^ 32) : x >>> 31 < 2 ^ 32 := by
  rw [Nat.shiftRight_eq_div_pow]; omega

theorem sonyPad_ok (key : Nat) : ∃ pad, sonyPad key = .ok pad ∧ Words pad := by
  have hseed : Words (padSeed key ++ List.replicate 124 0) := by
    refine ⟨by simp [padSeed], ?_⟩
    intro x hx
    have hm : ∀ y, y % 2 ^ 32 < 2 ^ 32 := fun y => Nat.mod_lt _ (by decide)
    simp only [padSeed, List.mem_append, List.mem_cons, List.mem_replicate, List.not_mem_nil, or_false] at hx
    rcases hx with (rfl | rfl | rfl | rfl) | ⟨_, rfl⟩
    · exact hm _
    · exact hm _
    · exact hm _
    · exact Nat.or_lt_two_pow (hm _) (shr31_lt (Nat.xor_lt_two_pow (hm _) (hm _)))
    · decide
  obtain ⟨pad, e, hp⟩ := forN_inv 123 (fun i pad => do
    let a ← idx pad i
    let b ← idx pad (i + 2)
    let c ← idx pad (i + 1)
    let d ← idx pad (i + 3)
    upd pad (i + 4) (((a ^^^ b) * 2) % 2 ^ 32 ||| (c ^^^ d) >>> 31)) (fun _ p => Words p) _ hseed (by
      intro i s hi hs
      obtain ⟨a, ea, ha⟩ := hs.get (i := i) (by omega)
      obtain ⟨b, eb, hb⟩ := hs.get (i := i + 2) (by omega)
      obtain ⟨c, ec, hc⟩ := hs.get (i := i + 1) (by omega)
      obtain ⟨d, ed, hd⟩ := hs.get (i := i + 3) (by omega)
      rw [ea, eb, ec, ed]
      simp only [bind, Except.bind]
      rw [upd_ok _ (by rw [hs.1]; omega)]
      exact ⟨_, rfl, hs.set _ _ (Nat.or_lt_two_pow (Nat.mod_lt _ (by decide)) (shr31_lt (Nat.xor_lt_two_pow hc hd)))⟩)
  refine ⟨padSwap pad, ?_, ?_⟩
  · rw [sonyPad, padFill, e]; rfl
  · refine ⟨by rw [padSwap, List.length_append, List.length_map, List.length_take, List.length_drop, hp.1]; rfl, ?_⟩
    intro x hx
    rw [padSwap, List.mem_append, List.mem_map] at hx
    rcases hx with ⟨y, _, rfl⟩ | hx
    · rw [swap32]; omega
    · exact hp.2 x (List.mem_of_mem_drop hx)

/-- the pad after a number of rounds; it does not depend on the data -/
def padAfter (pad : List Nat) : Nat → List Nat
  | 0 => pad
  | i + 1 => (padAfter pad i).set ((i + 127) % 128)
      ((padAfter pad i).getD ((i + 127 + 1) % 128) 0 ^^^ (padAfter pad i).getD ((i + 127 + 1 + 64) % 128) 0)

/-- the key word of a round -/
def keyWord (pad : List Nat) (i : Nat) : Nat :=
  (padAfter pad i).getD ((i + 127 + 1) % 128) 0 ^^^ (padAfter pad i).getD ((i + 127 + 1 + 64) % 128) 0

theorem idx_getD {l : List Nat} {i : Nat} (h : i < l.length) : idx l i = .ok (l.getD i 0) := by
  rw [idx_lt l i h, List.getD_eq_getElem?_getD, List.getElem?_eq_getElem h]; rfl

theorem Words.getD {l : List Nat} (h : Words l) (i : Nat) : l.getD i 0 < 2 ^ 32 := by
  rw [List.getD_eq_getElem?_getD]
  by_cases hi : i < l.length
  · rw [List.getElem?_eq_getElem hi]; exact h.2 _ (List.getElem_mem _)
  · rw [List.getElem?_eq_none (by omega)]; decide

theorem padAfter_words {pad : List Nat} (h : Words pad) (i : Nat) : Words (padAfter pad i) := by
  induction i with
  | zero => exact h
  | succ i ih => exact ih.set _ _ (Nat.xor_lt_two_pow (ih.getD _) (ih.getD _))

theorem keyWord_lt {pad : List Nat} (h : Words pad) (i : Nat) : keyWord pad i < 2 ^ 32 :=
  Nat.xor_lt_two_pow ((padAfter_words h i).getD _) ((padAfter_words h i).getD _)

/-- little endian bytes of a word -/
def word4 (o : Nat) : List Nat := [o % 256, o / 256 % 256, o / 65536 % 256, o / 16777216 % 256]

/-- the word at a position -/
def wordAt (buf : List Nat) (pos : Nat) : Nat :=
  buf.getD pos 0 + buf.getD (pos + 1) 0 * 256 + buf.getD (pos + 2) 0 * 65536 + buf.getD (pos + 3) 0 * 16777216

theorem take4 (l : List Nat) (p : Nat) (h : p + 4 ≤ l.length) :
    (l.drop p).take 4 = [l.getD p 0, l.getD (p + 1) 0, l.getD (p + 2) 0, l.getD (p + 3) 0] := by
  apply List.ext_getElem?
  intro i
  rw [List.getElem?_take]
  by_cases hi : i < 4
  · rw [if_pos hi, List.getElem?_drop, List.getElem?_eq_getElem (by omega)]
    have : ∀ j (hj : j < l.length), l.getD j 0 = l[j] := fun j hj => by
      rw [List.getD_eq_getElem?_getD, List.getElem?_eq_getElem hj]; rfl
    rw [this p (by omega), this (p + 1) (by omega), this (p + 2) (by omega), this (p + 3) (by omega)]
    match i, hi with
    | 0, _ | 1, _ | 2, _ | 3, _ => rfl
  · rw [if_neg hi, List.getElem?_eq_none]; simp; omega

theorem leU32_ok (buf : List Nat) (pos : Nat) (h : pos + 4 ≤ buf.length) : leU32 buf pos = .ok (wordAt buf pos) := by
  rw [leU32, slice_ok _ _ _ (by omega) h, Nat.add_sub_cancel_left, take4 buf pos h]
  rfl

theorem sony_run (buf : List Nat) (offset : Nat) (pad : List Nat) (hp : Words pad) (n : Nat) (h : offset + 4 * n ≤ buf.length) :
    ∃ s, forN n (sonyStep buf offset) (pad, []) = .ok s ∧ s.2 = (List.range n).flatMap fun i => word4 (wordAt buf (offset + i * 4) ^^^ keyWord pad i) := by
  obtain ⟨s, e, hs⟩ := forN_inv n (sonyStep buf offset)
    (fun i s => s = (padAfter pad i, (List.range i).flatMap fun i => word4 (wordAt buf (offset + i * 4) ^^^ keyWord pad i))) (pad, []) rfl (by
      intro i s hi hs
      subst hs
      have hw := padAfter_words hp i
      refine ⟨_, ?_, rfl⟩
      rw [sonyStep]
      simp only []
      rw [idx_getD (by rw [hw.1]; exact Nat.mod_lt _ (by decide)), idx_getD (by rw [hw.1]; exact Nat.mod_lt _ (by decide))]
      simp only [bind, Except.bind]
      rw [upd_ok _ (by rw [hw.1]; exact Nat.mod_lt _ (by decide))]
      simp only []
      rw [leU32_ok buf _ (by omega)]
      simp only []
      rw [idx_getD (by rw [List.length_set, hw.1]; exact Nat.mod_lt _ (by decide))]
      simp only []
      have hget : ((padAfter pad i).set ((i + 127) % 128) (keyWord pad i)).getD ((i + 127) % 128) 0 = keyWord pad i := by
        rw [List.getD_eq_getElem?_getD, List.getElem?_set_self (by rw [hw.1]; exact Nat.mod_lt _ (by decide))]; rfl
      rw [← keyWord, hget, padAfter, ← keyWord, List.range_succ, List.flatMap_append, List.flatMap_singleton, word4])
  exact ⟨s, e, by rw [hs]⟩

theorem word4_wordAt (a b c d : Nat) (ha : a < 256) (hb : b < 256) (hc : c < 256) (hd : d < 256) :
    word4 (a + b * 256 + c * 65536 + d * 16777216) = [a, b, c, d] := by
  rw [word4]
  congr 1
  · omega
  congr 1
  · omega
  congr 1
  · omega
  congr 1
  · omega

theorem wordAt_flat (n : Nat) (f : Nat → Nat) (i : Nat) (hi : i < n) (hf : f i < 2 ^ 32) :
    wordAt ((List.range n).flatMap fun i => word4 (f i)) (0 + i * 4) = f i := by
  have g := fun j hj => flatMap_get n 4 (fun i => word4 (f i)) (fun r _ => rfl) i j hi hj
  rw [wordAt, Nat.zero_add]
  simp only [List.getD_eq_getElem?_getD]
  rw [g 1 (by decide), g 2 (by decide), g 3 (by decide), ← Nat.add_zero (i * 4), g 0 (by decide)]
  simp only [word4, List.getElem?_cons_zero, List.getElem?_cons_succ, Option.getD_some]
  omega

/-- **C48**: for every buffer, position, length and key: if the buffer is long enough the result has the whole words of the requested length, and
decrypting it again with the same key gives the bytes of the input; otherwise an error is returned. -/
theorem C48_sony_involution (buf : List Nat) (offset length key : Nat) (hb : IsBytes buf) :
    (buf.length < offset + 4 * (length / 4) → sonyDecrypt buf offset length key = fail') ∧
    (offset + 4 * (length / 4) ≤ buf.length →
      ∃ out, sonyDecrypt buf offset length key = .ok out ∧ out.length = 4 * (length / 4) ∧ IsBytes out ∧
        sonyDecrypt out 0 length key = .ok ((buf.drop offset).take (4 * (length / 4)))) := by
  constructor
  · intro h
    rw [sonyDecrypt, if_pos h]
  · intro h
    obtain ⟨pad, ep, hp⟩ := sonyPad_ok key
    obtain ⟨s, e, hs⟩ := sony_run buf offset pad hp (length / 4) h
    have hlen : s.2.length = length / 4 * 4 := by rw [hs]; exact flatMap_len _ _ _ (fun _ _ => rfl)
    obtain ⟨s', e', hs'⟩ := sony_run s.2 0 pad hp (length / 4) (by omega)
    have hbyte : ∀ i, buf.getD i 0 < 256 := by
      intro i
      rw [List.getD_eq_getElem?_getD]
      by_cases hi : i < buf.length
      · rw [List.getElem?_eq_getElem hi]; exact hb _ (List.getElem_mem _)
      · rw [List.getElem?_eq_none (by omega)]; decide
    have hword : ∀ p, wordAt buf p < 2 ^ 32 := by
      intro p
      have := hbyte p; have := hbyte (p + 1); have := hbyte (p + 2); have := hbyte (p + 3)
      rw [wordAt]; omega
    refine ⟨s.2, ?_, by omega, ?_, ?_⟩
    · rw [sonyDecrypt, if_neg (by omega), ep]
      simp only [bind, Except.bind]
      rw [e]
    · rw [hs]
      intro x hx
      simp only [List.mem_flatMap, word4, List.mem_cons, List.not_mem_nil, or_false] at hx
      obtain ⟨i, _, hx⟩ := hx
      rcases hx with rfl | rfl | rfl | rfl <;> exact Nat.mod_lt _ (by decide)
    · rw [sonyDecrypt, if_neg (by omega), ep]
      simp only [bind, Except.bind]
      rw [e', ]
      simp only []
      rw [hs']
      refine congrArg _ ?_
      apply grid_ext (length / 4) 4
      · exact flatMap_len _ _ _ (fun _ _ => rfl)
      · rw [List.length_take, List.length_drop]; omega
      · intro r j hr hj
        rw [flatMap_get _ 4 _ (fun _ _ => rfl) r j hr hj]
        rw [hs, wordAt_flat _ (fun i => wordAt buf (offset + i * 4) ^^^ keyWord pad i) r hr
          (Nat.xor_lt_two_pow (hword _) (keyWord_lt hp r)), xor_xor_byte]
        have hr4 : r * 4 + 4 ≤ 4 * (length / 4) := by omega
        rw [wordAt, word4_wordAt _ _ _ _ (hbyte _) (hbyte _) (hbyte _) (hbyte _), ← take4 buf _ (by omega), List.getElem?_take, if_pos hj,
          List.getElem?_drop, List.getElem?_take, if_pos (by omega), List.getElem?_drop, Nat.add_assoc]

example : ∃ out, sonyDecrypt [10, 20, 30, 40, 50, 60, 70, 80, 90] 1 8 12345 = .ok out ∧ out.length = 8 ∧ IsBytes out ∧
    sonyDecrypt out 0 8 12345 = .ok [20, 30, 40, 50, 60, 70, 80, 90] :=
  (C48_sony_involution [10, 20, 30, 40, 50, 60, 70, 80, 90] 1 8 12345 (by decide)).2 (by decide)

end Verif.Props
