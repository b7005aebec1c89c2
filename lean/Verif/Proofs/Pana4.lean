import Verif.Proofs.Pana6
import Verif.Proofs.Orf
import Mathlib.Tactic.Ring
/-! # Panasonic version 4 -/

namespace Verif.Pana
open Verif Verif.Pumps Verif.Packed Verif.Spec Verif.Spec.Pana

theorem word_length (split : Bool) (data : List Nat) (g : Nat) : (word (packet split data g)).length = 128 := by
  rw [word, length_bytesMSB, List.length_reverse, packet_length]

theorem natLSB_reverse (l : List Bool) : natLSB l.reverse = natMSB l := by
  induction l with
  | nil => rfl
  | cons b l ih =>
    rw [List.reverse_cons, natLSB_append, ih, natMSB_cons, List.length_reverse]
    simp only [natLSB]
    cases b <;> simp
    omega

theorem two_of (L : List Nat) (j x y : Nat) (hx : L[j]? = some x) (hy : L[j + 1]? = some y) : L = L.take j ++ x :: y :: L.drop (j + 2) := by
  have h1 := (List.getElem?_eq_some_iff.1 hx)
  have h2 := (List.getElem?_eq_some_iff.1 hy)
  obtain ⟨l1, e1⟩ := h1
  obtain ⟨l2, e2⟩ := h2
  conv_lhs => rw [← List.take_append_drop j L]
  rw [List.drop_eq_getElem_cons l1, List.drop_eq_getElem_cons l2, e1, e2]

/-- A field of a packet in terms of the two bytes in which it lies. -/
theorem field_bytes (bytes : List Nat) (h16 : bytes.length = 16) (a n : Nat) (hn : n ≤ 8) (ha : a + n ≤ 128) (hn0 : 0 < n) (x y : Nat)
    (hx : bytes[(128 - a - n) / 8]? = some x) (hy : (128 - a - n) / 8 < 15 → bytes[(128 - a - n) / 8 + 1]? = some y) (hby : IsBytes bytes)
    :
    ((x + 256 * y) >>> ((128 - a - n) % 8)) % 2 ^ n = natMSB (((word bytes).drop a).take n) := by
  obtain ⟨j, hj⟩ : ∃ j, j = (128 - a - n) / 8 := ⟨_, rfl⟩
  obtain ⟨r, hr⟩ : ∃ r, r = (128 - a - n) % 8 := ⟨_, rfl⟩
  rw [← hj] at hx hy
  rw [← hr]
  have hj15 : j ≤ 15 := by omega
  have hx256 : x < 256 := hby _ (List.mem_of_getElem? hx)
  have e1 : (((word bytes).drop a).take n).reverse = ((bytesLSB bytes).drop (128 - a - n)).take n := by
    have hwl : (word bytes).length = 128 := by rw [word, length_bytesMSB, List.length_reverse, h16]
    rw [bytesLSB_word, List.drop_reverse, List.take_reverse, hwl, List.length_take, hwl, show 128 - (128 - a - n) = a + n by omega,
      Nat.min_eq_left ha, show a + n - n = a by omega, List.drop_take, show a + n - a = n by omega]
  rw [← natLSB_reverse, e1]
  -- the bytes with one more
  have e2 : ((bytesLSB bytes).drop (128 - a - n)).take n = ((bytesLSB (bytes ++ [y])).drop (128 - a - n)).take n := by
    rw [bytesLSB, bytesLSB, List.flatMap_append, List.drop_append_of_le_length, List.take_append_of_le_length]
    · rw [List.length_drop]; have := length_bytesLSB bytes; rw [bytesLSB] at this; omega
    · have := length_bytesLSB bytes; rw [bytesLSB] at this; omega
  have hlen : (bytes ++ [y]).length = 17 := by simp [h16]
  have hjx : (bytes ++ [y])[j]? = some x := by rw [List.getElem?_append_left (by omega)]; exact hx
  have hjy : (bytes ++ [y])[j + 1]? = some y := by
    by_cases h15 : j < 15
    · rw [List.getElem?_append_left (by omega)]; exact hy h15
    · rw [List.getElem?_append_right (by omega), show j + 1 - bytes.length = 0 by omega]; rfl
  generalize bytes ++ [y] = L at e2 hlen hjx hjy
  have e3 := two_of L j x y hjx hjy
  have hdrop : (bytesLSB L).drop (128 - a - n) = (bitsLSB 8 x ++ (bitsLSB 8 y ++ bytesLSB (L.drop (j + 2)))).drop r := by
    have e4 : bytesLSB L = bytesLSB (L.take j) ++ (bitsLSB 8 x ++ (bitsLSB 8 y ++ bytesLSB (L.drop (j + 2)))) := by
      conv_lhs => rw [e3]
      rw [bytesLSB, List.flatMap_append]; rfl
    rw [e4, show 128 - a - n = 8 * j + r by omega, ← List.drop_drop, List.drop_left']
    rw [length_bytesLSB, List.length_take]; omega
  rw [e2, hdrop, ← List.append_assoc]
  have h2 : bitsLSB 8 x ++ bitsLSB 8 y = bitsLSB 16 (x + 256 * y) := by
    have := bitsLSB_append 8 8 y x (by omega)
    rw [← this]; congr 1; omega
  rw [h2, List.drop_append_of_le_length (by simp [bitsLSB]; omega), List.take_append_of_le_length (by simp [bitsLSB]; omega), drop_bitsLSB _ _ _ (by omega),
    take_bitsLSB _ _ _ (by omega), natLSB_bitsLSB, Nat.shiftRight_eq_div_pow]

theorem xor_rows (t : Nat) (h : t < 1024) : t ^^^ 1023 = 1023 - t := by
  have : ∀ t : Fin 1024, t.val ^^^ 1023 = 1023 - t.val := by decide +kernel
  exact this ⟨t, h⟩

theorem xor_byte (q : Nat) (h : q < 0x4000) : q ^^^ 0x3ff0 = 16 * (1023 - q / 16) + q % 16 := by
  have h1 : (q ^^^ 0x3ff0) / 16 = 1023 - q / 16 := by
    have := Nat.shiftRight_xor_distrib (i := 4) (a := q) (b := 0x3ff0)
    rw [Nat.shiftRight_eq_div_pow, Nat.shiftRight_eq_div_pow, Nat.shiftRight_eq_div_pow] at this
    exact this.trans (xor_rows _ (by omega))
  have h2 : (q ^^^ 0x3ff0) % 16 = q % 16 := by
    have := Nat.xor_mod_two_pow (a := q) (b := 0x3ff0) (n := 4)
    exact this.trans (by simp)
  omega

/-- `A` bits have been read from `src`. -/
structure Pump.At (p : Pump) (src : List Nat) (split : Bool) (A : Nat) : Prop where
  buf : p.buffer = src
  spl : p.split = split
  pos : p.pos % 0x4000 = 0
  bits : 8 * p.pos = A + p.nbits
  nb : p.nbits ≤ 0x20000

/-- How many bytes must be there for packet `g` to be read. -/
def need (split : Bool) (g : Nat) : Nat := if split then (g / 1024 + 1) * 0x4000 + 1 else 16 * g + 17

/-- Whether the bytes of packet `g` are in one piece. -/
def Whole (split : Bool) (g : Nat) : Prop := split = false ∨ g % 1024 ≠ 512

theorem get_ok (p : Pump) (src : List Nat) (hb : IsBytes src) (split : Bool) (g a n : Nat) (h : p.At src split (128 * g + a)) (hn0 : 0 < n)
    (hn : n ≤ 8) (ha : a + n ≤ 128) (hl : need split g ≤ src.length) :
    ∃ v p', p.get n = .ok (v, p') ∧ p'.At src split (128 * g + a + n) ∧ v < 2 ^ n ∧
      (Whole split g → v = natMSB (((word (packet split src g)).drop a).take n)) := by
  obtain ⟨hbuf, hspl, hpos, hbits, hnb⟩ := h
  obtain ⟨p1, hp1, hb1, hs1, hpos1, hnb1⟩ : ∃ p1, (if n > p.nbits then { p with nbits := p.nbits + 0x4000 * 8, pos := p.pos + 0x4000 } else p) = p1 ∧
      p1.buffer = src ∧ p1.split = split ∧ p1.pos = 0x4000 * (g / 1024 + 1) ∧ p1.nbits = 0x20000 - (128 * (g % 1024) + a) := by
    by_cases hr : n > p.nbits
    · rw [if_pos hr]; exact ⟨_, rfl, hbuf, hspl, by simp only; omega, by simp only; omega⟩
    · rw [if_neg hr]; exact ⟨_, rfl, hbuf, hspl, by omega, by omega⟩
  have hq : p1.nbits - n = 128 * (1023 - g % 1024) + (128 - a - n) := by omega
  have hbyte : ((p1.nbits - n) >>> 3) ^^^ 0x3ff0 = 16 * (g % 1024) + (128 - a - n) / 8 := by
    rw [Nat.shiftRight_eq_div_pow, xor_byte _ (by omega)]
    omega
  have hq7 : (p1.nbits - n) &&& 7 = (128 - a - n) % 8 := by
    have := Nat.and_two_pow_sub_one_eq_mod (p1.nbits - n) 3
    rw [show (2 ^ 3 - 1 : Nat) = 7 from rfl] at this
    rw [this]; omega
  have hmask : ∀ x, x &&& (0xffffffff >>> (32 - n)) = x % 2 ^ n := by
    intro x
    rw [← Nat.and_two_pow_sub_one_eq_mod]
    congr 1
    interval_cases n <;> rfl
  -- where the two bytes are
  obtain ⟨i, hi⟩ : ∃ i, i = place split g ((128 - a - n) / 8) := ⟨_, rfl⟩
  have hil : i + 2 ≤ src.length := by
    rw [hi, place]
    rw [need] at hl
    cases split
    · rw [if_neg (by simp)] at hl ⊢; omega
    · rw [if_pos rfl] at hl ⊢; omega
  have hib : (if split then (16 * (g % 1024) + (128 - a - n) / 8 + 0x4000 - 0x2008) % 0x4000 else 16 * (g % 1024) + (128 - a - n) / 8) +
      0x4000 * (g / 1024 + 1) = i + 0x4000 := by
    rw [hi, place]
    cases split
    · rw [if_neg (by simp), if_neg (by simp)]; omega
    · rw [if_pos rfl, if_pos rfl]; omega
  have hs0 : ((src.drop i).take 2)[0]? = some (src[i]'(by omega)) := by
    rw [List.getElem?_take_of_lt (by omega), List.getElem?_drop, List.getElem?_eq_getElem]; rfl
  have hs1' : ((src.drop i).take 2)[1]? = some (src[i + 1]'(by omega)) := by
    rw [List.getElem?_take_of_lt (by omega), List.getElem?_drop, List.getElem?_eq_getElem]
  refine ⟨((src[i]'(by omega) + 256 * src[i + 1]'(by omega)) >>> ((128 - a - n) % 8)) % 2 ^ n, { p1 with nbits := p1.nbits - n }, ?_, ?_, ?_, ?_⟩
  · rw [Pump.get, if_neg (by omega), hp1]
    have hu : usub p1.nbits n = .ok (p1.nbits - n) := by rw [usub, if_pos (by omega)]
    simp only [hu, bind, Except.bind]
    rw [hbyte, hs1, hpos1, hib, usub, if_pos (by omega), Nat.add_sub_cancel, hb1]
    simp only
    rw [slice_ok _ _ _ (by omega) hil, show i + 2 - i = 2 by omega]
    simp only
    rw [idx, hs0]
    simp only
    rw [idx, hs1']
    simp only
    rw [hmask, hq7]
  · exact ⟨hb1, hs1, by simp only; omega, by simp only; omega, by simp only; omega⟩
  · exact Nat.mod_lt _ (Nat.two_pow_pos n)
  · intro hw
    apply field_bytes (packet split src g) (packet_length _ _ _) a n hn ha hn0
    · rw [packet_get _ _ _ _ (by omega) (by rw [← hi]; omega), ← hi, List.getElem?_eq_getElem]
    · intro h15
      have hpl : place split g ((128 - a - n) / 8 + 1) = i + 1 := by
        rw [hi, place, place]
        cases split
        · rw [if_neg (by simp), if_neg (by simp)]; omega
        · rw [if_pos rfl, if_pos rfl]
          rcases hw with hw | hw
          · cases hw
          · omega
      rw [packet_get _ _ _ _ (by omega) (by rw [hpl]; omega), hpl, List.getElem?_eq_getElem]
    · exact packet_bytes _ _ hb _

theorem get_field4 (p : Pump) (src : List Nat) (hb : IsBytes src) (split : Bool) (g n v : Nat) (pre post : List Bool)
    (hw : word (packet split src g) = pre ++ (bitsMSB n v ++ post)) (hv : v < 2 ^ n)
    (h : p.At src split (128 * g + pre.length)) (hn0 : 0 < n) (hn : n ≤ 8) (hl : need split g ≤ src.length) (hwh : Whole split g) :
    ∃ p', p.get n = .ok (v, p') ∧ p'.At src split (128 * g + (pre ++ bitsMSB n v).length) := by
  have hbl : (bitsMSB n v).length = n := length_bitsMSB n v
  have hlen := word_length split src g
  rw [hw, List.length_append, List.length_append, hbl] at hlen
  obtain ⟨v', p', e, hat, _, hval⟩ := get_ok p src hb split g pre.length n h hn0 hn (by omega) hl
  have := hval hwh
  rw [hw, List.drop_left, List.take_left' hbl, natMSB_bitsMSB, Nat.mod_eq_of_lt hv] at this
  subst this
  exact ⟨p', e, by rw [List.length_append, hbl, ← Nat.add_assoc]; exact hat⟩

/-! ## One packet -/

theorem value4_zero (c : Code4) (s : Nat) : ∀ k, c.Fresh s (k + 1) → 2 * k + s < 12 → c.value s k = 0
  | 0, h, _ => by
    have := h 0 (by omega)
    rw [Nat.mul_zero, Nat.zero_add] at this
    rw [Code4.value, if_pos this]
  | k + 1, h, hk => by
    have h1 := h (k + 1) (by omega)
    rw [Code4.value]
    rw [if_pos (show c.Fresh s (k + 1) from fun j hj => h j (by omega)), if_neg (by rw [h1]; omega)]

theorem value4_lt (c : Code4) (h : Fits4 c) (s : Nat) : ∀ k, c.value s k < 4096 + k * 508
  | 0 => by
    have := h.1 s; have := h.2.2 s
    rw [Code4.value]; split <;> omega
  | k + 1 => by
    have ih := value4_lt c h s k
    have h1 := h.1 (2 * (k + 1) + s)
    have h2 := h.2.2 s
    have hz := h.2.1 ((2 * (k + 1) + s - 2) / 3)
    have hk : 4096 + k * 508 ≤ 4096 + (k + 1) * 508 := Nat.add_le_add_left (Nat.mul_le_mul_right _ (Nat.le_succ k)) _
    rw [Code4.value]
    generalize c.value s k = v at ih ⊢
    generalize c.hi (2 * (k + 1) + s) = x at h1 ⊢
    generalize c.sel ((2 * (k + 1) + s - 2) / 3) = t at hz ⊢
    by_cases hf : c.Fresh s (k + 1)
    · rw [if_pos hf]
      have hi : ∀ b : Prop, [Decidable b] → (if b then 16 * x + c.low s else 0) ≤ 16 * x + c.low s := by
        intro b _
        by_cases hb : b
        · rw [if_pos hb]
        · rw [if_neg hb]; exact Nat.zero_le _
      exact Nat.lt_of_le_of_lt (hi _) (by omega)
    · rw [if_neg hf]
      by_cases hx : x = 0
      · rw [if_pos hx]; exact Nat.lt_of_lt_of_le ih hk
      · rw [if_neg hx]
        have key : x * 2 ^ scale t + (if scale t = 4 ∨ v < 128 * 2 ^ scale t then v % 2 ^ scale t else v - 128 * 2 ^ scale t) < max 4096 (v + 509) := by
          rcases scale_le _ hz with h | h | h | h <;> rw [h] <;> split <;> omega
        refine Nat.lt_of_lt_of_le key ?_
        rw [Nat.add_mul, Nat.one_mul] at hk ⊢
        omega

/-- What is known of the channel `s` when `k` of its samples are done. -/
def Chan4 (c : Code4) (s k : Nat) (x : Int × Nat) : Prop :=
  (x.2 = 0 ↔ c.Fresh s k) ∧ x.1 = ((if k = 0 then 0 else c.value s (k - 1) : Nat) : Int)

theorem step4_ok (z : Nat) (hz : z = 0 ∨ z = 1 ∨ z = 2 ∨ z = 4) (j v : Nat) (hj : j < 256) (hv : v < 65536) :
    step4 z j (v : Int) = .ok ((j * 2 ^ z + if z = 4 ∨ v < 128 * 2 ^ z then v % 2 ^ z else v - 128 * 2 ^ z : Nat) : Int) := by
  have hpow : ((2 : Int) ^ z) = ((2 ^ z : Nat) : Int) := by simp
  have h16 : 2 ^ z ≤ 16 := by rcases hz with rfl | rfl | rfl | rfl <;> omega
  have h0 : 0 < 2 ^ z := Nat.two_pow_pos z
  have hjz : j * 2 ^ z ≤ 255 * 16 := Nat.mul_le_mul (by omega) h16
  rw [step4, hpow, Verif.Orf.chk (by omega) (by omega), Verif.Orf.ok_bind]
  have hm : ((v : Int) - 0x80 * ((2 ^ z : Nat) : Int)) % ((2 ^ z : Nat) : Int) = ((v % 2 ^ z : Nat) : Int) := by
    rw [Int.sub_mul_emod_self_right, Int.natCast_emod]
  have hlt : v % 2 ^ z < 16 := Nat.lt_of_lt_of_le (Nat.mod_lt _ h0) h16
  have hcast : ((j : Int) * ((2 ^ z : Nat) : Int)) = ((j * 2 ^ z : Nat) : Int) := by push_cast; rfl
  by_cases hc : z = 4 ∨ v < 128 * 2 ^ z
  · rw [if_pos hc, if_pos (by rcases hc with hc | hc <;> omega), hm, hcast, Verif.Orf.chk (by omega) (by omega)]
    congr 1; omega
  · rw [if_neg hc, if_neg (by omega), hcast, Verif.Orf.chk (by omega) (by omega)]
    congr 1; omega

theorem sample4_ok (c : Code4) (hf : Fits4 c) (src : List Nat) (hb : IsBytes src) (split : Bool) (g : Nat) (hl : need split g ≤ src.length)
    (hwh : Whole split g) (i : Nat) (hi : i < 14) (sh : Nat) (hsh : 2 ≤ i → sh = scale (c.sel ((i - 2) / 3))) (p : Pump) (pre post : List Bool)
    (hw : word (packet split src g) = pre ++ ((bitsMSB 8 (c.hi i) ++ if c.Lows i then bitsMSB 4 (c.low (i % 2)) else []) ++ post))
    (hp : p.At src split (128 * g + pre.length)) (x : Int × Nat) (hx : Chan4 c (i % 2) (i / 2) x) :
    ∃ y p', sample4 i sh p x = .ok (y, p') ∧ Chan4 c (i % 2) (i / 2 + 1) y ∧
      p'.At src split (128 * g + (pre ++ (bitsMSB 8 (c.hi i) ++ if c.Lows i then bitsMSB 4 (c.low (i % 2)) else [])).length) := by
  obtain ⟨hx2, hx1⟩ := hx
  have hmod : 2 * (i / 2) + i % 2 = i := by omega
  have hhi := hf.1 i
  have hlo := hf.2.2 (i % 2)
  have hfr : c.Fresh (i % 2) (i / 2 + 1) ↔ c.Fresh (i % 2) (i / 2) ∧ c.hi i = 0 := by
    constructor
    · intro h
      refine ⟨fun j hj => h j (by omega), ?_⟩
      have := h (i / 2) (by omega)
      rwa [hmod] at this
    · rintro ⟨h, h0⟩ j hj
      rcases Nat.lt_succ_iff_lt_or_eq.1 hj with hj | rfl
      · exact h j hj
      · rw [hmod]; exact h0
  rw [sample4]
  by_cases h0 : x.2 = 0
  · have hz := hx2.1 h0
    rw [if_neg (fun hh => hh h0)]
    obtain ⟨p1, e1, hat1⟩ := get_field4 p src hb split g 8 (c.hi i) pre ((if c.Lows i then bitsMSB 4 (c.low (i % 2)) else []) ++ post)
      (by rw [hw]; simp only [List.append_assoc]) (by omega) hp (by omega) (by omega) hl hwh
    rw [e1]
    simp only [bind, Except.bind]
    have hv : c.value (i % 2) (i / 2) = if c.hi i ≠ 0 ∨ 12 ≤ i then 16 * c.hi i + c.low (i % 2) else 0 := by
      rcases Nat.eq_zero_or_pos (i / 2) with hk | hk
      · rw [hk, Code4.value]
        have : i % 2 = i := by omega
        rw [this]
        by_cases hh : c.hi i = 0
        · rw [if_pos hh, if_neg (by rw [hh]; omega)]
        · rw [if_neg hh, if_pos (.inl hh)]
      · obtain ⟨k, hk⟩ : ∃ k, i / 2 = k + 1 := ⟨i / 2 - 1, by omega⟩
        rw [hk, Code4.value]
        rw [hk] at hz hmod
        rw [if_pos hz, hmod]
    by_cases hlw : c.hi i ≠ 0 ∨ 12 ≤ i
    · have hL : c.Lows i := ⟨hz, hlw⟩
      rw [if_pos hL] at hw ⊢
      rw [if_pos (show c.hi i ≠ 0 ∨ i > 11 by omega)]
      obtain ⟨p2, e2, hat2⟩ := get_field4 p1 src hb split g 4 (c.low (i % 2)) (pre ++ bitsMSB 8 (c.hi i)) post
        (by rw [hw]; simp only [List.append_assoc]) (by omega) hat1 (by omega) (by omega) hl hwh
      rw [e2]
      refine ⟨_, p2, rfl, ⟨?_, ?_⟩, by rw [← List.append_assoc]; exact hat2⟩
      · rw [hfr]; exact ⟨fun h => ⟨hz, h⟩, fun h => h.2⟩
      · rw [if_neg (by omega), Nat.add_sub_cancel, hv, if_pos hlw]
        have : c.hi i <<< 4 ||| c.low (i % 2) = 16 * c.hi i + c.low (i % 2) := by
          rw [← Nat.shiftLeft_add_eq_or_of_lt (by omega), Nat.shiftLeft_eq]; omega
        simp only [this]
    · have hL : ¬ c.Lows i := fun h => hlw h.2
      have hh : c.hi i = 0 := by by_contra hh; exact hlw (.inl hh)
      rw [if_neg hL, List.append_nil]
      rw [if_neg (show ¬ (c.hi i ≠ 0 ∨ i > 11) by omega)]
      refine ⟨_, p1, rfl, ⟨?_, ?_⟩, hat1⟩
      · rw [hfr]; exact ⟨fun h => ⟨hz, h⟩, fun h => h.2⟩
      · rw [if_neg (by omega), Nat.add_sub_cancel, hv, if_neg hlw, hx1]
        split
        · rfl
        · rename_i hne
          rw [value4_zero c _ _ (by rw [Nat.sub_add_cancel (by omega)]; exact hz) (by omega)]
  · have hnz : ¬ c.Fresh (i % 2) (i / 2) := fun h => h0 (hx2.2 h)
    have hL : ¬ c.Lows i := fun h => hnz h.1
    rw [if_neg hL, List.append_nil] at hw ⊢
    rw [if_pos h0]
    obtain ⟨p1, e1, hat1⟩ := get_field4 p src hb split g 8 (c.hi i) pre post (by rw [hw]) (by omega) hp (by omega) (by omega) hl hwh
    rw [e1]
    simp only [bind, Except.bind]
    obtain ⟨k, hk⟩ : ∃ k, i / 2 = k + 1 := ⟨i / 2 - 1, by
      have : i / 2 ≠ 0 := fun h => hnz (by rw [h]; exact fun j hj => absurd hj (by omega))
      omega⟩
    have hnz' : ¬ c.Fresh (i % 2) (i / 2 + 1) := fun h => hnz (hfr.1 h).1
    rw [hk] at hx1 hnz hnz' hmod ⊢
    rw [if_neg (by omega), Nat.add_sub_cancel] at hx1
    have hv : c.value (i % 2) (k + 1) = if c.hi i = 0 then c.value (i % 2) k else c.hi i * 2 ^ scale (c.sel ((i - 2) / 3)) +
        if scale (c.sel ((i - 2) / 3)) = 4 ∨ c.value (i % 2) k < 128 * 2 ^ scale (c.sel ((i - 2) / 3)) then
          c.value (i % 2) k % 2 ^ scale (c.sel ((i - 2) / 3)) else c.value (i % 2) k - 128 * 2 ^ scale (c.sel ((i - 2) / 3)) := by
      rw [Code4.value]
      rw [if_neg hnz, hmod]
    by_cases hh : c.hi i = 0
    · rw [if_neg (fun h => h hh)]
      refine ⟨_, p1, rfl, ⟨?_, ?_⟩, hat1⟩
      · exact ⟨fun h => absurd h h0, fun h => absurd h hnz'⟩
      · rw [if_neg (by omega), Nat.add_sub_cancel, hv, if_pos hh, hx1]
    · rw [if_pos hh, hx1, hsh (by omega)]
      have hkl := value4_lt c hf (i % 2) k
      rw [step4_ok _ (scale_le _ (hf.2.1 _)) _ _ hhi (by omega)]
      refine ⟨_, p1, rfl, ⟨?_, ?_⟩, hat1⟩
      · exact ⟨fun h => absurd h h0, fun h => absurd h hnz'⟩
      · rw [if_neg (show ¬ k + 1 + 1 = 0 by omega), Nat.add_sub_cancel, hv, if_neg hh]

/-- What is known after `i` samples of packet `g`. -/
def Inv4 (c : Code4) (src : List Nat) (split : Bool) (g : Nat) (out0 : List Nat) (i : Nat) (st : St4 × Pump × List Nat) : Prop :=
  st.2.1.At src split (128 * g + ((List.range i).flatMap c.piece).length) ∧ Chan4 c 0 ((i + 1) / 2) st.1.even ∧ Chan4 c 1 (i / 2) st.1.odd ∧
    (3 ≤ i → st.1.sh = scale (c.sel ((i - 3) / 3))) ∧ st.2.2 = out0 ++ (List.range i).map fun j => c.value (j % 2) (j / 2)

theorem pixel4_ok (c : Code4) (hf : Fits4 c) (src : List Nat) (hb : IsBytes src) (split : Bool) (g : Nat) (hl : need split g ≤ src.length)
    (hwh : Whole split g) (hw : word (packet split src g) = c.bits) (out0 : List Nat) (i : Nat) (hi : i < 14) (st : St4 × Pump × List Nat)
    (h : Inv4 c src split g out0 i st) : ∃ st', pixel4 i st = .ok st' ∧ Inv4 c src split g out0 (i + 1) st' := by
  obtain ⟨hat, hev, hod, hsh, hout⟩ := h
  obtain ⟨s, p, out⟩ := st
  simp only at hat hev hod hsh hout
  have hsplit : ∃ post, c.bits = (List.range i).flatMap c.piece ++ (c.piece i ++ post) := by
    refine ⟨((List.range (13 - i)).map (i + 1 + ·)).flatMap c.piece, ?_⟩
    rw [Code4.bits, show 14 = i + 1 + (13 - i) by omega, List.range_add, List.flatMap_append, List.range_succ, List.flatMap_append, List.append_assoc]
    simp
  obtain ⟨post, hpost⟩ := hsplit
  rw [hpost] at hw
  have hre : ∃ p1, reshift i p s.sh = .ok ((if i % 3 = 2 then scale (c.sel (i / 3)) else s.sh), p1) ∧
      p1.At src split (128 * g + ((List.range i).flatMap c.piece ++ if i % 3 = 2 then bitsMSB 2 (c.sel (i / 3)) else []).length) := by
    rw [reshift]
    by_cases h3 : i % 3 = 2
    · rw [if_pos h3, if_pos h3, if_pos h3]
      have hs4 := hf.2.1 (i / 3)
      obtain ⟨p1, e1, hat1⟩ := get_field4 p src hb split g 2 (c.sel (i / 3)) ((List.range i).flatMap c.piece)
        (bitsMSB 8 (c.hi i) ++ ((if c.Lows i then bitsMSB 4 (c.low (i % 2)) else []) ++ post))
        (by rw [hw, Code4.piece, if_pos h3]; simp only [List.append_assoc]) (by omega) hat (by omega) (by omega) hl hwh
      refine ⟨p1, ?_, hat1⟩
      rw [e1]
      simp only [bind, Except.bind]
      rw [usub, if_pos (by omega)]
      simp only
      have : 4 >>> (3 - c.sel (i / 3)) = scale (c.sel (i / 3)) := by
        generalize c.sel (i / 3) = t at hs4
        interval_cases t <;> rfl
      rw [this]
    · rw [if_neg h3, if_neg h3, if_neg h3, List.append_nil]
      exact ⟨p, rfl, hat⟩
  obtain ⟨p1, e1, hat1⟩ := hre
  have hch : Chan4 c (i % 2) (i / 2) (if i % 2 = 0 then s.even else s.odd) := by
    by_cases h2 : i % 2 = 0
    · rw [if_pos h2, h2]; rwa [show (i + 1) / 2 = i / 2 by omega] at hev
    · rw [if_neg h2, show i % 2 = 1 by omega]; exact hod
  have hshv : 2 ≤ i → (if i % 3 = 2 then scale (c.sel (i / 3)) else s.sh) = scale (c.sel ((i - 2) / 3)) := by
    intro h2
    by_cases h3 : i % 3 = 2
    · rw [if_pos h3, show i / 3 = (i - 2) / 3 by omega]
    · rw [if_neg h3, hsh (by omega), show (i - 3) / 3 = (i - 2) / 3 by omega]
  obtain ⟨y, p2, e2, hy, hat2⟩ := sample4_ok c hf src hb split g hl hwh i hi _ hshv p1
    ((List.range i).flatMap c.piece ++ if i % 3 = 2 then bitsMSB 2 (c.sel (i / 3)) else []) post
    (by rw [hw, Code4.piece]; simp only [List.append_assoc]) hat1 _ hch
  have hval : asU16 y.1 = c.value (i % 2) (i / 2) := by
    rw [hy.2, if_neg (by omega), Nat.add_sub_cancel]
    have := value4_lt c hf (i % 2) (i / 2)
    exact Verif.Ljpeg.asU16_nat (by omega)
  rw [pixel4]
  simp only
  rw [e1]
  simp only [bind, Except.bind]
  rw [e2]
  refine ⟨_, rfl, ?_, ?_, ?_, ?_, ?_⟩
  · simp only
    have : (List.range (i + 1)).flatMap c.piece = ((List.range i).flatMap c.piece ++ if i % 3 = 2 then bitsMSB 2 (c.sel (i / 3)) else []) ++
        (bitsMSB 8 (c.hi i) ++ if c.Lows i then bitsMSB 4 (c.low (i % 2)) else []) := by
      rw [List.range_succ, List.flatMap_append]
      simp only [List.flatMap_cons, List.flatMap_nil, List.append_nil, Code4.piece, List.append_assoc]
    rw [this]; exact hat2
  · simp only
    by_cases h2 : i % 2 = 0
    · rw [if_pos h2]; rw [h2] at hy; rwa [show (i + 1 + 1) / 2 = i / 2 + 1 by omega]
    · rw [if_neg h2]; rwa [show (i + 1 + 1) / 2 = (i + 1) / 2 by omega]
  · simp only
    by_cases h2 : i % 2 = 0
    · rw [if_pos h2]; rwa [show (i + 1) / 2 = i / 2 by omega]
    · rw [if_neg h2]; rw [show i % 2 = 1 by omega] at hy; rwa [show (i + 1) / 2 = i / 2 + 1 by omega]
  · intro h3; simp only; rw [hshv (by omega), show i + 1 - 3 = i - 2 by omega]
  · simp only [hout, List.range_succ, List.map_append, List.map_cons, List.map_nil, List.append_assoc, hval]

theorem packet4_ok (c : Code4) (hf : Fits4 c) (src : List Nat) (hb : IsBytes src) (split : Bool) (g : Nat) (hl : need split g ≤ src.length)
    (hwh : Whole split g) (hw : word (packet split src g) = c.bits) (sh : Nat) (p : Pump) (hp : p.At src split (128 * g)) (out : List Nat) :
    ∃ sh' p', packet4 (sh, p, out) = .ok (sh', p', out ++ (List.range 14).map fun j => c.value (j % 2) (j / 2)) ∧ p'.At src split (128 * (g + 1)) := by
  obtain ⟨st, e, hi⟩ := forN_inv 14 pixel4 (Inv4 c src split g out) (⟨sh, (0, 0), (0, 0)⟩, p, out)
    ⟨hp, ⟨⟨fun _ j hj => absurd hj (by omega), fun _ => rfl⟩, rfl⟩, ⟨⟨fun _ j hj => absurd hj (by omega), fun _ => rfl⟩, rfl⟩, by omega, by simp⟩
    (fun i st hi hs => pixel4_ok c hf src hb split g hl hwh hw out i hi st hs)
  obtain ⟨s, p', o⟩ := st
  obtain ⟨hat, _, _, _, hout⟩ := hi
  simp only at hat hout
  have hlen := word_length split src g
  rw [hw, Code4.bits] at hlen
  refine ⟨s.sh, p', ?_, ?_⟩
  · rw [packet4]
    simp only
    rw [e]
    simp only [bind, Except.bind]
    rw [hout]
  · rw [hlen] at hat; exact hat

/-! ## Any packet is read -/

/-- A packet takes 128 bits, whatever they are. -/
def Inv4' (src : List Nat) (split : Bool) (g : Nat) (out0 : List Nat) (i : Nat) (st : St4 × Pump × List Nat) : Prop :=
  st.2.1.At src split (128 * g + (8 * i + 2 * (i / 3) + (if st.1.even.2 ≠ 0 ∨ 13 ≤ i then 4 else 0) + if st.1.odd.2 ≠ 0 ∨ 14 ≤ i then 4 else 0)) ∧
    (st.1.even.2 ≠ 0 → 1 ≤ i) ∧ (st.1.odd.2 ≠ 0 → 2 ≤ i) ∧
    (3 ≤ i → st.1.sh = 0 ∨ st.1.sh = 1 ∨ st.1.sh = 2 ∨ st.1.sh = 4) ∧
    (∃ v : Nat, st.1.even.1 = (v : Int) ∧ v < 4096 + 4096 * i) ∧ (∃ v : Nat, st.1.odd.1 = (v : Int) ∧ v < 4096 + 4096 * i) ∧
    ∃ l, st.2.2 = out0 ++ l ∧ l.length = i

theorem sample4_any (src : List Nat) (hb : IsBytes src) (split : Bool) (g : Nat) (hl : need split g ≤ src.length) (i : Nat) (hi : i < 14)
    (sh : Nat) (x : Int × Nat) (hsh : x.2 ≠ 0 → sh = 0 ∨ sh = 1 ∨ sh = 2 ∨ sh = 4) (p : Pump) (a : Nat) (ha : a + 8 ≤ 128) (ha' : x.2 = 0 → a + 12 ≤ 128)
    (hp : p.At src split (128 * g + a)) (v : Nat) (hv : x.1 = (v : Int)) (hvl : v < 4096 + 4096 * i) :
    ∃ y p', sample4 i sh p x = .ok (y, p') ∧ (∃ v : Nat, y.1 = (v : Int) ∧ v < 4096 + 4096 * (i + 1)) ∧ (x.2 ≠ 0 → y.2 ≠ 0) ∧
      p'.At src split (128 * g + (a + 8 + if x.2 = 0 ∧ (y.2 ≠ 0 ∨ 12 ≤ i) then 4 else 0)) := by
  obtain ⟨n, p1, e1, hat1, hn, _⟩ := get_ok p src hb split g a 8 hp (by omega) (by omega) ha hl
  rw [sample4]
  by_cases h0 : x.2 = 0
  · rw [if_neg (fun hh => hh h0), e1]
    simp only [bind, Except.bind]
    by_cases hlw : n ≠ 0 ∨ i > 11
    · rw [if_pos hlw]
      have := ha' h0
      obtain ⟨low, p2, e2, hat2, hlow, _⟩ := get_ok p1 src hb split g (a + 8) 4 (by rw [← Nat.add_assoc]; exact hat1) (by omega) (by omega) (by omega) hl
      rw [e2]
      refine ⟨_, p2, rfl, ⟨_, rfl, ?_⟩, fun h => absurd h0 h, ?_⟩
      · rw [← Nat.shiftLeft_add_eq_or_of_lt (by omega), Nat.shiftLeft_eq]; omega
      · simp only
        rw [if_pos ⟨h0, by omega⟩, ← Nat.add_assoc]; exact hat2
    · rw [if_neg hlw]
      refine ⟨_, p1, rfl, ⟨v, hv, by omega⟩, fun h => absurd h0 h, ?_⟩
      simp only
      rw [if_neg (by omega), Nat.add_zero, ← Nat.add_assoc]; exact hat1
  · rw [if_pos h0, e1]
    simp only [bind, Except.bind]
    by_cases hj : n = 0
    · rw [if_neg (fun h => h hj)]
      refine ⟨_, p1, rfl, ⟨v, hv, by omega⟩, fun _ => h0, ?_⟩
      rw [if_neg (fun h => h0 h.1), Nat.add_zero, ← Nat.add_assoc]; exact hat1
    · rw [if_pos hj, hv, step4_ok sh (hsh h0) n v (by omega) (by omega)]
      refine ⟨_, p1, rfl, ⟨_, rfl, ?_⟩, fun _ => h0, ?_⟩
      · have h16 : 2 ^ sh ≤ 16 := by rcases hsh h0 with h | h | h | h <;> rw [h] <;> omega
        have h1 : n * 2 ^ sh ≤ 255 * 16 := Nat.mul_le_mul (by omega) h16
        have h2 : v % 2 ^ sh ≤ v := Nat.mod_le _ _
        have h3 : v - 128 * 2 ^ sh ≤ v := Nat.sub_le _ _
        generalize v % 2 ^ sh = u1 at h2 ⊢
        generalize v - 128 * 2 ^ sh = u2 at h3 ⊢
        split <;> omega
      · simp only
        rw [if_neg (fun h => h0 h.1), Nat.add_zero, ← Nat.add_assoc]; exact hat1

theorem pixel4_any (src : List Nat) (hb : IsBytes src) (split : Bool) (g : Nat) (hl : need split g ≤ src.length) (out0 : List Nat) (i : Nat)
    (hi : i < 14) (st : St4 × Pump × List Nat) (h : Inv4' src split g out0 i st) :
    ∃ st', pixel4 i st = .ok st' ∧ Inv4' src split g out0 (i + 1) st' := by
  obtain ⟨⟨sh, ev, od⟩, p, out⟩ := st
  obtain ⟨hat, he1, ho1, hsh, ⟨ve, hve, hvel⟩, ⟨vo, hvo, hvol⟩, l, hout, hll⟩ := h
  simp only at hat he1 ho1 hsh hve hvo hout
  generalize hE : (if ev.2 ≠ 0 ∨ 13 ≤ i then 4 else 0) = E at hat
  generalize hO : (if od.2 ≠ 0 ∨ 14 ≤ i then 4 else 0) = O at hat
  have hE4 : E ≤ 4 := by rw [← hE]; split <;> omega
  have hO4 : O ≤ 4 := by rw [← hO]; split <;> omega
  have hO13 : i % 2 = 1 → od.2 = 0 → O = 0 := by
    intro _ h; rw [← hO, if_neg (by omega)]
  have hE12 : i % 2 = 0 → ev.2 = 0 → E = 0 := by
    intro _ h; rw [← hE, if_neg (by omega)]
  have hre : ∃ sh' p1, reshift i p sh = .ok (sh', p1) ∧ (2 ≤ i → sh' = 0 ∨ sh' = 1 ∨ sh' = 2 ∨ sh' = 4) ∧
      p1.At src split (128 * g + (8 * i + 2 * ((i + 1) / 3) + E + O)) := by
    rw [reshift]
    by_cases h3 : i % 3 = 2
    · rw [if_pos h3]
      obtain ⟨v, p1, e1, hat1, hv, _⟩ := get_ok p src hb split g _ 2 hat (by omega) (by omega) (by omega) hl
      rw [e1]
      simp only [bind, Except.bind]
      rw [usub, if_pos (by omega)]
      refine ⟨_, p1, rfl, fun _ => ?_, ?_⟩
      · interval_cases v <;> simp
      · rw [show 8 * i + 2 * ((i + 1) / 3) + E + O = 8 * i + 2 * (i / 3) + E + O + 2 by omega, ← Nat.add_assoc]; exact hat1
    · rw [if_neg h3]
      exact ⟨_, p, rfl, fun h2 => hsh (by omega), by rw [show (i + 1) / 3 = i / 3 by omega]; exact hat⟩
  obtain ⟨sh', p1, e1, hsh', hat1⟩ := hre
  rw [pixel4]
  simp only
  rw [e1]
  simp only [bind, Except.bind]
  by_cases h2 : i % 2 = 0
  · obtain ⟨y, p2, e2, ⟨vy, hvy, hvyl⟩, hy, hat2⟩ := sample4_any src hb split g hl i hi sh' ev (fun h => hsh' (by have := he1 h; omega)) p1 _
      (by omega) (fun h => by have := hE12 h2 h; omega) hat1 ve hve hvel
    rw [if_pos h2, e2]
    refine ⟨_, rfl, ?_, ?_, ?_, ?_, ?_, ?_, ?_⟩
    · simp only [if_pos h2]
      have : 8 * (i + 1) + 2 * ((i + 1) / 3) + (if y.2 ≠ 0 ∨ 13 ≤ i + 1 then 4 else 0) + (if od.2 ≠ 0 ∨ 14 ≤ i + 1 then 4 else 0) =
          8 * i + 2 * ((i + 1) / 3) + E + O + 8 + if ev.2 = 0 ∧ (y.2 ≠ 0 ∨ 12 ≤ i) then 4 else 0 := by
        have hO' : (if od.2 ≠ 0 ∨ 14 ≤ i + 1 then 4 else 0) = O := by
          rw [← hO]
          by_cases ho : od.2 = 0
          · rw [if_neg (by omega), if_neg (by omega)]
          · rw [if_pos (.inl ho), if_pos (.inl ho)]
        rw [hO']
        by_cases hev : ev.2 = 0
        · rw [hE12 h2 hev]
          by_cases hc : y.2 ≠ 0 ∨ 12 ≤ i
          · rw [if_pos (by omega), if_pos ⟨hev, hc⟩]; omega
          · rw [if_neg (by omega), if_neg (fun h => hc h.2)]; omega
        · have hEE : E = 4 := by rw [← hE, if_pos (.inl hev)]
          rw [if_pos (.inl (hy hev)), if_neg (fun h => hev h.1)]; omega
      rw [this]; exact hat2
    · intro _; omega
    · intro h
      simp only [if_pos h2] at h
      have := ho1 h; omega
    · intro h3; exact hsh' (by omega)
    · exact ⟨vy, by simp only [if_pos h2]; exact hvy, hvyl⟩
    · exact ⟨vo, by simp only [if_pos h2]; exact hvo, by omega⟩
    · exact ⟨l ++ [asU16 y.1], by simp only [hout, List.append_assoc], by rw [List.length_append, hll]; rfl⟩
  · obtain ⟨y, p2, e2, ⟨vy, hvy, hvyl⟩, hy, hat2⟩ := sample4_any src hb split g hl i hi sh' od (fun h => hsh' (by have := ho1 h; omega)) p1 _
      (by omega) (fun h => by have := hO13 (by omega) h; omega) hat1 vo hvo hvol
    rw [if_neg h2, e2]
    refine ⟨_, rfl, ?_, ?_, ?_, ?_, ?_, ?_, ?_⟩
    · simp only [if_neg h2]
      have : 8 * (i + 1) + 2 * ((i + 1) / 3) + (if ev.2 ≠ 0 ∨ 13 ≤ i + 1 then 4 else 0) + (if y.2 ≠ 0 ∨ 14 ≤ i + 1 then 4 else 0) =
          8 * i + 2 * ((i + 1) / 3) + E + O + 8 + if od.2 = 0 ∧ (y.2 ≠ 0 ∨ 12 ≤ i) then 4 else 0 := by
        have hE' : (if ev.2 ≠ 0 ∨ 13 ≤ i + 1 then 4 else 0) = E := by
          rw [← hE]
          by_cases ho : ev.2 = 0
          · by_cases h13 : 13 ≤ i
            · rw [if_pos (by omega), if_pos (by omega)]
            · rw [if_neg (by omega), if_neg (by omega)]
          · rw [if_pos (.inl ho), if_pos (.inl ho)]
        rw [hE']
        by_cases hev : od.2 = 0
        · rw [hO13 (by omega) hev]
          by_cases hc : y.2 ≠ 0 ∨ 12 ≤ i
          · rw [if_pos (by omega), if_pos ⟨hev, hc⟩]; omega
          · rw [if_neg (by omega), if_neg (fun h => hc h.2)]; omega
        · have hEE : O = 4 := by rw [← hO, if_pos (.inl hev)]
          rw [if_pos (.inl (hy hev)), if_neg (fun h => hev h.1)]; omega
      rw [this]; exact hat2
    · intro h
      simp only [if_neg h2] at h
      have := he1 h; omega
    · intro _; omega
    · intro h3; exact hsh' (by omega)
    · exact ⟨ve, by simp only [if_neg h2]; exact hve, by omega⟩
    · exact ⟨vy, by simp only [if_neg h2]; exact hvy, hvyl⟩
    · exact ⟨l ++ [asU16 y.1], by simp only [hout, List.append_assoc], by rw [List.length_append, hll]; rfl⟩

theorem packet4_any (src : List Nat) (hb : IsBytes src) (split : Bool) (g : Nat) (hl : need split g ≤ src.length) (sh : Nat) (p : Pump)
    (hp : p.At src split (128 * g)) (out : List Nat) :
    ∃ sh' p' l, packet4 (sh, p, out) = .ok (sh', p', out ++ l) ∧ l.length = 14 ∧ p'.At src split (128 * (g + 1)) := by
  obtain ⟨st, e, hi⟩ := forN_inv 14 pixel4 (Inv4' src split g out) (⟨sh, (0, 0), (0, 0)⟩, p, out)
    ⟨hp, fun h => absurd rfl h, fun h => absurd rfl h, by omega, ⟨0, rfl, by omega⟩, ⟨0, rfl, by omega⟩, [], by simp, rfl⟩
    (fun i st hi hs => pixel4_any src hb split g hl out i hi st hs)
  obtain ⟨s, p', o⟩ := st
  obtain ⟨hat, _, _, _, _, _, l, hout, hll⟩ := hi
  simp only at hat hout
  refine ⟨s.sh, p', l, ?_, hll, ?_⟩
  · rw [packet4]
    simp only
    rw [e]
    simp only [bind, Except.bind]
    rw [hout]
  · rw [if_pos (by omega), if_pos (by omega)] at hat; exact hat

/-! ## Strips -/

theorem packet_drop (split : Bool) (data : List Nat) (B g : Nat) : packet split (data.drop (B * 0x4000)) g = packet split data (B * 1024 + g) := by
  rw [packet, packet]
  apply List.map_congr_left
  intro b hb
  rw [List.mem_range] at hb
  rw [List.getD_eq_getElem?_getD, List.getD_eq_getElem?_getD, List.getElem?_drop]
  refine congrArg (fun x => (data[x]?).getD 0) ?_
  rw [place, place]
  cases split
  · rw [if_neg (by simp), if_neg (by simp)]; omega
  · rw [if_pos rfl, if_pos rfl]; omega

/-- The samples of packet `g` where they are known. -/
def Sample4 (data : List Nat) (split : Bool) (g j v : Nat) : Prop :=
  Whole split g → ∀ c : Code4, Fits4 c → word (packet split data g) = c.bits → v = c.value (j % 2) (j / 2)

theorem packet4_both (src : List Nat) (hb : IsBytes src) (split : Bool) (g : Nat) (hl : need split g ≤ src.length) (sh : Nat) (p : Pump)
    (hp : p.At src split (128 * g)) (out : List Nat) :
    ∃ sh' p' l, packet4 (sh, p, out) = .ok (sh', p', out ++ l) ∧ l.length = 14 ∧ p'.At src split (128 * (g + 1)) ∧
      ∀ j v, l[j]? = some v → Sample4 src split g j v := by
  obtain ⟨sh', p', l, e, hll, hat⟩ := packet4_any src hb split g hl sh p hp out
  refine ⟨sh', p', l, e, hll, hat, ?_⟩
  intro j v hj hwh c hf hw
  obtain ⟨sh2, p2, e2, _⟩ := packet4_ok c hf src hb split g hl hwh hw sh p hp out
  rw [e] at e2
  have h3 : out ++ l = out ++ (List.range 14).map fun j => c.value (j % 2) (j / 2) := by
    injection e2 with e2
    injection e2 with _ e2
    injection e2 with _ e2
  rw [List.append_cancel_left h3, List.getElem?_map] at hj
  have hj14 : j < 14 := by
    by_contra hge
    rw [List.getElem?_eq_none (by simp; omega)] at hj
    cases hj
  rw [List.getElem?_range hj14] at hj
  exact (Option.some.inj hj).symm

theorem stripV4_gen (buf : List Nat) (hb : IsBytes buf) (split : Bool) (m row rows : Nat)
    (hl : ∀ g, g < m * row + rows * m → need split g ≤ buf.length) (hpos : 0 < rows * m) (Q : Nat → Nat → Nat → Prop)
    (hQ : ∀ B g sh p out, need split g ≤ (buf.drop (B * 0x4000)).length → p.At (buf.drop (B * 0x4000)) split (128 * g) →
      ∃ sh' p' l, packet4 (sh, p, out) = .ok (sh', p', out ++ l) ∧ l.length = 14 ∧ p'.At (buf.drop (B * 0x4000)) split (128 * (g + 1)) ∧
        ∀ j v, l[j]? = some v → Q (B * 1024 + g) j v) :
    ∃ o, stripV4 buf (m * 14) split (List.replicate (rows * (m * 14)) 0) row = .ok o ∧ o.length = rows * (m * 14) ∧
      ∀ j v, o[j]? = some v → Q (m * row + j / 14) (j % 14) v := by
  have hskip : (m * 14 * row * 9 + m * 14 / 14 * 2 * row) / 8 = 16 * (m * row) := by
    rw [Nat.mul_div_cancel _ (by omega), show m * 14 * row * 9 + m * 2 * row = 128 * (m * row) by ring, show 128 * (m * row) = 8 * (16 * (m * row)) by ring,
      Nat.mul_div_cancel_left _ (by omega)]
  obtain ⟨G, hG⟩ : ∃ G, G = m * row := ⟨_, rfl⟩
  rw [← hG] at hskip hl ⊢
  have hB : 16 * G / 0x4000 * 0x4000 = G / 1024 * 0x4000 := by omega
  have hlen := hl (G + rows * m - 1) (by omega)
  have hle : G / 1024 * 0x4000 ≤ buf.length := by
    rw [need] at hlen
    cases split
    · rw [if_neg (by simp)] at hlen; omega
    · rw [if_pos rfl] at hlen
      have : G / 1024 ≤ (G + rows * m - 1) / 1024 := Nat.div_le_div_right (by omega)
      have := Nat.mul_le_mul_right 0x4000 (Nat.le_succ_of_le this)
      exact Nat.le_trans this (Nat.le_of_succ_le hlen)
  obtain ⟨src, hsrc⟩ : ∃ src, src = buf.drop (G / 1024 * 0x4000) := ⟨_, rfl⟩
  have hbs : IsBytes src := by rw [hsrc]; exact fun x hx => hb x (List.mem_of_mem_drop hx)
  have hneed : ∀ g, g < G % 1024 + rows * m → need split g ≤ src.length := by
    intro g hg
    have := hl (G / 1024 * 1024 + g) (by omega)
    rw [hsrc, List.length_drop]
    rw [need] at this ⊢
    cases split
    · rw [if_neg (by simp)] at this ⊢; omega
    · rw [if_pos rfl] at this ⊢
      have e : (G / 1024 * 1024 + g) / 1024 = G / 1024 + g / 1024 := by omega
      rw [e, Nat.add_assoc, Nat.add_mul, Nat.add_assoc] at this
      exact (Nat.le_sub_iff_add_le' hle).2 this
  obtain ⟨p, e1, hat⟩ := forN_inv (16 * G % 0x4000) (fun _ p => do let (_, p) ← Pump.get p 8; .ok p) (fun k p => p.At src split (8 * k)) ⟨src, 0, 0, split⟩
    ⟨rfl, rfl, rfl, rfl, by simp⟩ (fun k p hk hp => by
      obtain ⟨v, p', e, hat, _⟩ := get_ok p src hbs split (k / 16) (8 * (k % 16)) 8 (by rw [show 128 * (k / 16) + 8 * (k % 16) = 8 * k by omega]; exact hp)
        (by omega) (by omega) (by omega) (hneed _ (by omega))
      refine ⟨p', ?_, ?_⟩
      · simp only [e, bind, Except.bind]
      · rw [show 8 * (k + 1) = 128 * (k / 16) + 8 * (k % 16) + 8 by omega]; exact hat)
  obtain ⟨st, e2, hi⟩ := forN_inv (rows * m) (fun _ st => packet4 st) (fun k (st : Nat × Pump × List Nat) =>
      st.2.1.At src split (128 * (G % 1024 + k)) ∧ st.2.2.length = 14 * k ∧ ∀ j v, st.2.2[j]? = some v → Q (G + j / 14) (j % 14) v)
    (0, p, []) ⟨by rw [show 128 * (G % 1024 + 0) = 8 * (16 * G % 0x4000) by omega]; exact hat, rfl, by intro j v h; simp at h⟩
    (fun k st hk hs => by
      obtain ⟨sh, p, out⟩ := st
      obtain ⟨hp, hol, hov⟩ := hs
      simp only at hp hol hov
      obtain ⟨sh', p', l, e, hll, hat, hlv⟩ := hQ (G / 1024) (G % 1024 + k) sh p out (by rw [← hsrc]; exact hneed _ (by omega)) (by rw [← hsrc]; exact hp)
      rw [← hsrc] at hat
      refine ⟨_, e, hat, by simp only [List.length_append, hol, hll]; omega, ?_⟩
      intro j v hj
      simp only at hj
      rcases Nat.lt_or_ge j out.length with h | h
      · rw [List.getElem?_append_left h] at hj; exact hov j v hj
      · rw [List.getElem?_append_right h] at hj
        have hjl := (List.getElem?_eq_some_iff.1 hj).1
        rw [hll, hol] at hjl
        rw [hol] at h hj
        have := hlv _ v hj
        rw [show j / 14 = k by omega, show j % 14 = j - 14 * k by omega]
        rwa [← Nat.add_assoc, Nat.div_add_mod'] at this)
  obtain ⟨sh, p', out⟩ := st
  obtain ⟨_, hol, hov⟩ := hi
  simp only at hol hov
  have hdiv : rows * (m * 14) / 14 = rows * m := by rw [← Nat.mul_assoc, Nat.mul_div_cancel _ (by omega)]
  refine ⟨out, ?_, ?_, hov⟩
  · rw [stripV4]
    rw [hskip, hB, from', if_pos hle, ← hsrc]
    simp only [bind, Except.bind]
    have e1' := e1
    simp only [bind, Except.bind] at e1'
    rw [e1']
    simp only
    rw [List.length_replicate, hdiv, e2]
    simp only [List.drop_replicate]
    rw [Nat.mul_assoc, Nat.sub_self, List.replicate_zero, List.append_nil]
  · rw [hol]; ring

theorem stripV4_ok (buf : List Nat) (hb : IsBytes buf) (split : Bool) (m row rows : Nat)
    (hl : ∀ g, g < m * row + rows * m → need split g ≤ buf.length) (hpos : 0 < rows * m) :
    ∃ o, stripV4 buf (m * 14) split (List.replicate (rows * (m * 14)) 0) row = .ok o ∧ o.length = rows * (m * 14) ∧
      ∀ j v, o[j]? = some v → Sample4 buf split (m * row + j / 14) (j % 14) v := by
  refine stripV4_gen buf hb split m row rows hl hpos (Sample4 buf split) ?_
  intro B g sh p out hn hp
  obtain ⟨sh', p', l, e, hll, hat, hlv⟩ := packet4_both _ (fun x hx => hb x (List.mem_of_mem_drop hx)) split g hn sh p hp out
  refine ⟨sh', p', l, e, hll, hat, fun j v hj hwh c hf hw => hlv j v hj ?_ c hf (by rw [packet_drop]; exact hw)⟩
  rcases hwh with h | h
  · exact .inl h
  · exact .inr (by omega)

/-- The whole image. -/
theorem decodeV4_gen (buf : List Nat) (hb : IsBytes buf) (split : Bool) (m h : Nat) (hm : 0 < m)
    (hl : ∀ g, g < m * h → need split g ≤ buf.length) (Q : Nat → Nat → Nat → Prop)
    (hQ : ∀ B g sh p out, need split g ≤ (buf.drop (B * 0x4000)).length → p.At (buf.drop (B * 0x4000)) split (128 * g) →
      ∃ sh' p' l, packet4 (sh, p, out) = .ok (sh', p', out ++ l) ∧ l.length = 14 ∧ p'.At (buf.drop (B * 0x4000)) split (128 * (g + 1)) ∧
        ∀ j v, l[j]? = some v → Q (B * 1024 + g) j v) :
    ∃ out, decodeV4 buf (m * 14) h split = .ok out ∧ out.length = m * 14 * h ∧ ∀ p v, out[p]? = some v → Q (p / 14) (p % 14) v := by
  have := chunkedFn_ok (m * 14) h (m * 14 * 5) (by omega) (fun piece strip => stripV4 buf (m * 14) split piece (strip * 5))
    (fun p v => Q (p / 14) (p % 14) v) ?_
  · exact this
  · intro i hi
    have hi' : i * 5 < h := by
      by_contra hge
      have := Nat.mul_le_mul_left (m * 14) (show h ≤ i * 5 by omega)
      have e : m * 14 * (i * 5) = i * (m * 14 * 5) := by ring
      omega
    have hmin : min (m * 14 * 5) (m * 14 * h - i * (m * 14 * 5)) = min 5 (h - i * 5) * (m * 14) := by
      have e : i * (m * 14 * 5) = m * 14 * (i * 5) := by ring
      rw [e, ← Nat.mul_sub, Nat.mul_min_mul_left, Nat.mul_comm]
    rw [hmin]
    have hr0 : 0 < min 5 (h - i * 5) := by omega
    obtain ⟨o, e, hol, hov⟩ := stripV4_gen buf hb split m (i * 5) (min 5 (h - i * 5)) (fun g hg => hl g (by
        have : m * (i * 5) + min 5 (h - i * 5) * m ≤ m * h := by
          rw [Nat.mul_comm _ m, ← Nat.mul_add]; exact Nat.mul_le_mul_left _ (by omega)
        omega)) (Nat.mul_pos hr0 hm) Q hQ
    refine ⟨o, e, hol, ?_⟩
    intro j v hj
    have := hov j v hj
    have e1 : i * (m * 14 * 5) + j = (m * (i * 5)) * 14 + j := by ring
    rw [e1, Nat.mul_comm (m * (i * 5)) 14, Nat.mul_add_mod, Nat.mul_add_div (by omega)]
    exact this

end Verif.Pana
