import Verif.Proofs.PumpJpeg
/-! # The pumps that read 32 bit pieces -/

namespace Verif.Pumps
open Verif Verif.Spec

theorem or8 (x b : Nat) (hx : x < 2 ^ 24) (hb : b < 256) : ((x <<< 8) % 2 ^ 32) ||| b = x * 256 + b := by
  have h1 : x <<< 8 < 2 ^ 32 := by rw [Nat.shiftLeft_eq]; omega
  rw [Nat.mod_eq_of_lt h1, ← Nat.shiftLeft_add_eq_or_of_lt (by simpa using hb), Nat.shiftLeft_eq]

theorem fold1 (a : Nat) (ha : a < 256) : foldBytes [a] = (a, 8) := by
  simp only [foldBytes, List.foldl_cons, List.foldl_nil]
  rw [or8 _ _ (by omega) ha]; simp

theorem fold2 (a b : Nat) (ha : a < 256) (hb : b < 256) : foldBytes [a, b] = (a * 256 + b, 16) := by
  simp only [foldBytes, List.foldl_cons, List.foldl_nil]
  rw [or8 _ _ (by omega) ha, or8 _ _ (by omega) hb]; simp

theorem fold3 (a b c : Nat) (ha : a < 256) (hb : b < 256) (hc : c < 256) : foldBytes [a, b, c] = ((a * 256 + b) * 256 + c, 24) := by
  simp only [foldBytes, List.foldl_cons, List.foldl_nil]
  rw [or8 _ _ (by omega) ha, or8 _ _ (by omega) hb, or8 _ _ (by omega) hc]; simp

theorem bits2 (a b : Nat) (hb : b < 256) : bitsMSB 16 (a * 256 + b) = bitsMSB 8 a ++ bitsMSB 8 b :=
  bitsMSB_append 8 8 a b (by simpa using hb)

theorem bits3 (a b c : Nat) (hb : b < 256) (hc : c < 256) :
    bitsMSB 24 ((a * 256 + b) * 256 + c) = bitsMSB 8 a ++ (bitsMSB 8 b ++ bitsMSB 8 c) := by
  have := bitsMSB_append 16 8 (a * 256 + b) c (by simpa using hc)
  rw [show (2 : Nat) ^ 8 = 256 from rfl] at this
  rw [this, bits2 a b hb, List.append_assoc]

theorem bits4 (a b c d : Nat) (hb : b < 256) (hc : c < 256) (hd : d < 256) :
    bitsMSB 32 (beU32 a b c d) = bitsMSB 8 a ++ (bitsMSB 8 b ++ (bitsMSB 8 c ++ bitsMSB 8 d)) := by
  have := bitsMSB_append 24 8 ((a * 256 + b) * 256 + c) d (by simpa using hd)
  rw [show (2 : Nat) ^ 8 = 256 from rfl] at this
  rw [beU32, this, bits3 a b c hb hc, List.append_assoc, List.append_assoc]

theorem refillBE_ok (rest : List Nat) (hb : IsBytes rest) (hne : rest ≠ []) : ∃ v cnt r, refillBE rest = .ok (v, cnt, r) ∧
    v < 2 ^ cnt ∧ cnt ≤ 32 ∧ IsBytes r ∧ bytesMSB rest = bitsMSB cnt v ++ bytesMSB r ∧ (cnt = 32 ∨ r = []) := by
  match rest, hb, hne with
  | [a], hb, _ =>
    have ha : a < 256 := hb a (by simp)
    refine ⟨a, 8, [], by rw [refillBE, fold1 a ha], by simpa using ha, by omega, by intro x hx; simp at hx, by simp, .inr rfl⟩
  | [a, b], hb, _ =>
    have ha : a < 256 := hb a (by simp)
    have hb' : b < 256 := hb b (by simp)
    refine ⟨a * 256 + b, 16, [], by rw [refillBE, fold2 a b ha hb'], by omega, by omega, by intro x hx; simp at hx, ?_, .inr rfl⟩
    rw [bits2 a b hb']; simp
  | [a, b, c], hb, _ =>
    have ha : a < 256 := hb a (by simp)
    have hb' : b < 256 := hb b (by simp)
    have hc : c < 256 := hb c (by simp)
    refine ⟨(a * 256 + b) * 256 + c, 24, [], by rw [refillBE, fold3 a b c ha hb' hc], by omega, by omega, by intro x hx; simp at hx, ?_, .inr rfl⟩
    rw [bits3 a b c hb' hc]; simp
  | a :: b :: c :: d :: r, hb, _ =>
    have ha : a < 256 := hb a (by simp)
    have hb' : b < 256 := hb b (by simp)
    have hc : c < 256 := hb c (by simp)
    have hd : d < 256 := hb d (by simp)
    refine ⟨beU32 a b c d, 32, r, rfl, by rw [beU32]; omega, by omega, fun x hx => hb x (by simp [hx]), ?_, .inl rfl⟩
    rw [bits4 a b c d hb' hc hd]; simp

theorem refillLE_ok (rest : List Nat) (hb : IsBytes rest) (hne : rest ≠ []) : ∃ v cnt r, refillLE rest = .ok (v, cnt, r) ∧
    v < 2 ^ cnt ∧ cnt ≤ 32 ∧ IsBytes r ∧ bytesMSB (swapWords rest) = bitsMSB cnt v ++ bytesMSB (swapWords r) ∧
    (cnt = 32 ∧ 4 + r.length = rest.length ∨ r = [] ∧ cnt = 8 * rest.length ∧ rest.length < 4) ∧ bytesMSB (rest.take 4).reverse = bitsMSB cnt v ∧ r = rest.drop 4 := by
  match rest, hb, hne with
  | [a], hb, _ =>
    have ha : a < 256 := hb a (by simp)
    refine ⟨a, 8, [], by rw [refillLE]; show Except.ok ((foldBytes [a]).1, _, _) = _; simp only [List.reverse_singleton]; rw [fold1 a ha], by simpa using ha, by omega, by intro x hx; simp at hx, by simp [swapWords], .inr (by simp), by simp, rfl⟩
  | [a, b], hb, _ =>
    have ha : a < 256 := hb a (by simp)
    have hb' : b < 256 := hb b (by simp)
    refine ⟨b * 256 + a, 16, [], ?_, by omega, by omega, by intro x hx; simp at hx, ?_, .inr (by simp), ?_, rfl⟩
    · rw [refillLE]; show Except.ok ((foldBytes [b, a]).1, (foldBytes [b, a]).2, _) = _; rw [fold2 b a hb' ha]
    · rw [bits2 b a ha]; simp [swapWords]
    · rw [bits2 b a ha]; simp
  | [a, b, c], hb, _ =>
    have ha : a < 256 := hb a (by simp)
    have hb' : b < 256 := hb b (by simp)
    have hc : c < 256 := hb c (by simp)
    refine ⟨(c * 256 + b) * 256 + a, 24, [], ?_, by omega, by omega, by intro x hx; simp at hx, ?_, .inr (by simp), ?_, rfl⟩
    · rw [refillLE]; show Except.ok ((foldBytes [c, b, a]).1, (foldBytes [c, b, a]).2, _) = _; rw [fold3 c b a hc hb' ha]
    · rw [bits3 c b a hb' ha]; simp [swapWords]
    · rw [bits3 c b a hb' ha]; simp
  | a :: b :: c :: d :: r, hb, _ =>
    have ha : a < 256 := hb a (by simp)
    have hb' : b < 256 := hb b (by simp)
    have hc : c < 256 := hb c (by simp)
    have hd : d < 256 := hb d (by simp)
    refine ⟨beU32 d c b a, 32, r, rfl, by rw [beU32]; omega, by omega, fun x hx => hb x (by simp [hx]), ?_, .inl ⟨rfl, by simp; omega⟩, ?_, rfl⟩
    · rw [bits4 d c b a hc hb' ha, swapWords]; simp
    · rw [bits4 d c b a hc hb' ha]; simp

/-- the top `n` of `nbits` buffered bits -/
theorem topBits_ok (bits nbits n : Nat) (hlt : bits < 2 ^ nbits) (hn : n ≤ nbits) (h64 : nbits < 64) (h32 : n ≤ 32) :
    topBits bits nbits n = .ok (natMSB ((bitsMSB nbits bits).take n)) := by
  have hq : bits >>> (nbits - n) < 2 ^ n := by
    rw [Nat.shiftRight_eq_div_pow]
    apply Nat.div_lt_of_lt_mul
    rw [← Nat.pow_add, show nbits - n + n = nbits by omega]; exact hlt
  have hq2 : bits >>> (nbits - n) < 2 ^ 32 := Nat.lt_of_lt_of_le hq (Nat.pow_le_pow_right (by omega) h32)
  rw [topBits, if_pos ⟨hn, by omega⟩, Nat.mod_eq_of_lt hq2, take_bitsMSB _ _ _ hn, natMSB_bitsMSB,
    ← Nat.shiftRight_eq_div_pow, Nat.mod_eq_of_lt hq]

namespace PumpMSB

/-- `p` will deliver exactly `l`. -/
def Rep (p : PumpMSB) (l : List Bool) : Prop :=
  p.nbits < 64 ∧ p.bits < 2 ^ p.nbits ∧ IsBytes p.rest ∧ l = bitsMSB p.nbits p.bits ++ bytesMSB p.rest

theorem rep_new (src : List Nat) (hb : IsBytes src) : (PumpMSB.new src).Rep (bytesMSB src) :=
  ⟨by simp [PumpMSB.new], by simp [PumpMSB.new], hb, by simp [PumpMSB.new, bitsMSB]⟩

theorem fill_ok (p : PumpMSB) (l : List Bool) (n : Nat) (h : p.Rep l) (h32 : n ≤ 32) (hn : n ≤ l.length) :
    ∃ p', p.fill n = .ok p' ∧ p'.Rep l ∧ n ≤ p'.nbits := by
  obtain ⟨h64, hlt, hb, rfl⟩ := h
  rw [PumpMSB.fill]
  by_cases hc : n > p.nbits
  · rw [if_pos hc]
    have hne : p.rest ≠ [] := by
      rintro h
      rw [h] at hn
      simp at hn; omega
    obtain ⟨v, cnt, r, e, hv, hcnt, hr, hbits, hlast⟩ := refillBE_ok p.rest hb hne
    rw [e]
    simp only [bind, Except.bind]
    have es := shl_or p.bits cnt v p.nbits hlt hv (by omega)
    refine ⟨_, rfl, ⟨by simp only; omega, ?_, hr, ?_⟩, ?_⟩
    · simp only; rw [es]; exact mul_add_lt_pow _ _ _ _ hlt hv
    · simp only; rw [es, bitsMSB_append _ _ _ _ hv, hbits, List.append_assoc]
    · simp only
      rcases hlast with rfl | rfl
      · omega
      · rw [hbits] at hn; simpa using hn
  · rw [if_neg hc]; exact ⟨p, rfl, ⟨h64, hlt, hb, rfl⟩, by omega⟩

theorem lawful : Lawful PumpMSB Rep nbits (fun l n => n ≤ l.length) where
  peek_ok p l n h h32 hn := by
    obtain ⟨p', e, r, a⟩ := fill_ok p l n h h32 hn
    refine ⟨p', ?_, r, a⟩
    obtain ⟨h64, hlt, hb, rfl⟩ := r
    show PumpMSB.peek p n = _
    rw [PumpMSB.peek, e]
    simp only [bind, Except.bind]
    rw [topBits_ok _ _ _ hlt a h64 h32, takeZ_of_le hn, List.take_append_of_le_length (by simpa using a)]
  consume_ok p l n h hn := by
    obtain ⟨h64, hlt, hb, rfl⟩ := h
    refine ⟨{ p with bits := p.bits % 2 ^ (p.nbits - n), nbits := p.nbits - n }, ?_, ⟨?_, ?_, hb, ?_⟩, rfl⟩
    · show PumpMSB.consume p n = _
      simp [PumpMSB.consume, consumeMSB_ok _ _ _ hn h64, bind, Except.bind]
    · simp only; omega
    · exact Nat.mod_lt _ (Nat.two_pow_pos _)
    · simp only
      rw [List.drop_append_of_le_length (by simpa using hn), drop_bitsMSB _ _ _ hn, bitsMSB_mod]

end PumpMSB

namespace PumpMSB32

/-- `p` will deliver exactly `l`; the unread bytes are whole words, or nothing is buffered. -/
def Rep (p : PumpMSB32) (l : List Bool) : Prop :=
  p.nbits < 64 ∧ p.bits < 2 ^ p.nbits ∧ IsBytes p.rest ∧ p.rest.length % 4 = 0 ∧
    l = bitsMSB p.nbits p.bits ++ bytesMSB (swapWords p.rest)

theorem rep_new (src : List Nat) (hb : IsBytes src) (h4 : src.length % 4 = 0) : (PumpMSB32.new src).Rep (bytesMSB (swapWords src)) :=
  ⟨by simp [PumpMSB32.new], by simp [PumpMSB32.new], hb, h4, by simp [PumpMSB32.new, bitsMSB]⟩

theorem fill_ok (p : PumpMSB32) (l : List Bool) (n : Nat) (h : p.Rep l) (h32 : n ≤ 32) (hn : n ≤ l.length) :
    ∃ p', p.fill n = .ok p' ∧ p'.Rep l ∧ n ≤ p'.nbits ∧ p'.pos + p'.rest.length = p.pos + p.rest.length := by
  obtain ⟨h64, hlt, hb, h4, rfl⟩ := h
  rw [PumpMSB32.fill]
  by_cases hc : n > p.nbits
  · rw [if_pos hc]
    have hne : p.rest ≠ [] := by
      rintro h
      rw [h] at hn
      simp [swapWords] at hn; omega
    obtain ⟨v, cnt, r, e, hv, hcnt, hr, hbits, hlast, _⟩ := refillLE_ok p.rest hb hne
    have hlast : cnt = 32 ∧ 4 + r.length = p.rest.length := by
      rcases hlast with h | ⟨_, _, h2⟩
      · exact h
      · have : p.rest.length ≠ 0 := fun h => hne (List.eq_nil_of_length_eq_zero h)
        omega
    obtain ⟨rfl, hlen⟩ := hlast
    rw [e]
    simp only [bind, Except.bind]
    have es := shl_or p.bits 32 v p.nbits hlt hv (by omega)
    refine ⟨_, rfl, ⟨by simp only; omega, ?_, hr, by simp only; omega, ?_⟩, by simp only; omega, by simp only; omega⟩
    · simp only; rw [es]; exact mul_add_lt_pow _ _ _ _ hlt hv
    · simp only; rw [es, bitsMSB_append _ _ _ _ hv, hbits, List.append_assoc]
  · rw [if_neg hc]; exact ⟨p, rfl, ⟨h64, hlt, hb, h4, rfl⟩, by omega, rfl⟩

/-- also, `L` bytes are accounted for -/
theorem lawful (L : Nat) : Lawful PumpMSB32 (fun p l => p.Rep l ∧ p.pos + p.rest.length = L) nbits (fun l n => n ≤ l.length) where
  peek_ok p l n h h32 hn := by
    obtain ⟨p', e, r, a, hp⟩ := fill_ok p l n h.1 h32 hn
    refine ⟨p', ?_, ⟨r, by rw [hp, h.2]⟩, a⟩
    obtain ⟨h64, hlt, hb, h4, rfl⟩ := r
    show PumpMSB32.peek p n = _
    rw [PumpMSB32.peek, e]
    simp only [bind, Except.bind]
    rw [topBits_ok _ _ _ hlt a h64 h32, takeZ_of_le hn, List.take_append_of_le_length (by simpa using a)]
  consume_ok p l n h hn := by
    obtain ⟨⟨h64, hlt, hb, h4, rfl⟩, hL⟩ := h
    refine ⟨{ p with bits := p.bits % 2 ^ (p.nbits - n), nbits := p.nbits - n }, ?_, ⟨⟨?_, ?_, hb, h4, ?_⟩, hL⟩, rfl⟩
    · show PumpMSB32.consume p n = _
      simp [PumpMSB32.consume, consumeMSB_ok _ _ _ hn h64, bind, Except.bind]
    · simp only; omega
    · exact Nat.mod_lt _ (Nat.two_pow_pos _)
    · simp only
      rw [List.drop_append_of_le_length (by simpa using hn), drop_bitsMSB _ _ _ hn, bitsMSB_mod]

end PumpMSB32

/-! ## least significant bit first -/

@[simp] theorem length_bitsLSB (n v : Nat) : (bitsLSB n v).length = n := by simp [bitsLSB]

theorem natLSB_append (l m : List Bool) : natLSB (l ++ m) = natLSB l + 2 ^ l.length * natLSB m := by
  induction l with
  | nil => simp [natLSB]
  | cons b l ih =>
    rw [List.cons_append, natLSB, natLSB, ih, List.length_cons, Nat.pow_succ]
    generalize 2 ^ l.length = x
    rw [Nat.mul_add, Nat.add_assoc, Nat.mul_comm x 2, Nat.mul_assoc]

theorem natLSB_bitsLSB (n v : Nat) : natLSB (bitsLSB n v) = v % 2 ^ n := by
  induction n with
  | zero => simp [bitsLSB, natLSB, Nat.mod_one]
  | succ n ih =>
    have : bitsLSB (n + 1) v = bitsLSB n v ++ [v.testBit n] := by simp [bitsLSB, List.range_succ]
    rw [this, natLSB_append, ih, length_bitsLSB, Nat.mod_pow_succ, Nat.testBit_eq_decide_div_mod_eq]
    rcases Nat.mod_two_eq_zero_or_one (v / 2 ^ n) with h | h <;> simp [natLSB, h]

theorem bitsLSB_add (m n v : Nat) : bitsLSB (m + n) v = bitsLSB m v ++ bitsLSB n (v / 2 ^ m) := by
  rw [bitsLSB, List.range_add, List.map_append, bitsLSB, bitsLSB, List.map_map]
  congr 1
  apply List.map_congr_left
  intro i _
  simp only [Function.comp_apply]
  rw [← Nat.shiftRight_eq_div_pow, Nat.testBit_shiftRight]

theorem bitsLSB_mod (n v : Nat) : bitsLSB n (v % 2 ^ n) = bitsLSB n v := by
  simp only [bitsLSB]
  apply List.map_congr_left
  intro i hi
  rw [List.mem_range] at hi
  rw [Nat.testBit_mod_two_pow]; simp [hi]

theorem bitsLSB_append (m n a b : Nat) (h : b < 2 ^ m) : bitsLSB (m + n) (a * 2 ^ m + b) = bitsLSB m b ++ bitsLSB n a := by
  rw [bitsLSB_add]
  congr 1
  · rw [← bitsLSB_mod, Nat.mul_comm, Nat.mul_add_mod, Nat.mod_eq_of_lt h]
  · rw [Nat.mul_comm, Nat.mul_add_div (Nat.two_pow_pos m), Nat.div_eq_of_lt h, Nat.add_zero]

theorem take_bitsLSB (n k v : Nat) (h : k ≤ n) : (bitsLSB n v).take k = bitsLSB k v := by
  obtain ⟨j, rfl⟩ : ∃ j, n = k + j := ⟨n - k, by omega⟩
  rw [bitsLSB_add, List.take_left' (by simp)]

theorem drop_bitsLSB (n k v : Nat) (h : k ≤ n) : (bitsLSB n v).drop k = bitsLSB (n - k) (v / 2 ^ k) := by
  obtain ⟨j, rfl⟩ : ∃ j, n = k + j := ⟨n - k, by omega⟩
  rw [bitsLSB_add, List.drop_left' (by simp), show k + j - k = j by omega]

theorem bytesLSB_cons (b : Nat) (l : List Nat) : bytesLSB (b :: l) = bitsLSB 8 b ++ bytesLSB l := rfl

theorem lbits2 (a b : Nat) (ha : a < 256) : bitsLSB 16 (b * 256 + a) = bitsLSB 8 a ++ bitsLSB 8 b :=
  bitsLSB_append 8 8 b a (by simpa using ha)

theorem lbits3 (a b c : Nat) (ha : a < 256) (hb : b < 256) :
    bitsLSB 24 ((c * 256 + b) * 256 + a) = bitsLSB 8 a ++ (bitsLSB 8 b ++ bitsLSB 8 c) := by
  have := bitsLSB_append 8 16 (c * 256 + b) a (by simpa using ha)
  rw [show (2 : Nat) ^ 8 = 256 from rfl] at this
  rw [this, lbits2 b c hb]

theorem lbits4 (a b c d : Nat) (ha : a < 256) (hb : b < 256) (hc : c < 256) :
    bitsLSB 32 (beU32 d c b a) = bitsLSB 8 a ++ (bitsLSB 8 b ++ (bitsLSB 8 c ++ bitsLSB 8 d)) := by
  have := bitsLSB_append 8 24 ((d * 256 + c) * 256 + b) a (by simpa using ha)
  rw [show (2 : Nat) ^ 8 = 256 from rfl] at this
  rw [beU32, this, lbits3 b c d hb hc]

theorem refillLE_lsb (rest : List Nat) (hb : IsBytes rest) (hne : rest ≠ []) : ∃ v cnt r, refillLE rest = .ok (v, cnt, r) ∧
    v < 2 ^ cnt ∧ cnt ≤ 32 ∧ IsBytes r ∧ bytesLSB rest = bitsLSB cnt v ++ bytesLSB r ∧ (cnt = 32 ∨ r = []) := by
  match rest, hb, hne with
  | [a], hb, _ =>
    have ha : a < 256 := hb a (by simp)
    refine ⟨a, 8, [], ?_, by simpa using ha, by omega, by intro x hx; simp at hx, by simp [bytesLSB], .inr rfl⟩
    rw [refillLE]; show Except.ok ((foldBytes [a]).1, _, _) = _; simp only [List.reverse_singleton]; rw [fold1 a ha]
  | [a, b], hb, _ =>
    have ha : a < 256 := hb a (by simp)
    have hb' : b < 256 := hb b (by simp)
    refine ⟨b * 256 + a, 16, [], ?_, by omega, by omega, by intro x hx; simp at hx, ?_, .inr rfl⟩
    · rw [refillLE]; show Except.ok ((foldBytes [b, a]).1, (foldBytes [b, a]).2, _) = _; rw [fold2 b a hb' ha]
    · rw [lbits2 a b ha]; simp [bytesLSB]
  | [a, b, c], hb, _ =>
    have ha : a < 256 := hb a (by simp)
    have hb' : b < 256 := hb b (by simp)
    have hc : c < 256 := hb c (by simp)
    refine ⟨(c * 256 + b) * 256 + a, 24, [], ?_, by omega, by omega, by intro x hx; simp at hx, ?_, .inr rfl⟩
    · rw [refillLE]; show Except.ok ((foldBytes [c, b, a]).1, (foldBytes [c, b, a]).2, _) = _; rw [fold3 c b a hc hb' ha]
    · rw [lbits3 a b c ha hb']; simp [bytesLSB]
  | a :: b :: c :: d :: r, hb, _ =>
    have ha : a < 256 := hb a (by simp)
    have hb' : b < 256 := hb b (by simp)
    have hc : c < 256 := hb c (by simp)
    have hd : d < 256 := hb d (by simp)
    refine ⟨beU32 d c b a, 32, r, rfl, by rw [beU32]; omega, by omega, fun x hx => hb x (by simp [hx]), ?_, .inl rfl⟩
    rw [lbits4 a b c d ha hb' hc]; simp [bytesLSB]

namespace PumpLSB

/-- `p` will deliver exactly `l`. -/
def Rep (p : PumpLSB) (l : List Bool) : Prop :=
  p.nbits < 64 ∧ p.bits < 2 ^ p.nbits ∧ IsBytes p.rest ∧ l = bitsLSB p.nbits p.bits ++ bytesLSB p.rest

theorem rep_new (src : List Nat) (hb : IsBytes src) : (PumpLSB.new src).Rep (bytesLSB src) :=
  ⟨by simp [PumpLSB.new], by simp [PumpLSB.new], hb, by simp [PumpLSB.new, bitsLSB]⟩

theorem merge_eq (v bits nbits : Nat) (hlt : bits < 2 ^ nbits) (hn : nbits ≤ 32) :
    (v <<< 32 ||| (bits <<< (32 - nbits)) % 2 ^ 64) >>> (32 - nbits) = v * 2 ^ nbits + bits := by
  have h1 : bits * 2 ^ (32 - nbits) < 2 ^ 32 := by
    have := (Nat.mul_lt_mul_right (Nat.two_pow_pos (32 - nbits))).mpr hlt
    rw [← Nat.pow_add, show nbits + (32 - nbits) = 32 by omega] at this
    exact this
  have h2 : bits <<< (32 - nbits) < 2 ^ 32 := by rw [Nat.shiftLeft_eq]; exact h1
  rw [Nat.mod_eq_of_lt (Nat.lt_trans h2 (by decide)), ← Nat.shiftLeft_add_eq_or_of_lt h2, Nat.shiftLeft_eq, Nat.shiftLeft_eq,
    Nat.shiftRight_eq_div_pow]
  have h3 : (2 : Nat) ^ 32 = 2 ^ nbits * 2 ^ (32 - nbits) := by rw [← Nat.pow_add, show nbits + (32 - nbits) = 32 by omega]
  conv => lhs; rw [h3]
  rw [← Nat.mul_assoc, ← Nat.add_mul, Nat.mul_div_cancel _ (Nat.two_pow_pos _)]

theorem fill_ok (p : PumpLSB) (l : List Bool) (n : Nat) (h : p.Rep l) (h32 : n ≤ 32) (hn : n ≤ l.length) :
    ∃ p', p.fill n = .ok p' ∧ p'.Rep l ∧ n ≤ p'.nbits := by
  obtain ⟨h64, hlt, hb, rfl⟩ := h
  rw [PumpLSB.fill]
  by_cases hc : n > p.nbits
  · rw [if_pos hc]
    have hne : p.rest ≠ [] := by
      rintro h
      rw [h] at hn
      simp [bytesLSB] at hn; omega
    obtain ⟨v, cnt, r, e, hv, hcnt, hr, hbits, hlast⟩ := refillLE_lsb p.rest hb hne
    rw [e]
    simp only [bind, Except.bind]
    rw [usub, if_pos (by omega)]
    simp only
    have es := merge_eq v p.bits p.nbits hlt (by omega)
    refine ⟨_, rfl, ⟨by simp only; omega, ?_, hr, ?_⟩, ?_⟩
    · simp only; rw [es, Nat.add_comm p.nbits cnt]; exact mul_add_lt_pow _ _ _ _ hv hlt
    · simp only; rw [es, bitsLSB_append _ _ _ _ hlt, hbits, List.append_assoc]
    · simp only
      rcases hlast with rfl | rfl
      · omega
      · rw [hbits] at hn; simpa [bytesLSB] using hn
  · rw [if_neg hc]; exact ⟨p, rfl, ⟨h64, hlt, hb, rfl⟩, by omega⟩

theorem peek_ok (p : PumpLSB) (l : List Bool) (n : Nat) (h : p.Rep l) (h32 : n ≤ 32) (hn : n ≤ l.length) :
    ∃ p', p.peek n = .ok (natLSB (l.take n), p') ∧ p'.Rep l ∧ n ≤ p'.nbits := by
  obtain ⟨p', e, r, a⟩ := fill_ok p l n h h32 hn
  refine ⟨p', ?_, r, a⟩
  obtain ⟨h64, hlt, hb, rfl⟩ := r
  rw [PumpLSB.peek, e]
  simp only [bind, Except.bind]
  rw [usub, if_pos h32]
  simp only
  have hm : 0xffffffff >>> (32 - n) = 2 ^ n - 1 := by
    rw [Nat.shiftRight_eq_div_pow]
    have h3 : (2 : Nat) ^ 32 = 2 ^ n * 2 ^ (32 - n) := by rw [← Nat.pow_add, show n + (32 - n) = 32 by omega]
    have h4 : (0xffffffff : Nat) = (2 ^ n - 1) * 2 ^ (32 - n) + (2 ^ (32 - n) - 1) := by
      have h5 : (2 ^ n - 1) * 2 ^ (32 - n) = 2 ^ 32 - 2 ^ (32 - n) := by rw [Nat.sub_mul, ← h3, Nat.one_mul]
      have h6 : 0 < 2 ^ (32 - n) := Nat.two_pow_pos _
      have h7 : 2 ^ (32 - n) ≤ 2 ^ 32 := Nat.pow_le_pow_right (by omega) (by omega)
      rw [h5]; omega
    rw [h4, Nat.mul_comm, Nat.mul_add_div (Nat.two_pow_pos _), Nat.div_eq_of_lt (by
      have := Nat.two_pow_pos (32 - n); omega), Nat.add_zero]
  rw [hm, Nat.and_two_pow_sub_one_eq_mod, List.take_append_of_le_length (by simpa using a), take_bitsLSB _ _ _ a, natLSB_bitsLSB]

theorem consume_ok (p : PumpLSB) (l : List Bool) (n : Nat) (h : p.Rep l) (hn : n ≤ p.nbits) :
    ∃ p', p.consume n = .ok p' ∧ p'.Rep (l.drop n) ∧ p'.nbits = p.nbits - n := by
  obtain ⟨h64, hlt, hb, rfl⟩ := h
  refine ⟨{ p with bits := p.bits >>> n, nbits := p.nbits - n }, ?_, ⟨?_, ?_, hb, ?_⟩, rfl⟩
  · rw [PumpLSB.consume, usub, if_pos hn]
    simp only [bind, Except.bind]
    rw [if_pos (by omega)]
  · simp only; omega
  · simp only
    rw [Nat.shiftRight_eq_div_pow]
    apply Nat.div_lt_of_lt_mul
    rw [← Nat.pow_add, show n + (p.nbits - n) = p.nbits by omega]; exact hlt
  · simp only
    rw [List.drop_append_of_le_length (by simpa using hn), drop_bitsLSB _ _ _ hn, Nat.shiftRight_eq_div_pow]

end PumpLSB
end Verif.Pumps
