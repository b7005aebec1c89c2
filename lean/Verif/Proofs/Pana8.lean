import Verif.Model.Pana8
import Verif.Spec.Pana8
import Verif.Proofs.BitRun
import Verif.Proofs.HuffShift
import Verif.Proofs.Pana6
import Verif.Proofs.Orf
import Verif.Proofs.Grid
/-! Lemmas on Panasonic raw format 8. -/

namespace Verif.Pana8
open Verif Verif.Pumps Verif.Spec Verif.Spec.Pef Verif.Spec.Pana8
open Verif.Orf (ok_bind)

/-! ## The bit reader -/

theorem rev8_eq (b : Nat) : rev8 b = natMSB (bitsLSB 8 b) := by
  rw [rev8, natMSB, bitsLSB, List.foldl_map]

theorem rev8_lt (b : Nat) : rev8 b < 256 := by
  rw [rev8_eq]
  have := natMSB_lt (bitsLSB 8 b)
  rwa [length_bitsLSB] at this

theorem rev8_bits (b : Nat) : bitsMSB 8 (rev8 b) = bitsLSB 8 b := by
  have := bitsMSB_natMSB (bitsLSB 8 b)
  rwa [length_bitsLSB, ← rev8_eq] at this

/-- `p` will deliver exactly `l`: bytes at the end that do not make four are lost. -/
def PumpRev.Rep (p : PumpRev) (l : List Bool) : Prop :=
  p.nbits < 64 ∧ p.bits < 2 ^ p.nbits ∧ l = bitsMSB p.nbits p.bits ++ bytesLSB (p.rest.take (p.rest.length / 4 * 4))

theorem PumpRev.rep_new (src : List Nat) : (PumpRev.new src).Rep (bytesLSB (src.take (src.length / 4 * 4))) :=
  ⟨by simp [PumpRev.new], by simp [PumpRev.new], by simp [PumpRev.new, bitsMSB]⟩

theorem PumpRev.fill_ok (p : PumpRev) (l : List Bool) (n : Nat) (h : p.Rep l) (h32 : n ≤ 32) (hn : n ≤ l.length) :
    ∃ p', p.fill n = .ok p' ∧ p'.Rep l ∧ n ≤ p'.nbits := by
  obtain ⟨h64, hlt, rfl⟩ := h
  rw [PumpRev.fill]
  by_cases hc : n > p.nbits
  · rw [if_pos hc]
    match hr : p.rest with
    | a :: b :: c :: d :: r =>
      simp only []
      have hv : beU32 (rev8 a) (rev8 b) (rev8 c) (rev8 d) < 2 ^ 32 := by
        have := rev8_lt a; have := rev8_lt b; have := rev8_lt c; have := rev8_lt d
        rw [beU32]; omega
      have es := shl_or p.bits 32 _ p.nbits hlt hv (by omega)
      refine ⟨_, rfl, ⟨by simp only; omega, ?_, ?_⟩, by simp only; omega⟩
      · simp only; rw [es]; exact mul_add_lt_pow _ _ _ _ hlt hv
      · simp only
        rw [es, bitsMSB_append _ _ _ _ hv, bits4 _ _ _ _ (rev8_lt b) (rev8_lt c) (rev8_lt d), rev8_bits, rev8_bits, rev8_bits, rev8_bits]
        have : (a :: b :: c :: d :: r).length / 4 * 4 = r.length / 4 * 4 + 1 + 1 + 1 + 1 := by simp only [List.length_cons]; omega
        rw [this, List.take_succ_cons, List.take_succ_cons, List.take_succ_cons, List.take_succ_cons, bytesLSB_cons, bytesLSB_cons, bytesLSB_cons,
          bytesLSB_cons]
        simp only [List.append_assoc]
    | [] => rw [hr] at hn; simp [bytesLSB] at hn; omega
    | [_] => rw [hr] at hn; simp [bytesLSB] at hn; omega
    | [_, _] => rw [hr] at hn; simp [bytesLSB] at hn; omega
    | [_, _, _] => rw [hr] at hn; simp [bytesLSB] at hn; omega
  · rw [if_neg hc]; exact ⟨p, rfl, ⟨h64, hlt, rfl⟩, by omega⟩

theorem PumpRev.lawful : Lawful PumpRev PumpRev.Rep PumpRev.nbits (fun l n => n ≤ l.length) where
  peek_ok p l n h h32 hn := by
    obtain ⟨p', e, r, a⟩ := PumpRev.fill_ok p l n h h32 hn
    refine ⟨p', ?_, r, a⟩
    obtain ⟨h64, hlt, rfl⟩ := r
    show PumpRev.peek p n = _
    rw [PumpRev.peek, e]
    simp only [bind, Except.bind]
    rw [topBits_ok _ _ _ hlt a h64 h32, takeZ_of_le hn, List.take_append_of_le_length (by simpa using a)]
  consume_ok p l n h hn := by
    obtain ⟨h64, hlt, rfl⟩ := h
    refine ⟨{ p with bits := p.bits % 2 ^ (p.nbits - n), nbits := p.nbits - n }, ?_, ⟨?_, ?_, ?_⟩, rfl⟩
    · show PumpRev.consume p n = _
      simp [PumpRev.consume, consumeMSB_ok _ _ _ hn h64, bind, Except.bind]
    · simp only; omega
    · exact Nat.mod_lt _ (Nat.two_pow_pos _)
    · simp only
      rw [List.drop_append_of_le_length (by simpa using hn), drop_bitsMSB _ _ _ hn, bitsMSB_mod]

/-! ## The words -/

theorem mask_eq (x s : Nat) (hx : x < 65536) : x &&& ((0xFFFF <<< s) % 65536) = x / 2 ^ s * 2 ^ s := by
  apply Nat.eq_of_testBit_eq
  intro i
  rw [Nat.testBit_and, show (65536 : Nat) = 2 ^ 16 from rfl, Nat.testBit_mod_two_pow, Nat.testBit_shiftLeft, show (0xFFFF : Nat) = 2 ^ 16 - 1 from rfl,
    Nat.testBit_two_pow_sub_one, Nat.testBit_mul_two_pow, Nat.testBit_div_two_pow]
  by_cases hi : i < 16
  · by_cases hs : s ≤ i
    · rw [show i - s + s = i by omega]
      simp [hi, hs, show i - s < 16 by omega]
    · simp [hs]
  · have : x.testBit i = false := Nat.testBit_lt_two_pow (Nat.lt_of_lt_of_le hx (by
      rw [show (65536 : Nat) = 2 ^ 16 from rfl]; exact Nat.pow_le_pow_right (by omega) (by omega)))
    by_cases hs : s ≤ i
    · rw [show i - s + s = i by omega]; simp [this]
    · simp [this, hs]

theorem hsym_ok (a : Nat × Nat) (h1 : 1 ≤ a.1) (h2 : a.1 ≤ 16) (h3 : a.2 < 2 ^ a.1) :
    hsym a = .ok (a.1, (a.2 <<< (16 - a.1)) % 65536, (0xFFFF <<< (16 - a.1)) % 65536) := by
  have hm : 0xFFFF >>> (16 - a.1) = 2 ^ a.1 - 1 := by
    obtain ⟨n, v⟩ := a
    simp only at h1 h2 ⊢
    have : ∀ k : Fin 17, 0xFFFF >>> (16 - k.val) = 2 ^ k.val - 1 := by decide
    exact this ⟨n, by omega⟩
  rw [hsym, Nat.mod_eq_of_lt (show a.1 < 256 by omega), usub, if_pos h2, ok_bind, assert', if_pos (by simpa using (show 16 - a.1 < 16 by omega)), ok_bind, hm,
    Nat.and_two_pow_sub_one_eq_mod, Nat.mod_eq_of_lt h3, assert', if_pos (by simp), ok_bind]

/-- The entries for words. -/
def symsOf (ws : Words) : List (Nat × Nat × Nat) :=
  ws.map (fun a => (a.1, (a.2 <<< (16 - a.1)) % 65536, (0xFFFF <<< (16 - a.1)) % 65536)) ++ List.replicate (17 - ws.length) (0, 0, 0)

theorem huffNew_ok (ws : Words) (h : Usable ws) : huffNew ws = .ok (symsOf ws) := by
  rw [huffNew, Verif.mapM_ok_of hsym (fun a => (a.1, (a.2 <<< (16 - a.1)) % 65536, (0xFFFF <<< (16 - a.1)) % 65536)) ws
    (fun a ha => hsym_ok a (h.2.1 a ha).1 (h.2.1 a ha).2.1 (h.2.1 a ha).2.2), ok_bind, assert', if_pos (by simpa using h.1), ok_bind, List.length_map]
  rfl

theorem symsOf_get (ws : Words) (k : Nat) (hk : k < ws.length) : (symsOf ws).getD k (0, 0, 0) =
    ((ws.getD k (0, 0)).1, ((ws.getD k (0, 0)).2 <<< (16 - (ws.getD k (0, 0)).1)) % 65536, (0xFFFF <<< (16 - (ws.getD k (0, 0)).1)) % 65536) := by
  rw [symsOf, List.getD_eq_getElem?_getD, List.getElem?_append_left (by simpa using hk), List.getElem?_map, List.getD_eq_getElem?_getD,
    List.getElem?_eq_getElem hk]
  rfl

/-- An entry fits exactly when the bits begin with its word. -/
theorem match_iff (ws : Words) (h : Usable ws) (k : Nat) (hk : k < ws.length) (l : List Bool) (hl : 16 ≤ l.length) :
    (natMSB (l.take 16) &&& ((symsOf ws).getD k (0, 0, 0)).2.2 = ((symsOf ws).getD k (0, 0, 0)).2.1) ↔
      bitsMSB (ws.getD k (0, 0)).1 (ws.getD k (0, 0)).2 <+: l := by
  have hm : ws.getD k (0, 0) ∈ ws := by
    rw [List.getD_eq_getElem?_getD, List.getElem?_eq_getElem hk]; exact List.getElem_mem _
  obtain ⟨h1, h2, h3⟩ := h.2.1 _ hm
  rw [symsOf_get ws k hk]
  generalize ws.getD k (0, 0) = a at *
  obtain ⟨n, v⟩ := a
  simp only at h1 h2 h3 ⊢
  have hx : natMSB (l.take 16) < 65536 := by
    have := natMSB_lt (l.take 16)
    rwa [List.length_take, Nat.min_eq_left hl] at this
  have hv : v <<< (16 - n) % 65536 = v * 2 ^ (16 - n) := by
    rw [Nat.shiftLeft_eq, Nat.mod_eq_of_lt]
    calc v * 2 ^ (16 - n) < 2 ^ n * 2 ^ (16 - n) := Nat.mul_lt_mul_of_pos_right h3 (Nat.two_pow_pos _)
      _ = 65536 := by rw [← Nat.pow_add, show n + (16 - n) = 16 by omega]
  have hsplit : l.take 16 = l.take n ++ (l.drop n).take (16 - n) := by
    rw [← List.take_add, show n + (16 - n) = 16 by omega]
  have hlen : ((l.drop n).take (16 - n)).length = 16 - n := by rw [List.length_take, List.length_drop]; omega
  have hdiv : natMSB (l.take 16) / 2 ^ (16 - n) = natMSB (l.take n) := by
    have := natMSB_lt ((l.drop n).take (16 - n))
    rw [hlen] at this
    rw [hsplit, natMSB_append, hlen, Nat.mul_comm, Nat.mul_add_div (Nat.two_pow_pos _), Nat.div_eq_of_lt this, Nat.add_zero]
  rw [mask_eq _ _ hx, hv, hdiv]
  have hnl : (l.take n).length = n := by rw [List.length_take]; omega
  constructor
  · intro e
    have e := Nat.eq_of_mul_eq_mul_right (Nat.two_pow_pos _) e
    have : bitsMSB n v = l.take n := by rw [← e]; have := bitsMSB_natMSB (l.take n); rwa [hnl] at this
    rw [this]; exact List.take_prefix _ _
  · rintro ⟨t, rfl⟩
    rw [List.take_left' (by simp), natMSB_bitsMSB, Nat.mod_eq_of_lt h3]

theorem lookup_ok (ws : Words) (h : Usable ws) (k : Nat) (hk : k < ws.length) (l : List Bool) (hl : 16 ≤ l.length)
    (hp : bitsMSB (ws.getD k (0, 0)).1 (ws.getD k (0, 0)).2 <+: l) : lookup (symsOf ws) (natMSB (l.take 16)) = some k := by
  have h17 := h.1
  rw [lookup, List.find?_eq_some_iff_append]
  refine ⟨by simpa using (match_iff ws h k hk l hl).mpr hp, List.range k, (List.range (17 - k - 1)).map (· + (k + 1)), ?_, ?_⟩
  · have e : (17 : Nat) = k + (1 + (17 - k - 1)) := by omega
    rw [e, List.range_add, List.range_add]
    simp only [List.map_append, List.map_map, List.range_one, List.map_cons, List.map_nil, Nat.add_zero, List.singleton_append,
      show k + (1 + (17 - k - 1)) - k - 1 = 17 - k - 1 by omega]
    congr 2
    apply List.map_congr_left
    intro a _
    simp only [Function.comp]; omega
  · intro i hi
    have hi := List.mem_range.mp hi
    by_contra hc
    have hc : natMSB (l.take 16) &&& ((symsOf ws).getD i (0, 0, 0)).2.2 = ((symsOf ws).getD i (0, 0, 0)).2.1 := by simpa using hc
    have hpi := (match_iff ws h i (by omega) l hl).mp hc
    rcases List.prefix_or_prefix_of_prefix hp hpi with hh | hh
    · exact h.2.2 k hk i (by omega) (by omega) hh
    · exact h.2.2 i (by omega) k hk (by omega) hh

/-- Nothing is shifted. -/
def NoShift (P : Params) : Prop := P.table.length ≤ P.shiftDown.length ∧ ∀ x ∈ P.shiftDown, x = 0

theorem readDiff_ok (P : Params) (h : Usable P.table) (hs : NoShift P) (d : Int) (hd : catOf d < P.table.length) (p : PumpRev) (r : List Bool)
    (hr : p.Rep (coded P.table d ++ r)) (hm : 15 ≤ r.length) : ∃ p', readDiff P (symsOf P.table) p = .ok (d, p') ∧ p'.Rep r := by
  have hmem : P.table.getD (catOf d) (0, 0) ∈ P.table := by
    rw [List.getD_eq_getElem?_getD, List.getElem?_eq_getElem hd]; exact List.getElem_mem _
  obtain ⟨h1, h2, h3⟩ := h.2.1 _ hmem
  have hcod : coded P.table d ++ r = bitsMSB (P.table.getD (catOf d) (0, 0)).1 (P.table.getD (catOf d) (0, 0)).2 ++
      (bitsMSB (catOf d) (extraOf d) ++ r) := by rw [coded, List.append_assoc]
  rw [hcod] at hr
  have hl : 16 ≤ (bitsMSB (P.table.getD (catOf d) (0, 0)).1 (P.table.getD (catOf d) (0, 0)).2 ++ (bitsMSB (catOf d) (extraOf d) ++ r)).length := by
    simp only [List.length_append, length_bitsMSB]; omega
  obtain ⟨p1, e1, r1, a1⟩ := PumpRev.lawful.peek_ok p _ 16 hr (by omega) hl
  rw [takeZ_of_le hl] at e1
  obtain ⟨p2, e2, r2, _⟩ := PumpRev.lawful.consume_ok p1 _ (P.table.getD (catOf d) (0, 0)).1 r1 (Nat.le_trans h2 a1)
  rw [List.drop_left' (by simp)] at r2
  have h17 := h.1
  obtain ⟨p3, e3, r3⟩ := getBits_field PumpRev.lawful p2 _ _ r r2 (Verif.Ljpeg.extraOf_lt d) (by omega) (by simp)
  have hsd : idx P.shiftDown (catOf d) = .ok 0 := by
    have hlt : catOf d < P.shiftDown.length := Nat.lt_of_lt_of_le hd hs.1
    rw [idx, List.getElem?_eq_getElem hlt, hs.2 _ (List.getElem_mem _)]
  rw [readDiff, getNext, e1, ok_bind]
  simp only []
  rw [lookup_ok P.table h (catOf d) hd _ hl (List.prefix_append _ _)]
  simp only []
  rw [symsOf_get _ _ hd]
  simp only []
  rw [e2]
  simp only [ok_bind]
  rw [hsd, ok_bind, assert', if_pos (by decide), ok_bind]
  by_cases h0 : d = 0
  · subst h0
    rw [if_pos (by simp [catOf])]
    refine ⟨p2, rfl, ?_⟩
    simpa [catOf, bitsMSB] using r2
  · have hcat : catOf d ≠ 0 := by rw [catOf, if_neg h0]; omega
    refine ⟨p3, ?_, r3⟩
    rw [if_neg hcat, e3, ok_bind, assert', if_pos (by decide), ok_bind]
    simp only []
    have hx := Verif.Ljpeg.extraOf_lt d
    have hx32 : extraOf d < 2 ^ 32 := Nat.lt_of_lt_of_le hx (Nat.pow_le_pow_right (by omega) (by omega))
    rw [show (0 &&& 0xFF : Nat) = 0 from rfl, Nat.shiftLeft_zero, Nat.mod_eq_of_lt hx32]
    have hdo := Verif.Ljpeg.diffOf_extra d h0
    rw [diffOf, if_pos rfl] at hdo
    have hpw : 2 ^ catOf d = 2 ^ (catOf d - 1) * 2 := by rw [← Nat.pow_succ]; congr 1; omega
    have hsh : extraOf d >>> (catOf d - 1) = 1 ↔ ¬extraOf d < 2 ^ (catOf d - 1) := by
      rw [Nat.shiftRight_eq_div_pow]
      constructor
      · intro e hlt; rw [Nat.div_eq_of_lt hlt] at e; omega
      · intro e
        have := Nat.div_lt_of_lt_mul (show extraOf d < 2 ^ (catOf d - 1) * 2 by omega)
        have := Nat.div_pos (Nat.le_of_not_lt e) (Nat.two_pow_pos _)
        omega
    congr 2
    by_cases hlt : extraOf d < 2 ^ (catOf d - 1)
    · rw [if_neg (by rw [hsh]; exact fun h => h hlt)]
      rw [if_pos hlt] at hdo
      omega
    · rw [if_pos (hsh.mpr hlt)]
      rw [if_neg hlt] at hdo
      exact hdo

end Verif.Pana8
