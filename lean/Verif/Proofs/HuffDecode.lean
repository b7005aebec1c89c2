import Verif.Model.LjpegHuff
import Verif.Proofs.PumpJpeg
import Verif.Proofs.HuffCanon
import Verif.Spec.HuffDecode
/-! # Table-driven Huffman decoding agrees with bit-by-bit decoding -/

namespace Verif.Ljpeg
open Verif Verif.Pumps Verif.Spec

theorem takeZ_succ (n : Nat) (l : List Bool) : takeZ (n + 1) l = l.headD false :: takeZ n l.tail := by
  cases l with
  | nil => simp [takeZ, List.replicate_succ]
  | cons b l =>
    have := takeZ_append (n := 1) (m := n) (l := [b]) (k := l) rfl
    rw [Nat.add_comm] at this
    simpa using this

theorem takeZ_drop_add (n m : Nat) (l : List Bool) : takeZ (n + m) l = takeZ n l ++ takeZ m (l.drop n) := by
  induction n generalizing l with
  | zero => simp [takeZ_zero]
  | succ n ih =>
    rw [show n + 1 + m = (n + m) + 1 by omega, takeZ_succ, takeZ_succ, ih]
    cases l <;> simp

theorem takeZ_take (n m : Nat) (l : List Bool) (h : n ≤ m) : (takeZ m l).take n = takeZ n l := by
  obtain ⟨d, rfl⟩ : ∃ d, m = n + d := ⟨m - n, by omega⟩
  rw [takeZ_drop_add, List.take_append_of_le_length (by simp)]
  simp [List.take_of_length_le]

theorem takeZ_eq_mono {n m : Nat} {l k : List Bool} (h : n ≤ m) (e : takeZ m l = takeZ m k) : takeZ n l = takeZ n k := by
  rw [← takeZ_take n m l h, ← takeZ_take n m k h, e]

theorem takeZ_drop_eq {n m : Nat} {l k : List Bool} (e : takeZ (n + m) l = takeZ (n + m) k) :
    takeZ m (l.drop n) = takeZ m (k.drop n) := by
  rw [takeZ_drop_add, takeZ_drop_add] at e
  exact (List.append_inj e (by simp)).2

/-! ### table positions -/

/-- Which code a full-width index `c` belongs to. -/
def findSlot (nb : Nat) : List Nat → Nat → Option Nat
  | [], _ => none
  | l :: ls, c => if c < 2 ^ (nb - l) then some 0 else (findSlot nb ls (c - 2 ^ (nb - l))).map (· + 1)

theorem findSlot_lt {nb ls c k} (h : findSlot nb ls c = some k) : k < ls.length := by
  induction ls generalizing c k with
  | nil => simp [findSlot] at h
  | cons l ls ih =>
    rw [findSlot] at h
    split at h
    · simp at h; subst h; simp
    · cases h' : findSlot nb ls (c - 2 ^ (nb - l)) with
      | none => simp [h'] at h
      | some j => simp [h'] at h; have := ih h'; simp; omega

/-- Space used by the codes of lengths `ls` in a table of width `nb`. -/
def hpos (nb : Nat) (ls : List Nat) : Nat := (ls.map fun l => 2 ^ (nb - l)).sum

theorem findSlot_none_iff {nb ls c} : findSlot nb ls c = none ↔ hpos nb ls ≤ c := by
  induction ls generalizing c with
  | nil => simp [findSlot, hpos]
  | cons l ls ih =>
    rw [findSlot, hpos, List.map_cons, List.sum_cons, ← hpos]
    split
    · simp; omega
    · rw [Option.map_eq_none_iff, ih]; omega

theorem findSlot_of_range {nb ls c} (k : Nat) (hk : k < ls.length) (h1 : hpos nb (ls.take k) ≤ c)
    (h2 : c < hpos nb (ls.take k) + 2 ^ (nb - ls[k])) : findSlot nb ls c = some k := by
  induction ls generalizing c k with
  | nil => simp at hk
  | cons l ls ih =>
    cases k with
    | zero => simp [hpos] at h2; simp [findSlot, h2]
    | succ k =>
      simp only [List.take_succ_cons, hpos, List.map_cons, List.sum_cons, List.getElem_cons_succ] at h1 h2
      rw [findSlot, if_neg (by omega)]
      rw [ih k (by simpa using hk) (by rw [hpos]; omega) (by rw [hpos]; omega)]
      rfl

theorem findSlot_replicate (nb n l : Nat) (rest : List Nat) (c : Nat) :
    findSlot nb (List.replicate n l ++ rest) c =
      if c < n * 2 ^ (nb - l) then some (c / 2 ^ (nb - l)) else (findSlot nb rest (c - n * 2 ^ (nb - l))).map (· + n) := by
  have hp := Nat.two_pow_pos (nb - l)
  induction n generalizing c with
  | zero => simp
  | succ n ih =>
    rw [List.replicate_succ, List.cons_append, findSlot, ih]
    have e : (n + 1) * 2 ^ (nb - l) = n * 2 ^ (nb - l) + 2 ^ (nb - l) := by rw [Nat.add_mul]; omega
    by_cases h1 : c < 2 ^ (nb - l)
    · rw [if_pos h1, if_pos (by omega), Nat.div_eq_of_lt h1]
    · rw [if_neg h1]
      by_cases h2 : c - 2 ^ (nb - l) < n * 2 ^ (nb - l)
      · rw [if_pos h2, if_pos (by omega)]
        have : c / 2 ^ (nb - l) = (c - 2 ^ (nb - l)) / 2 ^ (nb - l) + 1 := by
          rw [← Nat.add_div_right _ hp]; congr 1; omega
        rw [this]; rfl
      · rw [if_neg h2, if_neg (by omega)]
        rw [show c - 2 ^ (nb - l) - n * 2 ^ (nb - l) = c - (n + 1) * 2 ^ (nb - l) by omega]
        cases findSlot nb rest (c - (n + 1) * 2 ^ (nb - l)) <;> simp; omega

theorem fill_get {α} (nb : Nat) (g : Nat → Nat → α) (lens : List Nat) (start c : Nat) :
    ((lens.zipIdx start).flatMap fun p => List.replicate (2 ^ (nb - p.1)) (g p.1 p.2))[c]? =
      (findSlot nb lens c).map fun k => g (lens.getD k 0) (start + k) := by
  induction lens generalizing start c with
  | nil => simp [findSlot]
  | cons l ls ih =>
    rw [List.zipIdx_cons, List.flatMap_cons, findSlot]
    by_cases h : c < 2 ^ (nb - l)
    · rw [if_pos h, List.getElem?_append_left (by simpa using h), List.getElem?_replicate, if_pos h]; simp
    · rw [if_neg h, List.getElem?_append_right (by simp; omega), List.length_replicate, ih]
      cases findSlot nb ls (c - 2 ^ (nb - l)) with
      | none => rfl
      | some k => simp; congr 1; omega

theorem fill_length {α} (nb : Nat) (g : Nat → Nat → α) (lens : List Nat) (start : Nat) :
    ((lens.zipIdx start).flatMap fun p => List.replicate (2 ^ (nb - p.1)) (g p.1 p.2)).length = hpos nb lens := by
  induction lens generalizing start with
  | nil => rfl
  | cons l ls ih => rw [List.zipIdx_cons, List.flatMap_cons, List.length_append, ih]; simp [hpos]

/-! ### code lengths -/

/-- Lengths of the codes counted by `cs`, the first count being for length `i + 1`. -/
def lensOf : Nat → List Nat → List Nat
  | _, [] => []
  | i, n :: cs => List.replicate n (i + 1) ++ lensOf (i + 1) cs

theorem lensOf_range (i : Nat) (cs : List Nat) :
    lensOf i cs = (List.range cs.length).flatMap fun j => List.replicate (cs.getD j 0) (i + 1 + j) := by
  induction cs generalizing i with
  | nil => rfl
  | cons n cs ih =>
    rw [lensOf, ih, List.length_cons, List.range_succ_eq_map, List.flatMap_cons, List.flatMap_map]
    congr 1
    apply List.flatMap_congr
    intro j _
    simp
    omega

theorem refSymbol_zero (cs : List Nat) (hz : ∀ n ∈ cs, n = 0) (i code first pos : Nat) (l : List Bool)
    (h : first ≤ code) : refSymbol cs i code first pos l = none := by
  induction cs generalizing i code first pos l with
  | nil => rfl
  | cons n cs ih =>
    have hn := hz n (by simp)
    subst hn
    rw [refSymbol, if_neg (by omega)]
    exact ih (fun n hn => hz n (by simp [hn])) _ _ _ _ _ (by omega)

theorem lensOf_zero (cs : List Nat) (hz : ∀ n ∈ cs, n = 0) (i : Nat) : lensOf i cs = [] := by
  induction cs generalizing i with
  | nil => rfl
  | cons n cs ih =>
    have hn := hz n (by simp)
    subst hn
    simp [lensOf, ih (fun n hn => hz n (by simp [hn]))]

theorem refSymbol_findSlot (nb : Nat) (cs : List Nat) (i code first pos : Nat) (l : List Bool) (r : Nat)
    (hi : i ≤ nb) (hz : ∀ j, nb ≤ i + j → cs.getD j 0 = 0) (hc : code = first + r) :
    refSymbol cs i code first pos l =
      (findSlot nb (lensOf i cs) (r * 2 ^ (nb - i) + natMSB (takeZ (nb - i) l))).map
        fun k => ((lensOf i cs).getD k 0, pos + k) := by
  induction cs generalizing i code first pos l r with
  | nil => rfl
  | cons n cs ih =>
    rcases Nat.lt_or_ge i nb with hlt | hge
    · rw [refSymbol, lensOf]
      subst hc
      obtain ⟨d, hd⟩ : ∃ d, nb = i + 1 + d := ⟨nb - (i + 1), by omega⟩
      have e1 : nb - i = d + 1 := by omega
      have e2 : nb - (i + 1) = d := by omega
      rw [e1, takeZ_succ, natMSB_cons, length_takeZ, findSlot_replicate, e2]
      have hlow := natMSB_lt (takeZ d l.tail)
      rw [length_takeZ] at hlow
      obtain ⟨b, hb⟩ : ∃ b, b = (l.headD false).toNat := ⟨_, rfl⟩
      rw [← hb]
      have hP := Nat.two_pow_pos d
      have ec : r * 2 ^ (d + 1) + (b * 2 ^ d + natMSB (takeZ d l.tail)) = (2 * r + b) * 2 ^ d + natMSB (takeZ d l.tail) := by
        rw [Nat.pow_succ]; ring
      rw [ec]
      obtain ⟨low, hlow'⟩ : ∃ low, low = natMSB (takeZ d l.tail) := ⟨_, rfl⟩
      rw [← hlow'] at hlow ⊢
      by_cases hm : 2 * r + b < n
      · have h1 : (2 * r + b) * 2 ^ d + low < n * 2 ^ d := by
          have : (2 * r + b + 1) * 2 ^ d ≤ n * 2 ^ d := Nat.mul_le_mul_right _ hm
          rw [Nat.add_mul] at this; omega
        rw [if_pos (by omega), if_pos h1]
        have h2 : ((2 * r + b) * 2 ^ d + low) / 2 ^ d = 2 * r + b := by
          rw [Nat.mul_comm, Nat.mul_add_div hP, Nat.div_eq_of_lt hlow]; rfl
        rw [h2]
        simp only [Option.map_some, List.getD_eq_getElem?_getD]
        rw [List.getElem?_append_left (by simpa using hm), List.getElem?_replicate, if_pos hm]
        simp; omega
      · have h1 : ¬ ((2 * r + b) * 2 ^ d + low < n * 2 ^ d) := by
          have : n * 2 ^ d ≤ (2 * r + b) * 2 ^ d := Nat.mul_le_mul_right _ (by omega)
          omega
        rw [if_neg (by omega), if_neg h1]
        have := ih (i + 1) (2 * (first + r) + b) (2 * first + n) (pos + n) l.tail (2 * r + b - n) (by omega)
          (fun j hj => by have := hz (j + 1) (by omega); simpa using this) (by omega)
        rw [this, e2, ← hlow']
        have e3 : (2 * r + b - n) * 2 ^ d + low = (2 * r + b) * 2 ^ d + low - n * 2 ^ d := by
          rw [Nat.sub_mul]
          have : n * 2 ^ d ≤ (2 * r + b) * 2 ^ d := Nat.mul_le_mul_right _ (by omega)
          omega
        rw [e3]
        cases hf : findSlot nb (lensOf (i + 1) cs) ((2 * r + b) * 2 ^ d + low - n * 2 ^ d) with
        | none => rfl
        | some k =>
          simp only [Option.map_some, List.getD_eq_getElem?_getD]
          rw [List.getElem?_append_right (by simp), List.length_replicate, Nat.add_sub_cancel]
          congr 2; omega
    · have hall : ∀ m ∈ n :: cs, m = 0 := by
        intro m hm
        obtain ⟨j, hj, rfl⟩ := List.getElem_of_mem hm
        have := hz j (by omega)
        rwa [List.getD_eq_getElem?_getD, List.getElem?_eq_getElem hj] at this
      rw [refSymbol_zero _ hall _ _ _ _ _ (by omega), lensOf_zero _ hall]
      rfl

/-! ### MockPump is lawful -/

namespace MockPump

def Rep (p : MockPump) (l : List Bool) : Prop := p.nbits = l.length ∧ p.bits = natMSB l ∧ p.nbits < 64

theorem lawful : Lawful MockPump Rep (·.nbits) (fun l n => n ≤ l.length) where
  peek_ok := by
    rintro ⟨b, nb⟩ l n ⟨h1, h2, h3⟩ h32 hcan
    simp only at h1 h2 h3
    subst h1 h2
    have hval : (natMSB l >>> (l.length - n)) = natMSB (takeZ n l) := by
      rw [takeZ_of_le hcan, Nat.shiftRight_eq_div_pow]
      conv => lhs; rw [← List.take_append_drop n l, natMSB_append]
      have := natMSB_lt (l.drop n)
      rw [List.length_drop] at this ⊢
      simp only [List.length_append, List.length_take, List.length_drop]
      rw [show min n l.length + (l.length - n) - n = l.length - n by omega]
      rw [Nat.mul_comm, Nat.mul_add_div (Nat.two_pow_pos _), Nat.div_eq_of_lt this]; rfl
    refine ⟨⟨natMSB l, l.length⟩, ?_, ⟨rfl, rfl, h3⟩, hcan⟩
    show MockPump.peek _ n = _
    have hlt := natMSB_lt (takeZ n l)
    rw [length_takeZ] at hlt
    have : 2 ^ n ≤ 2 ^ 32 := Nat.pow_le_pow_right (by omega) h32
    simp only [MockPump.peek, if_pos (show n ≤ l.length ∧ l.length - n < 64 by omega), hval,
      Nat.mod_eq_of_lt (show natMSB (takeZ n l) < 2 ^ 32 by omega)]
  consume_ok := by
    rintro ⟨b, nb⟩ l n ⟨h1, h2, h3⟩ hn
    simp only at h1 h2 h3 hn
    subst h1 h2
    refine ⟨⟨natMSB l % 2 ^ (l.length - n), l.length - n⟩, ?_, ⟨by simp, ?_, by simp; omega⟩, rfl⟩
    · show MockPump.consume _ n = _
      simp [MockPump.consume, consumeMSB_ok _ _ _ hn h3, bind, Except.bind]
    · simp only
      conv => lhs; rw [← List.take_append_drop n l, natMSB_append]
      have := natMSB_lt (l.drop n)
      rw [List.length_drop] at this ⊢
      simp only [List.length_append, List.length_take, List.length_drop]
      rw [show min n l.length + (l.length - n) - n = l.length - n by omega]
      rw [Nat.mul_comm, Nat.mul_add_mod, Nat.mod_eq_of_lt this]

theorem rep_set (i : Nat) (h : i < 2 ^ 13) : (MockPump.set i 13).Rep (bitsMSB 13 i ++ List.replicate 32 false) := by
  refine ⟨?_, ?_, ?_⟩
  · rw [List.length_append, length_bitsMSB, List.length_replicate]; rfl
  · rw [natMSB_append, natMSB_replicate_false, natMSB_bitsMSB, Nat.mod_eq_of_lt h, List.length_replicate, Nat.add_zero]
    exact Nat.shiftLeft_eq i 32
  · show 13 + 32 < 64
    omega

end MockPump

/-! ### a good table -/

/-- What `initialize` establishes about the lookup table. -/
structure TableOK (bits huffval : List Nat) (t : HuffTable) : Prop where
  nb16 : t.nbits ≤ 16
  look : ∀ c, c < 2 ^ t.nbits → idx t.table c = .ok (match findSlot t.nbits (lensOf 0 bits.tail) c with
    | none => (0, 0, 0)
    | some k => ((lensOf 0 bits.tail).getD k 0, huffval.getD k 0, 0))
  sym : ∀ l, refSymbol bits.tail 0 0 0 0 l =
    (findSlot t.nbits (lensOf 0 bits.tail) (natMSB (takeZ t.nbits l))).map fun k => ((lensOf 0 bits.tail).getD k 0, k)
  lens : ∀ l ∈ lensOf 0 bits.tail, 1 ≤ l ∧ l ≤ t.nbits
  vals : ∀ k, k < (lensOf 0 bits.tail).length → huffval.getD k 0 ≤ 16

theorem TableOK.sym_range {bits huffval t} (h : TableOK bits huffval t) {l len k}
    (e : refSymbol bits.tail 0 0 0 0 l = some (len, k)) :
    1 ≤ len ∧ len ≤ t.nbits ∧ huffval.getD k 0 ≤ 16 := by
  rw [h.sym] at e
  obtain ⟨j, hj, e2⟩ := Option.map_eq_some_iff.1 e
  simp only [Prod.mk.injEq] at e2
  obtain ⟨e3, rfl⟩ := e2
  have hlt := findSlot_lt hj
  have hm : len ∈ lensOf 0 bits.tail := by
    rw [← e3, List.getD_eq_getElem?_getD, List.getElem?_eq_getElem hlt]
    exact List.getElem_mem hlt
  exact ⟨(h.lens _ hm).1, (h.lens _ hm).2, h.vals _ hlt⟩

/-- the size `huff_decode_slow` reports -/
def slowSize (dng : Bool) (r : Int × Nat) : Nat := if r.1 = -32768 ∧ dng = false then r.2 + 16 else r.2

theorem refExtend_gt {v x : Nat} (h1 : 0 < v) (h2 : v < 16) : refExtend v x ≠ -32768 := by
  unfold refExtend
  have : (2 : Int) ^ v ≤ 2 ^ 15 := by
    have : (2 : Nat) ^ v ≤ 2 ^ 15 := Nat.pow_le_pow_right (by omega) (by omega)
    exact_mod_cast this
  split <;> omega

theorem getBits_ok {P : Type} [BitPump P] {Rep avail can} (hP : Lawful P Rep avail can) (p : P) (l : List Bool) (n : Nat)
    (hr : Rep p l) (h32 : n ≤ 32) (hc : can l n) (hn : 0 < n) :
    ∃ p', getBits p n = .ok (natMSB (takeZ n l), p') ∧ Rep p' (l.drop n) := by
  obtain ⟨p1, e1, r1, a1⟩ := hP.peek_ok p l n hr h32 hc
  obtain ⟨p2, e2, r2, _⟩ := hP.consume_ok p1 l n r1 a1
  refine ⟨p2, ?_, r2⟩
  simp [getBits, show n ≠ 0 by omega, e1, e2, bind, Except.bind]

theorem and_pow_eq_zero (x i : Nat) : (x &&& 2 ^ i = 0) ↔ x.testBit i = false := by
  constructor
  · intro h
    have := congrArg (fun y => y.testBit i) h
    simpa [Nat.testBit_and] using this
  · intro h
    apply Nat.eq_of_testBit_eq
    intro j
    rw [Nat.testBit_and, Nat.testBit_two_pow, Nat.zero_testBit]
    by_cases hij : i = j
    · subst hij; simp [h]
    · simp [hij]

theorem refDecode_some {bits huffval dng l len k v} (h : refSymbol bits.tail 0 0 0 0 l = some (len, k))
    (hv : v = huffval.getD k 0) : refDecode bits huffval dng l = if v = 0 then (0, len)
      else if v = 16 then (-32768, if dng then len + 16 else len)
      else (refExtend v (natMSB (takeZ v (l.drop len))), len + v) := by
  subst hv; rw [refDecode, h]

theorem huffDiff_extend {P : Type} [BitPump P] {Rep avail can} (hP : Lawful P Rep avail can) (t : HuffTable) (p : P)
    (l : List Bool) (len v : Nat) (hr : Rep p l) (hv0 : 0 < v) (hv : v < 16) (hc : can l v) :
    ∃ p', huffDiff t p (len, v, 0) = .ok (refExtend v (natMSB (takeZ v l)), p') ∧ Rep p' (l.drop v) := by
  obtain ⟨p', e, r⟩ := getBits_ok hP p l v hr (by omega) hc hv0
  refine ⟨p', ?_, r⟩
  have hx := natMSB_lt (takeZ v l)
  rw [length_takeZ] at hx
  obtain ⟨x, hxe⟩ : ∃ x, x = natMSB (takeZ v l) := ⟨_, rfl⟩
  rw [← hxe] at hx e ⊢
  have hsh : (((x <<< 1) + 1) <<< 0) >>> 1 = x := by
    simp [Nat.shiftLeft_eq, Nat.shiftRight_eq_div_pow]; omega
  simp only [huffDiff, show v ≠ 0 by omega, show v ≠ 16 by omega, show ¬ (v + 0 ≥ 31) by omega, if_false, e, bind,
    Except.bind, hsh, Nat.add_zero, Int.toNat_natCast, Nat.one_shiftLeft, and_pow_eq_zero, if_true]
  unfold refExtend
  have htb : x.testBit (v - 1) = decide (2 ^ (v - 1) ≤ x) := by
    rw [Nat.testBit_eq_decide_div_mod_eq]
    have e2 : 2 ^ v = 2 ^ (v - 1) * 2 := by rw [← Nat.pow_succ]; congr 1; omega
    congr 1
    rw [eq_iff_iff]
    constructor
    · intro h
      by_contra hlt
      rw [Nat.div_eq_of_lt (by omega)] at h
      omega
    · intro h
      have h1 : x / 2 ^ (v - 1) = 1 := by
        apply Nat.div_eq_of_lt_le <;> omega
      rw [h1]
  rw [htb]
  by_cases hlt : x < 2 ^ (v - 1)
  · rw [if_neg (by omega), if_pos (by simp [hlt]), if_pos hlt]
    simp
  · rw [if_neg (by omega), if_neg (by simp [Nat.le_of_not_lt hlt]), if_neg hlt]

theorem slow_ok {P : Type} [BitPump P] {Rep avail can} (hP : Lawful P Rep avail can) {bits huffval : List Nat}
    {t : HuffTable} (ht : TableOK bits huffval t) (p : P) (l : List Bool) (hr : Rep p l)
    (hcan : ∀ k n, k ≤ 16 → n ≤ 16 → can (l.drop k) n) :
    ∃ p', huffDecodeSlow t p = .ok ((slowSize t.dngBug (refDecode bits huffval t.dngBug l),
        (refDecode bits huffval t.dngBug l).1), p') ∧ Rep p' (l.drop (refDecode bits huffval t.dngBug l).2) := by
  have hnb := ht.nb16
  obtain ⟨p1, e1, r1, a1⟩ := hP.peek_ok p l t.nbits hr (by omega) (by simpa using hcan 0 t.nbits (by omega) hnb)
  have hc := natMSB_lt (takeZ t.nbits l)
  rw [length_takeZ] at hc
  have hlook := ht.look _ hc
  have hsym := ht.sym l
  cases hf : findSlot t.nbits (lensOf 0 bits.tail) (natMSB (takeZ t.nbits l)) with
  | none =>
    rw [hf] at hlook hsym
    simp only [Option.map_none] at hsym
    obtain ⟨p2, e2, r2, _⟩ := hP.consume_ok p1 l 0 r1 (by omega)
    refine ⟨p2, ?_, ?_⟩
    · simp [huffDecodeSlow, huffLen, e1, hlook, e2, bind, Except.bind, huffDiff, refDecode, hsym, slowSize]
    · simpa [refDecode, hsym] using r2
  | some k =>
    rw [hf] at hlook hsym
    simp only [Option.map_some] at hsym
    obtain ⟨h1, h2, h3⟩ := ht.sym_range hsym
    obtain ⟨len, hlen⟩ : ∃ len, len = (lensOf 0 bits.tail).getD k 0 := ⟨_, rfl⟩
    obtain ⟨v, hv⟩ : ∃ v, v = huffval.getD k 0 := ⟨_, rfl⟩
    simp only [← hlen, ← hv] at hlook hsym h1 h2 h3
    obtain ⟨p2, e2, r2, _⟩ := hP.consume_ok p1 l len r1 (by omega)
    have href := refDecode_some (dng := t.dngBug) hsym hv
    have hsz : len + v < 256 := by omega
    by_cases hv0 : v = 0
    · refine ⟨p2, ?_, ?_⟩
      · simp [huffDecodeSlow, huffLen, e1, hlook, e2, bind, Except.bind, huffDiff, href, slowSize, hv0,
          show len < 256 by omega]
      · simpa [href, hv0] using r2
    · by_cases hv16 : v = 16
      · cases hd : t.dngBug with
        | false =>
          rw [hd] at href
          refine ⟨p2, ?_, ?_⟩
          · simp [huffDecodeSlow, huffLen, e1, hlook, e2, bind, Except.bind, huffDiff, href, slowSize,
              hv16, show len + 16 < 256 by omega, hd]
          · simpa [href, hv16] using r2
        | true =>
          rw [hd] at href
          obtain ⟨p3, e3, r3⟩ := getBits_ok hP p2 (l.drop len) 16 r2 (by omega) (hcan len 16 (by omega) (by omega)) (by omega)
          refine ⟨p3, ?_, ?_⟩
          · simp [huffDecodeSlow, huffLen, e1, hlook, e2, bind, Except.bind, huffDiff, href, slowSize,
              hv16, show len + 16 < 256 by omega, hd, e3]
          · simpa [href, hv16] using r3
      · obtain ⟨p3, e3, r3⟩ := huffDiff_extend hP t p2 (l.drop len) len v r2 (by omega) (by omega)
          (hcan len v (by omega) (by omega))
        have hne := refExtend_gt (x := natMSB (takeZ v (l.drop len))) (show 0 < v by omega) (show v < 16 by omega)
        refine ⟨p3, ?_, ?_⟩
        · simp [huffDecodeSlow, huffLen, e1, hlook, e2, bind, Except.bind, href, slowSize, hv0,
            hv16, hsz, e3, hne]
        · simpa [href, hv0, hv16] using r3

/-! ### locality -/

theorem refSymbol_local (cs : List Nat) (i code first pos : Nat) (l m : List Bool) (len k : Nat)
    (h : refSymbol cs i code first pos l = some (len, k)) (e : takeZ (len - i) l = takeZ (len - i) m) :
    i < len ∧ refSymbol cs i code first pos m = some (len, k) := by
  induction cs generalizing i code first pos l m with
  | nil => simp [refSymbol] at h
  | cons n cs ih =>
    rw [refSymbol] at h
    split at h
    · rename_i hlt
      simp only [Option.some.injEq, Prod.mk.injEq] at h
      obtain ⟨rfl, rfl⟩ := h
      rw [show i + 1 - i = 0 + 1 by omega, takeZ_succ, takeZ_succ] at e
      have hh : l.headD false = m.headD false := (List.cons.inj e).1
      refine ⟨by omega, ?_⟩
      rw [refSymbol]
      simp only [← hh, if_pos hlt]
    · rename_i hlt
      -- the recursion is strictly below
      have hb : i + 1 < len := by
        by_contra hb
        have := ih (i + 1) _ _ _ l.tail l.tail h rfl
        omega
      rw [show len - i = (len - (i + 1)) + 1 by omega, takeZ_succ, takeZ_succ] at e
      have hh : l.headD false = m.headD false := (List.cons.inj e).1
      have ht : takeZ (len - (i + 1)) l.tail = takeZ (len - (i + 1)) m.tail := (List.cons.inj e).2
      have := ih (i + 1) _ _ _ l.tail m.tail h ht
      refine ⟨by omega, ?_⟩
      rw [refSymbol]
      simp only [← hh, if_neg hlt]
      exact this.2

/-- The cache entry for the first 13 bits describes the whole string, if decoding the 13 bits followed by zeros uses at
most 13 bits. -/
theorem refDecode_local {bits huffval t} (ht : TableOK bits huffval t) (l m : List Bool)
    (hm : m = takeZ 13 l ++ List.replicate 32 false)
    (hle : (refDecode bits huffval t.dngBug m).2 ≤ 13) :
    refDecode bits huffval t.dngBug l = refDecode bits huffval t.dngBug m := by
  have hagree : takeZ 13 m = takeZ 13 l := by
    rw [hm, takeZ_append_zeros, takeZ_of_le (by simp)]; simp [List.take_of_length_le]
  unfold refDecode at hle ⊢
  cases hs : refSymbol bits.tail 0 0 0 0 m with
  | none =>
    have : refSymbol bits.tail 0 0 0 0 l = none := by
      rw [ht.sym, Option.map_eq_none_iff, findSlot_none_iff] at hs ⊢
      refine Nat.le_trans hs ?_
      rcases Nat.le_total t.nbits 13 with h | h
      · rw [takeZ_eq_mono h hagree]
      · obtain ⟨d, hd⟩ : ∃ d, t.nbits = 13 + d := ⟨t.nbits - 13, by omega⟩
        rw [hd, takeZ_drop_add, takeZ_drop_add 13 d l, hagree, natMSB_append, natMSB_append, length_takeZ, length_takeZ]
        have : natMSB (takeZ d (m.drop 13)) = 0 := by
          rw [hm, List.drop_append_of_le_length (by simp), List.drop_of_length_le (by simp)]
          have := takeZ_append_zeros d 32 []
          rw [this, takeZ]
          simp [List.take_of_length_le, natMSB_replicate_false]
        omega
    rw [this]
  | some r =>
    obtain ⟨len, k⟩ := r
    rw [hs] at hle
    simp only at hle
    have hlen : len ≤ 13 := by
      split at hle
      · exact hle
      · split at hle
        · split at hle <;> simp at hle <;> omega
        · simp at hle; omega
    have hl := (refSymbol_local _ _ _ _ _ m l len k hs (by rw [Nat.sub_zero]; exact takeZ_eq_mono hlen hagree)).2
    rw [hl]
    simp only
    split
    · rfl
    · split
      · rfl
      · rename_i h0 h16
        rw [if_neg h0, if_neg h16] at hle
        simp only at hle
        rw [takeZ_drop_eq (n := len) (m := huffval.getD k 0) (l := l) (k := m)
          (takeZ_eq_mono hle hagree).symm]

/-- The decode cache built by `initialize`. -/
def CacheOK (bits huffval : List Nat) (t : HuffTable) : Prop :=
  ∀ i, i < 8192 → idx t.cache i = .ok (
    let r := refDecode bits huffval t.dngBug (bitsMSB 13 i ++ List.replicate 32 false)
    if r.2 ≤ 13 then some (slowSize t.dngBug r, r.1) else none)

theorem refDecode_i16 {bits huffval t} (ht : TableOK bits huffval t) (l : List Bool) :
    asI16 (refDecode bits huffval t.dngBug l).1 = (refDecode bits huffval t.dngBug l).1 := by
  have key : ∀ d : Int, -32768 ≤ d → d ≤ 32767 → asI16 d = d := by intro d h1 h2; unfold asI16; omega
  unfold refDecode
  split
  · exact key _ (by simp) (by simp)
  · rename_i len k hs
    obtain ⟨_, _, hv⟩ := ht.sym_range hs
    simp only
    split
    · exact key _ (by simp) (by simp)
    · split
      · exact key _ (by simp) (by simp)
      · rename_i h0 h16
        have hx := natMSB_lt (takeZ (huffval.getD k 0) (l.drop len))
        rw [length_takeZ] at hx
        have hp : (2 : Nat) ^ (huffval.getD k 0) ≤ 2 ^ 15 := Nat.pow_le_pow_right (by omega) (by omega)
        have hp' : (2 : Int) ^ (huffval.getD k 0) ≤ 2 ^ 15 := by exact_mod_cast hp
        have hp0 : (0 : Int) < 2 ^ (huffval.getD k 0) := by positivity
        simp only
        apply key <;> unfold refExtend <;> split <;> omega

theorem cacheEntry_ok {bits huffval t} (ht : TableOK bits huffval t) (i : Nat) (hi : i < 8192) :
    cacheEntry t i = .ok (
      let r := refDecode bits huffval t.dngBug (bitsMSB 13 i ++ List.replicate 32 false)
      if r.2 ≤ 13 then some (slowSize t.dngBug r, r.1) else none) := by
  have hlen : (bitsMSB 13 i ++ List.replicate 32 false).length = 45 := by simp
  obtain ⟨p', e, r⟩ := slow_ok MockPump.lawful ht (MockPump.set i 13) _ (MockPump.rep_set i (by omega))
    (by intro k n hk hn; simp; omega)
  have hnb : p'.nbits = 45 - (refDecode bits huffval t.dngBug (bitsMSB 13 i ++ List.replicate 32 false)).2 := by
    have := r.1; rw [List.length_drop, hlen] at this; exact this
  simp only [cacheEntry, DECODE_CACHE_BITS, e, bind, Except.bind, refDecode_i16 ht, hnb]
  congr 1
  by_cases h : (refDecode bits huffval t.dngBug (bitsMSB 13 i ++ List.replicate 32 false)).2 ≤ 13
  · rw [if_pos (by omega), if_pos h]
  · rw [if_neg (by omega), if_neg h]

theorem fast_ok {P : Type} [BitPump P] {Rep avail} (hP : Lawful P Rep avail (fun _ _ => True)) {bits huffval : List Nat}
    {t : HuffTable} (ht : TableOK bits huffval t) (hcache : CacheOK bits huffval t) (p : P) (l : List Bool) (hr : Rep p l) :
    ∃ p', huffDecode t p = .ok ((refDecode bits huffval t.dngBug l).1, p') ∧
      Rep p' (l.drop (refDecode bits huffval t.dngBug l).2) := by
  obtain ⟨p1, e1, r1, a1⟩ := hP.peek_ok p l 13 hr (by omega) trivial
  have hc := natMSB_lt (takeZ 13 l)
  rw [length_takeZ] at hc
  have hent := hcache _ (by simpa using hc)
  have hbits : bitsMSB 13 (natMSB (takeZ 13 l)) = takeZ 13 l := by
    have := bitsMSB_natMSB (takeZ 13 l); rwa [length_takeZ] at this
  simp only [hbits] at hent
  by_cases hle : (refDecode bits huffval t.dngBug (takeZ 13 l ++ List.replicate 32 false)).2 ≤ 13
  · rw [if_pos hle, ← refDecode_local ht l _ rfl hle] at hent
    rw [← refDecode_local ht l _ rfl hle] at hle
    obtain ⟨p2, e2, r2, _⟩ := hP.consume_ok p1 l _ r1 (Nat.le_trans hle a1)
    refine ⟨p2, ?_, r2⟩
    simp only [huffDecode, DECODE_CACHE_BITS, e1, bind, Except.bind, hent]
    by_cases hsp : (refDecode bits huffval t.dngBug l).1 = -32768 ∧ t.dngBug = false
    · rw [if_pos hsp]
      have hu : usub (slowSize t.dngBug (refDecode bits huffval t.dngBug l)) 16 =
          .ok (refDecode bits huffval t.dngBug l).2 := by
        rw [slowSize, if_pos hsp, usub, if_pos (by omega), Nat.add_sub_cancel]
      simp only [hu, e2]
    · rw [if_neg hsp]
      simp only [slowSize, if_neg hsp, e2]
  · rw [if_neg hle] at hent
    obtain ⟨p2, e2, r2⟩ := slow_ok hP ht p1 l r1 (fun _ _ _ _ => trivial)
    refine ⟨p2, ?_, r2⟩
    simp only [huffDecode, DECODE_CACHE_BITS, e1, bind, Except.bind, hent, e2]

/-! ### `initialize` -/

theorem maxLen_spec (bits : List Nat) (n : Nat) : maxLen bits n ≤ n ∧ ∀ j, maxLen bits n < j → j ≤ n → bits.getD j 0 = 0 := by
  induction n with
  | zero => simp [maxLen]; omega
  | succ n ih =>
    rw [maxLen]
    split
    · exact ⟨Nat.le_refl _, by omega⟩
    · rename_i h
      refine ⟨by omega, ?_⟩
      intro j h1 h2
      by_cases hj : j = n + 1
      · subst hj; omega
      · exact ih.2 j h1 (by omega)

theorem codeLens_eq (bits : List Nat) (hl : bits.length = 17) : codeLens bits (maxLen bits 16) = lensOf 0 bits.tail := by
  obtain ⟨h16, hz⟩ := maxLen_spec bits 16
  rw [lensOf_range, codeLens]
  have hlen : bits.tail.length = 16 := by simp [hl]
  obtain ⟨d, hd⟩ : ∃ d, 16 = maxLen bits 16 + d := ⟨16 - maxLen bits 16, by omega⟩
  rw [hlen]
  have hr : List.range 16 = List.range (maxLen bits 16) ++ (List.range d).map (maxLen bits 16 + ·) := by
    rw [← List.range_add, ← hd]
  rw [hr, List.flatMap_append]
  have hzero : ((List.range d).map (maxLen bits 16 + ·)).flatMap
      (fun j => List.replicate (bits.tail.getD j 0) (0 + 1 + j)) = [] := by
    rw [List.flatMap_eq_nil_iff]
    intro j hj
    obtain ⟨a, ha, rfl⟩ := List.mem_map.1 hj
    rw [List.mem_range] at ha
    have : bits.tail.getD (maxLen bits 16 + a) 0 = bits.getD (maxLen bits 16 + a + 1) 0 := by
      cases bits <;> simp
    rw [this, hz _ (by omega) (by omega)]; rfl
  rw [hzero, List.append_nil]
  apply List.flatMap_congr
  intro j _
  have : bits.tail.getD j 0 = bits.getD (j + 1) 0 := by cases bits <;> simp
  rw [this]; congr 1; omega

/-- A DHT table whose codes fit into the code space and whose values are difference categories. -/
structure GoodDht (bits huffval : List Nat) : Prop where
  len : bits.length = 17
  space : hpos 16 (lensOf 0 bits.tail) ≤ 2 ^ 16
  vals : ∀ k, k < (lensOf 0 bits.tail).length → huffval.getD k 0 ≤ 16
  enough : (lensOf 0 bits.tail).length ≤ huffval.length

theorem hpos_scale (nb : Nat) (h : nb ≤ 16) (ls : List Nat) (hl : ∀ l ∈ ls, l ≤ nb) :
    hpos 16 ls = 2 ^ (16 - nb) * hpos nb ls := by
  induction ls with
  | nil => rfl
  | cons a ls ih =>
    have ih := ih (fun l hl' => hl l (by simp [hl']))
    have ha := hl a (by simp)
    simp only [hpos, List.map_cons, List.sum_cons, Nat.mul_add] at ih ⊢
    rw [ih, ← Nat.pow_add, show 16 - nb + (nb - a) = 16 - a by omega]

theorem mem_lensOf {cs : List Nat} {i l : Nat} (h : l ∈ lensOf i cs) : ∃ j, j < cs.length ∧ l = i + 1 + j ∧ 0 < cs.getD j 0 := by
  rw [lensOf_range] at h
  simp only [List.mem_flatMap, List.mem_range, List.mem_replicate] at h
  obtain ⟨j, h1, h2, h3⟩ := h
  exact ⟨j, h1, h3, by omega⟩

theorem HuffTable.new_ok (bits huffval : List Nat) (dng : Bool) (h : GoodDht bits huffval) (hv : huffval.length = 256) :
    ∃ t, HuffTable.new bits huffval (List.replicate 256 0) dng = .ok t ∧ t.dngBug = dng ∧ TableOK bits huffval t ∧
      CacheOK bits huffval t := by
  obtain ⟨h16, hz⟩ := maxLen_spec bits 16
  have hl := codeLens_eq bits h.len
  have hlens : ∀ l ∈ lensOf 0 bits.tail, 1 ≤ l ∧ l ≤ maxLen bits 16 := by
    intro l hm
    obtain ⟨j, hj, rfl, hp⟩ := mem_lensOf hm
    refine ⟨by omega, ?_⟩
    by_contra hgt
    have e : bits.tail.getD j 0 = bits.getD (j + 1) 0 := by cases bits <;> simp
    have hj' : j < 16 := by simpa [h.len] using hj
    rw [e, hz _ (by omega) (by omega)] at hp
    omega
  have hsp : hpos (maxLen bits 16) (lensOf 0 bits.tail) ≤ 2 ^ maxLen bits 16 := by
    have h1 := h.space
    rw [hpos_scale (maxLen bits 16) h16 _ (fun l hl => (hlens l hl).2)] at h1
    have e : 2 ^ 16 = 2 ^ (16 - maxLen bits 16) * 2 ^ maxLen bits 16 := by rw [← Nat.pow_add]; congr 1; omega
    rw [e] at h1
    exact Nat.le_of_mul_le_mul_left h1 (Nat.two_pow_pos _)
  -- lookup table
  obtain ⟨g, hg⟩ : ∃ g : Nat → Nat → Nat × Nat × Nat,
    g = fun a b => (a % 256, huffval.getD b 0 % 256, (List.replicate 256 0).getD b 0 % 256) := ⟨_, rfl⟩
  obtain ⟨ent, hent⟩ : ∃ ent, ent = ((lensOf 0 bits.tail).zipIdx.flatMap fun p =>
    List.replicate (2 ^ (maxLen bits 16 - p.1)) (g p.1 p.2)) := ⟨_, rfl⟩
  have hlen : ent.length = hpos (maxLen bits 16) (lensOf 0 bits.tail) := by rw [hent]; exact fill_length _ _ _ _
  have hfill : fillTable bits huffval (List.replicate 256 0) (maxLen bits 16) =
      .ok (ent ++ List.replicate (2 ^ maxLen bits 16 - ent.length) (0, 0, 0)) := by
    unfold fillTable
    simp only [hl]
    rw [if_neg (by rw [hv, List.length_replicate]; have := h.enough; omega)]
    have : (List.flatMap (fun p : Nat × Nat => List.replicate (2 ^ (maxLen bits 16 - p.1))
      (p.1 % 256, huffval.getD p.2 0 % 256, (List.replicate 256 0).getD p.2 0 % 256)) (lensOf 0 bits.tail).zipIdx) = ent := by
      rw [hent, hg]
    rw [this, if_pos (by omega)]
  let t0 : HuffTable := ⟨dng, maxLen bits 16, ent ++ List.replicate (2 ^ maxLen bits 16 - ent.length) (0, 0, 0), []⟩
  have hlook : ∀ c, c < 2 ^ maxLen bits 16 → idx t0.table c = .ok (match findSlot (maxLen bits 16) (lensOf 0 bits.tail) c with
      | none => (0, 0, 0)
      | some k => ((lensOf 0 bits.tail).getD k 0, huffval.getD k 0, 0)) := by
    intro c hc
    have hget : ent[c]? = (findSlot (maxLen bits 16) (lensOf 0 bits.tail) c).map
        fun k => g ((lensOf 0 bits.tail).getD k 0) k := by
      rw [hent, fill_get]; simp
    simp only [idx, t0]
    cases hf : findSlot (maxLen bits 16) (lensOf 0 bits.tail) c with
    | none =>
      rw [findSlot_none_iff, ← hlen] at hf
      rw [List.getElem?_append_right hf, List.getElem?_replicate, if_pos (by omega)]
    | some k =>
      rw [hf] at hget
      have hk := findSlot_lt hf
      have hlt : c < ent.length := by
        by_contra hge
        rw [List.getElem?_eq_none (by omega)] at hget
        simp at hget
      rw [List.getElem?_append_left hlt, hget]
      simp only [Option.map_some, hg]
      have hm : (lensOf 0 bits.tail).getD k 0 ∈ lensOf 0 bits.tail := by
        rw [List.getD_eq_getElem?_getD, List.getElem?_eq_getElem hk]; exact List.getElem_mem hk
      have h1 := hlens _ hm
      have h2 := h.vals k hk
      have h3 : (List.replicate 256 0).getD k 0 = 0 := by
        rw [List.getD_eq_getElem?_getD, List.getElem?_replicate]; split <;> rfl
      rw [h3, Nat.mod_eq_of_lt (show (lensOf 0 bits.tail).getD k 0 < 256 by omega),
        Nat.mod_eq_of_lt (show huffval.getD k 0 < 256 by omega)]
  have ht0 : TableOK bits huffval t0 := by
    refine ⟨h16, hlook, ?_, hlens, h.vals⟩
    intro l
    have := refSymbol_findSlot (maxLen bits 16) bits.tail 0 0 0 0 l 0 (by omega) (by
      intro j hj
      have e : bits.tail.getD j 0 = bits.getD (j + 1) 0 := by cases bits <;> simp
      rw [e]
      by_cases h17 : j + 1 ≤ 16
      · exact hz _ (by omega) h17
      · rw [List.getD_eq_getElem?_getD, List.getElem?_eq_none (by rw [h.len]; omega)]; rfl) rfl
    simpa using this
  have hmap := mapM_ok (cacheEntry t0) (fun i =>
    let r := refDecode bits huffval t0.dngBug (bitsMSB 13 i ++ List.replicate 32 false)
    if r.2 ≤ 13 then some (slowSize t0.dngBug r, r.1) else none) (List.range 8192)
    (fun i hi => cacheEntry_ok ht0 i (List.mem_range.1 hi))
  refine ⟨{ t0 with cache := (List.range 8192).map (fun i =>
      let r := refDecode bits huffval t0.dngBug (bitsMSB 13 i ++ List.replicate 32 false)
      if r.2 ≤ 13 then some (slowSize t0.dngBug r, r.1) else none) }, ?_, rfl, ⟨h16, hlook, ht0.sym, hlens, h.vals⟩, ?_⟩
  · simp only [HuffTable.new, hfill, bind, Except.bind]
    rw [show (⟨dng, maxLen bits 16, ent ++ List.replicate (2 ^ maxLen bits 16 - ent.length) (0, 0, 0), []⟩ : HuffTable) = t0
      from rfl, hmap]
  · intro i hi
    simp only [idx]
    rw [List.getElem?_map, List.getElem?_range hi]
    rfl

end Verif.Ljpeg
