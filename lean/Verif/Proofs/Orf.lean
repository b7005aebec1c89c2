import Verif.Model.Orf
import Verif.Spec.Orf
import Verif.Proofs.Hassel
import Verif.Proofs.JpegSub
/-! # Olympus decompression -/

namespace Verif.Orf
open Verif Verif.Pumps Verif.Spec Verif.Spec.Orf

theorem chk {x : Int} (h1 : -2147483648 ≤ x) (h2 : x < 2147483648) : chkI32 x = .ok x := by
  rw [chkI32, if_pos ⟨by simpa using h1, by simpa using h2⟩]

theorem len_le (n k : Nat) : len n ≤ k ↔ n < 2 ^ k := by
  unfold len
  split
  · next h => subst h; simp
  · next h => rw [Nat.add_one_le_iff]; exact Nat.log2_lt h

theorem growBits_ok (c0 i : Nat) (h : c0 < 65536) (hi : i ≤ 2) : ∀ (fuel n : Nat), n ≤ 16 → 17 - n ≤ fuel → 
    growBits c0 i fuel n = .ok (max n (len c0 - i)) := by
  have h16 : len c0 ≤ 16 := (len_le c0 16).2 h
  intro fuel
  induction fuel with
  | zero => intro n h1 h2; omega
  | succ fuel ih =>
    intro n h1 h2
    rw [growBits, if_neg (by omega)]
    have e : (c0 >>> (n + i)) &&& 0xffff = c0 / 2 ^ (n + i) := by
      rw [Nat.shiftRight_eq_div_pow, Nat.and_two_pow_sub_one_eq_mod _ 16, Nat.mod_eq_of_lt]
      exact Nat.lt_of_le_of_lt (Nat.div_le_self _ _) h
    rw [e]
    by_cases hc : c0 < 2 ^ (n + i)
    · rw [Nat.div_eq_of_lt hc, if_neg (by omega)]
      have := (len_le c0 (n + i)).2 hc
      congr 1; omega
    · have := mt (len_le c0 (n + i)).1 hc
      rw [if_pos (Nat.div_pos (by omega) (Nat.two_pow_pos _)), ih (n + 1) (by omega) (by omega)]
      congr 1; omega

/-- The state as the program keeps it. -/
def ofState (a : State) : Carry := ⟨a.last, a.avg, a.small⟩

theorem nbitsFor_ok (a : State) (h : a.last < 65536) : nbitsFor (ofState a) = .ok a.digits := by
  rw [nbitsFor]
  simp only [State.digits]
  generalize hi : (if (ofState a).c2 < 3 then 2 else 0 : Nat) = i
  have hi' : (if a.small < 3 then 2 else 0 : Nat) = i := hi
  have : i ≤ 2 := by rw [← hi']; by_cases h : a.small < 3 <;> simp [h]
  rw [growBits_ok (ofState a).c0 _ h this _ _ (by omega) (by omega), hi']
  simp only [bind, Except.bind]
  congr 1; simp only [ofState]; omega

theorem digits_le (a : State) : 2 ≤ a.digits ∧ a.digits ≤ 16 := by
  unfold State.digits
  simp only
  omega

theorem leading_first : ∀ h, h < 12 → ∀ t, t < 2 ^ (11 - h) → leading (2 ^ (11 - h) + t) = h := by
  decide +kernel

/-- The first fifteen bits. -/
theorem first15 (sg : Bool) (low : Nat) (hl : low < 4) (r : List Bool) :
    let b := natMSB (takeZ 15 ([sg] ++ bitsMSB 2 low ++ r))
    b >>> 14 = sg.toNat ∧ (b >>> 12) &&& 3 = low ∧ b &&& 4095 = natMSB (takeZ 12 r) := by
  simp only
  rw [takeZ_append (n := 3) (m := 12) (by simp), natMSB_append, natMSB_append, natMSB_bitsMSB, natMSB_cons, natMSB_nil, length_takeZ]
  have hx := natMSB_lt (takeZ 12 r)
  rw [length_takeZ] at hx
  simp only [List.length_nil, length_bitsMSB]
  rw [Nat.and_two_pow_sub_one_eq_mod _ 2, Nat.and_two_pow_sub_one_eq_mod _ 12, Nat.shiftRight_eq_div_pow, Nat.shiftRight_eq_div_pow]
  have := Bool.toNat_le sg
  omega

theorem leading_short {h : Nat} (hh : h < 12) (r : List Bool) : leading (natMSB (takeZ 12 (List.replicate h false ++ [true] ++ r))) = h := by
  have e := takeZ_append (n := h + 1) (m := 11 - h) (l := List.replicate h false ++ [true]) (k := r) (by simp)
  rw [show h + 1 + (11 - h) = 12 by omega] at e
  rw [e, natMSB_append, natMSB_append, natMSB_replicate_false, length_takeZ]
  have hx := natMSB_lt (takeZ (11 - h) r)
  rw [length_takeZ] at hx
  have := leading_first h hh _ hx
  simpa [natMSB_cons] using this

theorem leading_long (r : List Bool) : leading (natMSB (takeZ 12 (List.replicate 12 false ++ r))) = 12 := by
  have e := takeZ_append (n := 12) (m := 0) (l := List.replicate 12 false) (k := r) (by simp)
  rw [show 12 + 0 = 12 by omega] at e
  rw [e, takeZ_zero, List.append_nil, natMSB_replicate_false]
  decide

/-- The state is one the program can calculate with. -/
def Small (a : State) : Prop := a.last < 65536 ∧ -65536 ≤ a.avg ∧ a.avg ≤ 65536

theorem shl_or_val (a n v : Nat) (hv : v < 2 ^ n) : (a <<< n) ||| v = a * 2 ^ n + v := by
  rw [Nat.shiftLeft_eq, Nat.mul_comm, Nat.two_pow_add_eq_or_of_lt hv]

theorem readHigh_short (p : PumpMSB) (n h : Nat) (pre r : List Bool) (hh : h < 12) (hr : p.Rep (pre ++ r)) (hl : pre.length = h + 4)
    (ha : h + 4 ≤ p.nbits) : ∃ p', readHigh p n h = .ok (h, p') ∧ p'.Rep r := by
  obtain ⟨p2, e2, r2, _⟩ := PumpMSB.lawful.consume_ok p _ (h + 4) hr ha
  rw [List.drop_left' hl] at r2
  refine ⟨p2, ?_, r2⟩
  rw [readHigh, if_neg (by omega), e2]; rfl

theorem readHigh_long (p : PumpMSB) (n h : Nat) (pre r : List Bool) (x : Bool) (hn : n ≤ 15) (hh : h < 2 ^ (15 - n))
    (hr : p.Rep (pre ++ (bitsMSB (15 - n) h ++ [x] ++ r))) (hl : pre.length = 15)
    (ha : 15 ≤ p.nbits) : ∃ p', readHigh p n 12 = .ok (h, p') ∧ p'.Rep r := by
  obtain ⟨p2, e2, r2, _⟩ := PumpMSB.lawful.consume_ok p _ 15 hr ha
  rw [List.drop_left' hl] at r2
  have e : bitsMSB (15 - n) h ++ [x] = bitsMSB (16 - n) (h * 2 ^ 1 + x.toNat) := by
    rw [show 16 - n = 15 - n + 1 by omega, bitsMSB_append _ _ _ _ (by have := Bool.toNat_le x; omega)]
    cases x <;> rfl
  rw [e] at r2
  have hx := Bool.toNat_le x
  obtain ⟨p3, e3, r3⟩ := PumpMSB.get_field p2 _ _ r r2 (by rw [show 16 - n = 15 - n + 1 by omega, Nat.pow_succ]; omega) (by omega)
  refine ⟨p3, ?_, r3⟩
  rw [readHigh, if_pos rfl, e2]
  simp only [bind, Except.bind]
  rw [e3]
  simp only
  rw [Nat.shiftRight_eq_div_pow]
  congr 2; omega

/-- A residual is read, and the state is the next one. -/
theorem readDiff_ok (p : PumpMSB) (a : State) (v : Int) (bits rest : List Bool) (ha : Small a) (hv : -1048576 ≤ v ∧ v ≤ 1048576)
    (hc : a.Coded v bits) (hm : 9 ≤ rest.length) (hr : p.Rep (bits ++ rest)) :
    ∃ p', readDiff p (ofState a) = .ok ((v / 4, (v % 4).toNat), p', ofState (a.next v)) ∧ p'.Rep rest := by
  obtain ⟨h1, h2, h3⟩ := ha
  obtain ⟨hm16, high, rfl, hhigh⟩ := hc
  obtain ⟨n2, n16⟩ := digits_le a
  generalize hM : mag (a.signed v) = m at *
  generalize hN : a.digits = n at *
  have hlow : (v % 4).toNat < 4 := by omega
  have hlen : 1 ≤ high.length := by
    rcases hhigh with ⟨_, rfl⟩ | ⟨_, _, x, rfl⟩ <;> simp
  obtain ⟨p1, e1, r1, a1⟩ := PumpMSB.lawful.peek_ok p _ 15 hr (by omega) (by simp; omega)
  rw [List.append_assoc, List.append_assoc] at e1
  obtain ⟨f1, f2, f3⟩ := first15 (decide (a.signed v < 0)) (v % 4).toNat hlow (high ++ (bitsMSB n (m % 2 ^ n) ++ rest))
  generalize natMSB (takeZ 15 ([decide (a.signed v < 0)] ++ bitsMSB 2 (v % 4).toNat ++ (high ++ (bitsMSB n (m % 2 ^ n) ++ rest)))) = b at *
  have hH : ∃ p2, readHigh p1 n (leading (b &&& 4095)) = .ok (m / 2 ^ n, p2) ∧ p2.Rep (bitsMSB n (m % 2 ^ n) ++ rest) := by
    rw [f3]
    rcases hhigh with ⟨hq, rfl⟩ | ⟨hn15, hq, x, rfl⟩
    · rw [leading_short hq]
      refine readHigh_short p1 n _ ([decide (a.signed v < 0)] ++ bitsMSB 2 (v % 4).toNat ++ (List.replicate (m / 2 ^ n) false ++ [true])) _ hq ?_ ?_ (by
        have : p1.nbits = PumpMSB.nbits p1 := rfl
        omega)
      · simpa only [List.append_assoc] using r1
      · simp; omega
    · rw [List.append_assoc, List.append_assoc, leading_long]
      refine readHigh_long p1 n _ ([decide (a.signed v < 0)] ++ bitsMSB 2 (v % 4).toNat ++ List.replicate 12 false) _ x hn15 hq ?_ (by simp) a1
      simpa only [List.append_assoc] using r1
  obtain ⟨p2, e2, r2⟩ := hH
  obtain ⟨p3, e3, r3⟩ := PumpMSB.get_field p2 n _ rest r2 (Nat.mod_lt _ (Nat.two_pow_pos _)) (by omega)
  refine ⟨p3, ?_, r3⟩
  rw [readDiff, nbitsFor_ok a h1, hN]
  simp only [bind, Except.bind]
  rw [e1]
  simp only
  rw [e2]
  simp only
  rw [e3]
  simp only
  rw [shl_or_val _ _ _ (Nat.mod_lt _ (Nat.two_pow_pos _)), Nat.div_add_mod', f1, f2]
  have hd : (if (decide (a.signed v < 0)).toNat = 0 then (m : Int) else -1 - m) + a.avg = v / 4 := by
    rw [← hM]
    unfold mag
    unfold State.signed
    by_cases hs : v / 4 - a.avg < 0
    · rw [if_pos hs, decide_eq_true hs, Bool.toNat_true, if_neg (by omega)]; omega
    · rw [if_neg hs, decide_eq_false hs, Bool.toNat_false, if_pos rfl]; omega
  have hd' : (if (decide (a.signed v < 0)).toNat = 0 then (m : Int) else -1 - m) + (ofState a).c1 = v / 4 := hd
  rw [hd', chk (by omega) (by omega)]
  simp only
  rw [chk (by omega) (by omega)]
  simp only [ofState]
  rw [chk (by omega) (by omega)]
  simp only [State.next, hM]
  rw [Int.mul_comm 3]

theorem mul_neg_iff' (a b : Int) : a * b < 0 ↔ (a < 0 ∧ 0 < b) ∨ (b < 0 ∧ 0 < a) := by
  constructor
  · intro h
    rcases Int.lt_trichotomy a 0 with ha | rfl | ha
    · rcases Int.lt_trichotomy b 0 with hb | rfl | hb
      · have := Int.mul_pos_of_neg_of_neg ha hb; omega
      · simp at h
      · exact .inl ⟨ha, hb⟩
    · simp at h
    · rcases Int.lt_trichotomy b 0 with hb | rfl | hb
      · exact .inr ⟨hb, ha⟩
      · simp at h
      · have := Int.mul_pos ha hb; omega
  · rintro (⟨ha, hb⟩ | ⟨hb, ha⟩)
    · exact Int.mul_neg_of_neg_of_pos ha hb
    · exact Int.mul_neg_of_pos_of_neg ha hb

theorem mul_range (a b : Int) (ha : a.natAbs ≤ 32767) (hb : b.natAbs ≤ 32767) : -1073741824 ≤ a * b ∧ a * b ≤ 1073741824 := by
  have := Nat.mul_le_mul ha hb
  rw [← Int.natAbs_mul] at this
  omega

/-- The samples are below 32768. -/
def Range (f : Nat → Nat → Nat) (w h : Nat) : Prop := ∀ r c, r < h → c < w → f r c < 32768

theorem predicted_range {f : Nat → Nat → Nat} {w h r c : Nat} (hf : Range f w h) (hr : r < h) (hc : c < w) :
    0 ≤ predicted f r c ∧ predicted f r c < 32768 := by
  have h1 := hf r (c - 2) hr (by omega)
  have h2 := hf (r - 2) c (by omega) hc
  have h3 := hf (r - 2) (c - 2) (by omega) (by omega)
  unfold predicted
  simp only
  generalize f r (c - 2) = L at *
  generalize f (r - 2) c = U at *
  generalize f (r - 2) (c - 2) = N at *
  repeat' split
  all_goals omega

theorem residual_range {f : Nat → Nat → Nat} {w h r c : Nat} (hf : Range f w h) (hr : r < h) (hc : c < w) :
    -32768 ≤ residual f r c ∧ residual f r c < 32768 := by
  have := predicted_range hf hr hc
  have := hf r c hr hc
  unfold residual
  omega

theorem avg_range {f : Nat → Nat → Nat} {w h r s : Nat} (hf : Range f w h) (hr : r < h) :
    ∀ k, 2 * k + s ≤ w + 1 → (-1000 ≤ (state f r s k).avg ∧ (state f r s k).avg ≤ 1000) ∧ (state f r s k).last < 65536 := by
  intro k
  induction k with
  | zero => intro _; simp [state, State.start]
  | succ k ih =>
    intro hk
    replace ih := (ih (by omega)).1
    have := residual_range hf hr (c := 2 * k + s) (by omega)
    rw [state]
    generalize residual f r (2 * k + s) = v at *
    generalize state f r s k = a at *
    refine ⟨by simp only [State.next]; omega, ?_⟩
    have hs : a.signed v = v / 4 - a.avg := rfl
    simp only [State.next, mag]
    by_cases h0 : a.signed v < 0
    · rw [if_pos h0]; omega
    · rw [if_neg h0]; omega

/-- The image as far as row `r`, column `q`. -/
def img (f : Nat → Nat → Nat) (w r q : Nat) (r' c : Nat) : Nat := if (r' < r ∨ (r' = r ∧ c < q)) ∧ c / 2 < w / 2 then f r' c else 0

/-- What is kept for the columns of one parity, before pair `k` of row `r`. -/
structure SideOk (f : Nat → Nat → Nat) (r k s : Nat) (sd : Side) : Prop where
  c : sd.c = ofState (state f r s k)
  left : 0 < k → sd.left = f r (2 * (k - 1) + s)
  nw : 0 < k → 2 ≤ r → sd.nw = f (r - 2) (2 * (k - 1) + s)

theorem ok_bind {α β : Type} (a : α) (f : α → R β) : ((.ok a : R α) >>= f) = f a := rfl

theorem inner_ok (L U N : Nat) (g1 : L < 32768) (g2 : U < 32768) (g3 : N < 32768) :
    ∃ nw : Int, (do
      let up ← (.ok U : R Nat)
      let a ← chkI32 ((L : Int) - N)
      let b ← chkI32 (up - N)
      let m ← chkI32 (a * b)
      if m < 0 then
        if a.natAbs > 32 ∨ b.natAbs > 32 then do
          let v ← chkI32 (L + b)
          .ok (v, (up : Int))
        else do
          let v ← chkI32 (L + up)
          .ok (v / 2, (up : Int))
      else if a.natAbs > b.natAbs then .ok ((L : Int), (up : Int))
      else .ok ((up : Int), (up : Int))) = (.ok (if ((L : Int) < N ∧ (N : Int) < U) ∨ ((U : Int) < N ∧ (N : Int) < L) then
      if ((L : Int) - N).natAbs > 32 ∨ ((U : Int) - N).natAbs > 32 then (L : Int) + U - N else (L + U) / 2
    else if ((L : Int) - N).natAbs > ((U : Int) - N).natAbs then (L : Int) else U, nw) : R (Int × Int)) ∧ nw = U := by
  refine ⟨U, ?_, rfl⟩
  rw [ok_bind, chk (x := (L : Int) - N) (by omega) (by omega), ok_bind, chk (x := (U : Int) - N) (by omega) (by omega), ok_bind]
  have hm := mul_range ((L : Int) - N) (U - N) (by omega) (by omega)
  have hneg := mul_neg_iff' ((L : Int) - N) (U - N)
  rw [chk (by omega) (by omega), ok_bind]
  by_cases b4 : ((L : Int) < N ∧ (N : Int) < U) ∨ ((U : Int) < N ∧ (N : Int) < L)
  · rw [if_pos (hneg.2 (by omega)), if_pos b4]
    by_cases b5 : ((L : Int) - N).natAbs > 32 ∨ ((U : Int) - N).natAbs > 32
    · rw [if_pos b5, if_pos b5, chk (by omega) (by omega), ok_bind, show (L : Int) + (U - N) = L + U - N by omega]
    · rw [if_neg b5, if_neg b5, chk (by omega) (by omega), ok_bind]
  · rw [if_neg (fun h => b4 (by have := hneg.1 h; omega)), if_neg b4]
    by_cases b5 : ((L : Int) - N).natAbs > ((U : Int) - N).natAbs
    · rw [if_pos b5, if_pos b5]
    · rw [if_neg b5, if_neg b5]

theorem predict_ok {f : Nat → Nat → Nat} {w h r k s : Nat} (hf : Range f w h) (hr : r < h) (hk : k < w / 2) (hs : s < 2) {out : List Nat}
    (ho : Holds out w h (img f w r (2 * k + s))) {sd : Side} (h1 : 0 < k → sd.left = f r (2 * (k - 1) + s))
    (h2 : 0 < k → 2 ≤ r → sd.nw = f (r - 2) (2 * (k - 1) + s)) :
    ∃ nw, predict out w r (k * 2) s sd = .ok (predicted f r (2 * k + s), nw) ∧ (2 ≤ r → nw = f (r - 2) (2 * k + s)) := by
  have hc : k * 2 + s = 2 * k + s := by omega
  have hup : 2 ≤ r → idx out ((r - 2) * w + (2 * k + s)) = .ok (f (r - 2) (2 * k + s)) := by
    intro h2r
    rw [ho.read (r := r - 2) (c := 2 * k + s) (by omega) (by omega) rfl, img, if_pos (by omega)]
  unfold predict predicted
  rw [hc]
  by_cases b1 : r < 2 ∨ k * 2 < 2
  · rw [if_pos b1]
    by_cases b2 : r < 2 ∧ k * 2 < 2
    · rw [if_pos b2, if_pos (show r < 2 ∧ 2 * k + s < 2 by omega)]
      exact ⟨_, rfl, by omega⟩
    · rw [if_neg b2, if_neg (show ¬(r < 2 ∧ 2 * k + s < 2) by omega)]
      by_cases b3 : r < 2
      · rw [if_pos b3, if_pos b3, h1 (by omega), show 2 * k + s - 2 = 2 * (k - 1) + s by omega]
        exact ⟨_, rfl, by omega⟩
      · rw [if_neg b3, if_neg b3, hup (by omega), if_pos (show 2 * k + s < 2 by omega)]
        exact ⟨_, rfl, fun _ => rfl⟩
  · rw [if_neg b1, if_neg (show ¬(r < 2 ∧ 2 * k + s < 2) by omega), if_neg (show ¬r < 2 by omega), if_neg (show ¬2 * k + s < 2 by omega), hup (by omega), h1 (by omega), h2 (by omega) (by omega),
      show 2 * k + s - 2 = 2 * (k - 1) + s by omega]
    have g1 := hf r (2 * (k - 1) + s) hr (by omega)
    have g2 := hf (r - 2) (2 * k + s) (by omega) (by omega)
    have g3 := hf (r - 2) (2 * (k - 1) + s) (by omega) (by omega)
    obtain ⟨nw, e, h⟩ := inner_ok _ _ _ g1 g2 g3
    exact ⟨nw, e, fun _ => h⟩

theorem pixel_ok {f : Nat → Nat → Nat} {w h r k s : Nat} (hf : Range f w h) (hr : r < h) (hk : k < w / 2) (hs : s < 2) {out : List Nat}
    (ho : Holds out w h (img f w r (2 * k + s))) {sd : Side} (hsd : SideOk f r k s sd) {p : PumpMSB} {bits rest : List Bool}
    (hc : (state f r s k).Coded (residual f r (2 * k + s)) bits) (hm : 9 ≤ rest.length) (hp : p.Rep (bits ++ rest)) :
    ∃ out' p' sd', pixel w r (k * 2) s out p sd = .ok (out', p', sd') ∧ Holds out' w h (img f w r (2 * k + s + 1)) ∧ p'.Rep rest ∧
      SideOk f r (k + 1) s sd' := by
  have hcol : 2 * k + s < w := by omega
  obtain ⟨⟨a1, a2⟩, a3⟩ := avg_range (s := s) hf hr k (by omega)
  have hv := residual_range hf hr hcol
  obtain ⟨p', e1, r1⟩ := readDiff_ok p (state f r s k) _ bits rest ⟨a3, by omega, by omega⟩ ⟨by omega, by omega⟩ hc hm hp
  obtain ⟨nw, e2, hnw⟩ := predict_ok hf hr hk hs ho hsd.left hsd.nw
  obtain ⟨out', e3, ho'⟩ := ho.write (r := r) (c := 2 * k + s) hr hcol (f r (2 * k + s)) (i := r * w + (k * 2 + s)) (by omega)
  have hpr := predicted_range hf hr hcol
  have hpx := hf r (2 * k + s) hr hcol
  have hsum : predicted f r (2 * k + s) + ((residual f r (2 * k + s) / 4 * 4 + 2 ^ 31) % 2 ^ 32 - 2 ^ 31 + ((residual f r (2 * k + s) % 4).toNat : Int)) =
      (f r (2 * k + s) : Int) := by
    unfold residual at hv ⊢
    generalize predicted f r (2 * k + s) = q at *
    omega
  refine ⟨out', p', ⟨ofState (state f r s (k + 1)), f r (2 * k + s), nw⟩, ?_, ?_, r1, ⟨rfl, fun _ => rfl, fun _ h2 => hnw h2⟩⟩
  · rw [pixel, hsd.c, e1]
    simp only [bind, Except.bind]
    rw [e2]
    simp only
    rw [hsum, chk (by omega) (by omega)]
    simp only
    rw [Verif.Ljpeg.asU16_nat (by omega), e3]
    rfl
  · refine ho'.same fun r' c hr' hc' => ?_
    unfold img
    by_cases h0 : r' = r ∧ c = 2 * k + s
    · obtain ⟨rfl, rfl⟩ := h0
      rw [if_pos ⟨rfl, rfl⟩, if_pos (by omega)]
    · rw [if_neg h0]
      by_cases h1 : (r' < r ∨ (r' = r ∧ c < 2 * k + s)) ∧ c / 2 < w / 2
      · rw [if_pos h1, if_pos (by omega)]
      · rw [if_neg h1, if_neg (by omega)]

theorem pair_ok {f : Nat → Nat → Nat} {w h r k : Nat} (hf : Range f w h) (hr : r < h) (hk : k < w / 2) {out : List Nat}
    (ho : Holds out w h (img f w r (2 * k))) {a b : Side} (ha : SideOk f r k 0 a) (hb : SideOk f r k 1 b) {p : PumpMSB} {b0 b1 rest : List Bool}
    (h0 : (state f r 0 k).Coded (residual f r (2 * k)) b0) (h1 : (state f r 1 k).Coded (residual f r (2 * k + 1)) b1)
    (hm : 9 ≤ rest.length) (hp : p.Rep ((b0 ++ b1) ++ rest)) :
    ∃ out' p' a' b', pair w r k (out, p, a, b) = .ok (out', p', a', b') ∧ Holds out' w h (img f w r (2 * (k + 1))) ∧ p'.Rep rest ∧
      SideOk f r (k + 1) 0 a' ∧ SideOk f r (k + 1) 1 b' := by
  rw [List.append_assoc] at hp
  obtain ⟨o1, p1, a1, e1, ho1, r1, i1⟩ := pixel_ok (s := 0) hf hr hk (by omega) ho ha h0 (by rw [List.length_append]; omega) hp
  obtain ⟨o2, p2, a2, e2, ho2, r2, i2⟩ := pixel_ok (s := 1) hf hr hk (by omega) ho1 hb h1 hm r1
  refine ⟨o2, p2, a1, a2, ?_, ho2, r2, i1, i2⟩
  rw [pair]
  simp only
  rw [e1]
  simp only [bind, Except.bind]
  rw [e2]

theorem row_ok {f : Nat → Nat → Nat} {w h r : Nat} (hf : Range f w h) (hr : r < h) {out : List Nat}
    (ho : Holds out w h (img f w r 0)) (a b : Side) {p : PumpMSB} {bb : Nat → List Bool} {rest : List Bool}
    (hc : ∀ k s, k < w / 2 → s < 2 → (state f r s k).Coded (residual f r (2 * k + s)) (bb (2 * k + s)))
    (hm : 9 ≤ rest.length) (hp : p.Rep (((List.range (w / 2)).flatMap fun k => bb (2 * k) ++ bb (2 * k + 1)) ++ rest)) :
    ∃ st, row w r (out, p, a, b) = .ok st ∧ Holds st.1 w h (img f w (r + 1) 0) ∧ st.2.1.Rep rest := by
  obtain ⟨st, e, ⟨h1, _, _⟩, h4⟩ := Verif.Ljpeg.forN_readm (pair w r) (fun k => bb (2 * k) ++ bb (2 * k + 1))
    (fun k (st : List Nat × PumpMSB × Side × Side) => Holds st.1 w h (img f w r (2 * k)) ∧ SideOk f r k 0 st.2.2.1 ∧ SideOk f r k 1 st.2.2.2)
    (fun st l => st.2.1.Rep l) 9 (w / 2) (by
      rintro k ⟨o, p, a, b⟩ rest hk ⟨i1, i2, i3⟩ hm hp
      obtain ⟨o', p', a', b', e, j1, j2, j3, j4⟩ := pair_ok hf hr hk i1 i2 i3 (hc k 0 hk (by omega)) (hc k 1 hk (by omega)) hm hp
      exact ⟨_, e, ⟨j1, j3, j4⟩, j2⟩)
    (out, p, { a with c := ⟨0, 0, 0⟩ }, { b with c := ⟨0, 0, 0⟩ }) rest
    ⟨ho, ⟨rfl, by omega, by omega⟩, ⟨rfl, by omega, by omega⟩⟩ hm hp
  refine ⟨st, e, h1.same fun r' c hr' hc' => ?_, h4⟩
  unfold img
  by_cases h2 : (r' < r ∨ (r' = r ∧ c < 2 * (w / 2))) ∧ c / 2 < w / 2
  · rw [if_pos h2, if_pos (by omega)]
  · rw [if_neg h2, if_neg (by omega)]

theorem decodeOrf_ok {f : Nat → Nat → Nat} {w h bps : Nat} (hf : Range f w h) {b : Nat → Nat → List Bool}
    (hc : ∀ r k s, r < h → k < w / 2 → s < 2 → (state f r s k).Coded (residual f r (2 * k + s)) (b r (2 * k + s)))
    {hdr data : List Nat} {rest : List Bool} (hh : hdr.length = if bps = 14 then 8 else 7) (hb : IsBytes data)
    (hbits : bytesMSB data = scanBits b w h ++ rest) (hm : 9 ≤ rest.length) :
    ∃ out, decodeOrf (hdr ++ data) w h bps = .ok out ∧ Holds out w h fun r c => if c / 2 < w / 2 then f r c else 0 := by
  have hp := PumpMSB.rep_new data hb
  rw [hbits] at hp
  obtain ⟨st, e, h1, _⟩ := Verif.Ljpeg.forN_readm (row w) (fun r => (List.range (w / 2)).flatMap fun k => b r (2 * k) ++ b r (2 * k + 1))
    (fun r (st : List Nat × PumpMSB × Side × Side) => Holds st.1 w h (img f w r 0))
    (fun st l => st.2.1.Rep l) 9 h (by
      rintro r ⟨o, p, a, b'⟩ rest hr i1 hm hp
      exact row_ok hf hr i1 a b' (fun k s hk hs => hc r k s hr hk hs) hm hp)
    (List.replicate (w * h) 0, PumpMSB.new data, ⟨⟨0, 0, 0⟩, 0, 0⟩, ⟨⟨0, 0, 0⟩, 0, 0⟩) rest
    ((holds_replicate w h 0).same fun r c _ _ => by rw [img, if_neg (by omega)]) hm hp
  refine ⟨st.1, ?_, h1.same fun r c hr hc => ?_⟩
  · rw [decodeOrf]
    simp only
    rw [if_neg (by rw [List.length_append, hh]; omega), List.drop_left' hh, e]
    rfl
  · unfold img
    by_cases h2 : c / 2 < w / 2
    · rw [if_pos h2, if_pos (by omega)]
    · rw [if_neg h2, if_neg (by omega)]

end Verif.Orf
