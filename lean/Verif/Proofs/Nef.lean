import Verif.Proofs.Pef
import Verif.Proofs.Arw1
import Verif.Model.Nef
import Verif.Spec.Nef
import Verif.Props.HuffDecode
import Verif.Props.Linearize
import Verif.Props.CrxRange
/-! # Nikon NEF -/

namespace Verif.Nef
open Verif Verif.Pumps Verif.Ljpeg Verif.Spec Verif.Spec.TwoRow Verif.Spec.Nef Verif.TwoRow Verif.Pef

/-! ### the codes -/

theorem goodDhtS_of_valid {bits huffval shiftval : List Nat} (h : ValidTree bits huffval shiftval) : GoodDhtS bits huffval shiftval where
  len := h.counts
  space := by rw [Props.hpos_lensOf]; exact h.kraft
  vals := by
    intro k hk
    rw [Props.length_lensOf] at hk
    exact h.cats k hk
  enough := by rw [Props.length_lensOf, h.values]; exact h.total

/-- What the tables of the decoder and of the format have in common. -/
def Agrees (n : Nat) : Prop :=
  ∃ e, idx NIKON_TREE n = .ok e ∧ ValidTree (treeArrays e).1 (treeArrays e).2.1 (treeArrays e).2.2 ∧
    (treeArrays e).1.tail.sum = words n ∧
    ∀ k, k < words n → (treeArrays e).2.1.getD k 0 = digits n k ∧ (treeArrays e).2.2.getD k 0 = dropped n k ∧
      codeWord (treeArrays e).1.tail k = codeWord (trees.getD n ([], [])).1 k

theorem agrees0 : Agrees 0 := ⟨_, rfl, by decide +kernel, by decide +kernel, by decide +kernel⟩
theorem agrees1 : Agrees 1 := ⟨_, rfl, by decide +kernel, by decide +kernel, by decide +kernel⟩
theorem agrees2 : Agrees 2 := ⟨_, rfl, by decide +kernel, by decide +kernel, by decide +kernel⟩
theorem agrees3 : Agrees 3 := ⟨_, rfl, by decide +kernel, by decide +kernel, by decide +kernel⟩
theorem agrees4 : Agrees 4 := ⟨_, rfl, by decide +kernel, by decide +kernel, by decide +kernel⟩
theorem agrees5 : Agrees 5 := ⟨_, rfl, by decide +kernel, by decide +kernel, by decide +kernel⟩

theorem agrees (n : Nat) (h : n < 6) : Agrees n := by
  match n, h with
  | 0, _ => exact agrees0
  | 1, _ => exact agrees1
  | 2, _ => exact agrees2
  | 3, _ => exact agrees3
  | 4, _ => exact agrees4
  | 5, _ => exact agrees5

/-- `t` reads code `n`. -/
def Reads (t : HuffTable) (n : Nat) : Prop := ∀ a, Legal n a → Decodes t (word n a) (value n a)

theorem create_ok (n : Nat) (h : n < 6) : ∃ t, createHufftable n = .ok t ∧ Reads t n := by
  obtain ⟨e, he, hv, hs, hk⟩ := agrees n h
  have hg := goodDhtS_of_valid hv
  obtain ⟨t, et, _, ht, hc⟩ := HuffTable.newS_ok _ _ _ false hg hv.values hv.shifts
  refine ⟨t, ?_, ?_⟩
  · rw [createHufftable, he]; exact et
  · rintro ⟨k, x⟩ ⟨h1, h2⟩ p rest hr hm
    obtain ⟨k1, k2, k3⟩ := hk k h1
    obtain ⟨p', e, r⟩ := decode_word PumpMSB.lawful (fun l n h => h) hg ht hc k x (by rw [hs]; exact h1) (by rw [k1]; exact h2) p rest
      (by rw [k1, k3]; exact hr) hm
    rw [k1, k2] at e
    exact ⟨p', e, r⟩

/-! ### the picture -/

section
variable {tbl : List (Nat × Nat × Nat)} {bits w h : Nat} {start px : Nat → Nat → Int} {code : Nat → Nat → List Bool} {Q : Nat → Nat → Prop}
  {rnd : Nat → Nat}

/-- Dithering of `v` with the random number `rand` gives a value as wanted and the next random number `rand'`. -/
def Dithers (tbl : List (Nat × Nat × Nat)) (v rand rand' : Nat) (P : Nat → Prop) : Prop :=
  ∃ q, Linearize.dither tbl v rand = .ok (q, rand') ∧ P q

theorem pairs_ok {t : HuffTable} (r m : Nat) (hw : w = 2 * m) (hr : r < h)
    (hdec : ∀ c, c < w → Decodes t (code r c) (px r c - before start px r c))
    (hpx : ∀ c, c < w → -2 ^ 31 ≤ px r c ∧ px r c < 2 ^ 31)
    (hQ : ∀ c, c < w → Dithers tbl (clampbits (px r c) bits) (rnd (r * w + c)) (rnd (r * w + c + 1)) (Q (r * w + c)))
    (p : PumpMSB) (out : List Nat) (rest : List Bool) (ho : Done (w * h) Q (r * w) out)
    (hrep : p.Rep ((List.range m).flatMap (fun k => if k = 0 then [] else code r (2 * k) ++ code r (2 * k + 1)) ++ rest))
    (hm : 32 ≤ rest.length) :
    ∃ p' l1 l2 out', forN m (nefPair t tbl bits w r) (p, rnd (r * w), px r 0, px r 1, out) = .ok (p', rnd (r * w + w), l1, l2, out') ∧
      p'.Rep rest ∧ Done (w * h) Q (r * w + w) out' := by
  have hN : r * w + w ≤ w * h := by
    have : (r + 1) * w ≤ h * w := Nat.mul_le_mul_right _ hr
    rw [Nat.add_mul, Nat.one_mul, Nat.mul_comm h] at this; exact this
  obtain ⟨p', ⟨random', l1, l2, out'⟩, e, hp', hinv⟩ := forN_code PumpMSB.Rep m (nefPair t tbl bits w r)
    (fun k => if k = 0 then [] else code r (2 * k) ++ code r (2 * k + 1))
    (fun k st => st.1 = rnd (r * w + 2 * k) ∧ st.2.1 = px r (2 * (k - 1)) ∧ st.2.2.1 = px r (2 * (k - 1) + 1) ∧ Done (w * h) Q (r * w + 2 * k) st.2.2.2) 32
    (by
      intro k hk p ⟨random, l1, l2, out⟩ rest ⟨h0, h1, h2, h3⟩ hrep hm
      simp only at h0 h1 h2 h3
      subst h0 h1 h2
      have hx1 := hpx (2 * k) (by omega)
      have hx2 := hpx (2 * k + 1) (by omega)
      have step : ∃ p1 p2, nextDiff t (2 * k) p (px r (2 * (k - 1))) = .ok (px r (2 * k), p1) ∧
          nextDiff t (2 * k) p1 (px r (2 * (k - 1) + 1)) = .ok (px r (2 * k + 1), p2) ∧
          p2.Rep rest := by
        by_cases hk0 : k = 0
        · subst hk0
          exact ⟨p, p, rfl, rfl, hrep⟩
        · rw [if_neg hk0, List.append_assoc] at hrep
          have hb1 : before start px r (2 * k) = px r (2 * (k - 1)) := by
            rw [before, if_pos (by omega)]; congr 1; omega
          have hb2 : before start px r (2 * k + 1) = px r (2 * (k - 1) + 1) := by
            rw [before, if_pos (by omega)]; congr 1; omega
          have hd1 := hdec (2 * k) (by omega)
          have hd2 := hdec (2 * k + 1) (by omega)
          rw [hb1] at hd1
          rw [hb2] at hd2
          obtain ⟨p1, e1, r1⟩ := addDiff_ok hd1 hx1.1 hx1.2 p _ hrep (by rw [List.length_append]; omega)
          obtain ⟨p2, e2, r2⟩ := addDiff_ok hd2 hx2.1 hx2.2 p1 _ r1 hm
          exact ⟨p1, p2, by rw [nextDiff, if_pos (by omega)]; exact e1, by rw [nextDiff, if_pos (by omega)]; exact e2, r2⟩
      obtain ⟨p1, p2, e1, e2, r2⟩ := step
      obtain ⟨q1, f1, g1⟩ := hQ (2 * k) (by omega)
      obtain ⟨q2, f2, g2⟩ := hQ (2 * k + 1) (by omega)
      obtain ⟨o1, e3, d1⟩ := h3.put (by omega) q1 g1
      obtain ⟨o2, e4, d2⟩ := d1.put (by omega) q2 g2
      refine ⟨p2, (rnd (r * w + 2 * (k + 1)), px r (2 * k), px r (2 * k + 1), o2), ?_, r2, rfl, ?_, ?_, ?_⟩
      · simp only [nefPair, bind, Except.bind]
        rw [e1]
        simp only
        rw [e2]
        simp only
        rw [f1]
        simp only
        rw [e3]
        simp only
        rw [show r * w + 2 * k + 1 = r * w + (2 * k + 1) by omega, f2]
        simp only
        rw [show r * w + (2 * k + 1) = r * w + 2 * k + 1 by omega, e4, show r * w + 2 * k + 1 + 1 = r * w + 2 * (k + 1) by omega]
      · rw [Nat.add_sub_cancel]
      · rw [Nat.add_sub_cancel]
      · rw [show r * w + 2 * (k + 1) = r * w + 2 * k + 1 + 1 by omega]; exact d2)
    p (rnd (r * w), px r 0, px r 1, out) rest ⟨rfl, rfl, rfl, by simpa using ho⟩ hrep hm
  have hr' := hinv.1
  simp only at hr'
  rw [← hw] at hr'
  subst hr'
  refine ⟨p', l1, l2, out', e, hp', ?_⟩
  have := hinv.2.2.2
  rw [← hw] at this
  exact this

theorem row_ok (hd : Header) (r m : Nat) (hw : w = 2 * (m + 1)) (hr : r < h) {st : NSt} {t : HuffTable}
    (ht : rowTable hd r st.t = .ok t)
    (hdec : ∀ c, c < w → Decodes t (code r c) (px r c - before start px r c))
    (hpx : ∀ c, c < w → -2 ^ 31 ≤ px r c ∧ px r c < 2 ^ 31)
    (hQ : ∀ c, c < w → Dithers tbl (clampbits (px r c) hd.bits) (rnd (r * w + c)) (rnd (r * w + c + 1)) (Q (r * w + c)))
    (hrand : st.random = rnd (r * w)) (rest : List Bool) (hu : UpOK start px r st.up1 st.up2) (ho : Done (w * h) Q (r * w) st.out)
    (hrep : st.p.Rep ((List.range w).flatMap (code r) ++ rest)) (hm : 32 ≤ rest.length) :
    ∃ st', nefRow hd tbl w r st = .ok st' ∧ st'.t = t ∧ st'.p.Rep rest ∧ UpOK start px (r + 1) st'.up1 st'.up2 ∧
      st'.random = rnd ((r + 1) * w) ∧ Done (w * h) Q ((r + 1) * w) st'.out := by
  have hcode : (List.range w).flatMap (code r) =
      code r 0 ++ (code r 1 ++ (List.range (m + 1)).flatMap (fun k => if k = 0 then [] else code r (2 * k) ++ code r (2 * k + 1))) := by
    rw [hw, flatMap_pairs, List.range_succ_eq_map, List.flatMap_cons, List.flatMap_map, List.flatMap_cons, List.flatMap_map, List.append_assoc,
      if_pos rfl, List.nil_append]
    congr 2
  rw [hcode, List.append_assoc, List.append_assoc] at hrep
  obtain ⟨i1, i2⟩ := hu.get
  have hx1 := hpx 0 (by omega)
  have hx2 := hpx 1 (by omega)
  obtain ⟨p1, e1, r1⟩ := addDiff_ok (hdec 0 (by omega)) hx1.1 hx1.2 st.p _ hrep (by simp only [List.length_append]; omega)
  obtain ⟨p2, e2, r2⟩ := addDiff_ok (hdec 1 (by omega)) hx2.1 hx2.2 p1 _ r1 (by simp only [List.length_append]; omega)
  obtain ⟨p3, l1, l2, o3, e5, r3, d3⟩ := pairs_ok r (m + 1) hw hr hdec hpx hQ p2 st.out rest ho r2 hm
  refine ⟨⟨p3, t, rnd (r * w + w), st.up1.set (r % 2) (px r 0), st.up2.set (r % 2) (px r 1), o3⟩, ?_, rfl, r3, hu.next,
    by rw [Nat.add_mul, Nat.one_mul], ?_⟩
  · simp only [nefRow, i1, i2, bind, Except.bind]
    rw [ht]; simp only
    rw [e1]; simp only
    rw [e2]; simp only
    rw [hrand, show (w + 1) / 2 = m + 1 by omega, e5]
  · rw [Nat.add_mul, Nat.one_mul]; exact d3

theorem image_ok (hd : Header) (sym : Nat → Nat → Nat × Nat) (m : Nat) (hw : w = 2 * (m + 1)) 
    (hsplit : 0 < hd.split → hd.select + 1 < 6) (hsum : Sums hd.select hd.split w h start px sym)
    (hpx : ∀ r c, r < h → c < w → -2 ^ 31 ≤ px r c ∧ px r c < 2 ^ 31)
    (hQ : ∀ r c, r < h → c < w →
      Dithers tbl (clampbits (px r c) hd.bits) (rnd (r * w + c)) (rnd (r * w + c + 1)) (Q (r * w + c)))
    (st : NSt) (ht : Reads st.t hd.select) (hrand : st.random = rnd 0) (rest : List Bool) (hu : UpOK start px 0 st.up1 st.up2)
    (ho : Done (w * h) Q 0 st.out) (hrep : st.p.Rep (encodeNef hd.select hd.split w h sym ++ rest)) (hm : 32 ≤ rest.length) :
    ∃ st', forN h (nefRow hd tbl w) st = .ok st' ∧ Done (w * h) Q (w * h) st'.out := by
  suffices H : ∀ n, n ≤ h → ∀ rest, st.p.Rep ((List.range n).flatMap (fun r => (List.range w).flatMap
        (fun c => word (treeAt hd.select hd.split r) (sym r c))) ++ rest) →
      32 ≤ rest.length → ∃ st', forN n (nefRow hd tbl w) st = .ok st' ∧ st'.p.Rep rest ∧ UpOK start px n st'.up1 st'.up2 ∧
        Done (w * h) Q (n * w) st'.out ∧ st'.random = rnd (n * w) ∧
        Reads st'.t (if 0 < hd.split ∧ hd.split < n then hd.select + 1 else hd.select) by
    obtain ⟨st', e, _, _, hd, _⟩ := H h (Nat.le_refl _) rest hrep hm
    exact ⟨st', e, by rw [Nat.mul_comm h w] at hd; exact hd⟩
  intro n
  induction n with
  | zero => exact fun _ rest hr _ => ⟨st, rfl, hr, hu, by simpa using ho, by simpa using hrand, by rw [if_neg (by omega)]; exact ht⟩
  | succ n ih =>
    intro hn rest hrep hm
    rw [List.range_succ, List.flatMap_append, List.append_assoc] at hrep
    simp only [List.flatMap_cons, List.flatMap_nil, List.append_nil] at hrep
    obtain ⟨s1, e1, r1, u1, d1, n1, t1⟩ := ih (by omega) _ hrep (by rw [List.length_append]; omega)
    have htab : ∃ t, rowTable hd n s1.t = .ok t ∧
        Reads t (treeAt hd.select hd.split n) := by
      by_cases hs : hd.split > 0 ∧ n = hd.split
      · obtain ⟨t, e, hr⟩ := create_ok (hd.select + 1) (hsplit hs.1)
        refine ⟨t, by rw [rowTable, if_pos hs]; exact e, ?_⟩
        rw [treeAt, if_pos ⟨hs.1, by omega⟩]; exact hr
      · refine ⟨s1.t, by rw [rowTable, if_neg hs], ?_⟩
        have : treeAt hd.select hd.split n = if 0 < hd.split ∧ hd.split < n then hd.select + 1 else hd.select := by
          unfold treeAt
          by_cases hc : 0 < hd.split ∧ hd.split < n
          · rw [if_pos hc, if_pos ⟨hc.1, by omega⟩]
          · rw [if_neg hc, if_neg (by omega)]
        rw [this]; exact t1
    obtain ⟨t, et, hrt⟩ := htab
    obtain ⟨s2, e2, et2, r2, u2, n2, d2⟩ := row_ok (start := start) (px := px) (Q := Q)
      (code := fun r c => word (treeAt hd.select hd.split r) (sym r c)) hd n m hw (by omega) et
      (fun c hc => by
        obtain ⟨l, e⟩ := hsum n c (by omega) hc
        have := hrt _ l
        rw [e, Int.add_comm, Int.add_sub_cancel]
        exact this)
      (fun c hc => hpx n c (by omega) hc) (fun c hc => hQ n c (by omega) hc) n1 rest u1 d1 r1 hm
    refine ⟨s2, ?_, r2, u2, d2, n2, ?_⟩
    · rw [forN_succ, e1]
      exact e2
    · rw [et2]
      have : (if 0 < hd.split ∧ hd.split < n + 1 then hd.select + 1 else hd.select) = treeAt hd.select hd.split n := by
        unfold treeAt
        by_cases hc : 0 < hd.split ∧ hd.split ≤ n
        · rw [if_pos hc, if_pos ⟨hc.1, by omega⟩]
        · rw [if_neg hc, if_neg (by omega)]
      rw [this]; exact hrt
end

theorem clampbits_eq (v : Int) (bits : Nat) (h : bits ≤ 16) : clampbits v bits = limit bits v := by
  have h2 : (2 : Nat) ^ bits ≤ 2 ^ 16 := Nat.pow_le_pow_right (by omega) h
  have h1 : 1 ≤ (2 : Nat) ^ bits := Nat.one_le_two_pow
  have hc : ((2 : Int) ^ bits) = ((2 ^ bits : Nat) : Int) := by push_cast; rfl
  unfold clampbits limit
  rw [hc]
  generalize (2 : Nat) ^ bits = m at *
  split
  · rfl
  · split
    · rw [Nat.min_eq_right (by omega), Nat.mod_eq_of_lt (by omega)]
    · rw [Nat.min_eq_left (by omega), Nat.mod_eq_of_lt (by omega)]

theorem limit_lt (v : Int) (bits : Nat) : limit bits v < 2 ^ bits := by
  have h1 : 1 ≤ (2 : Nat) ^ bits := Nat.one_le_two_pow
  unfold limit
  split
  · omega
  · omega

theorem noise_lt (x j : Nat) (h : x < 2 ^ 32) : noise x j < 2 ^ 32 := by
  cases j with
  | zero => exact h
  | succ j =>
    have : noise x j < 2 ^ 32 := noise_lt x j h
    rw [noise, noiseStep]
    omega

/-- Decoding, for any metadata that are understood. -/
theorem decode_of_header (src mt : List Nat) (hb : IsBytes src) (le : Bool) (w h bps : Nat) (hd : Header) (tbl : List (Nat × Nat × Nat))
    (hh : header mt le bps = .ok hd) (hn : Linearize.new hd.points = .ok tbl) (hw : w % 2 = 0) (h0 : 0 < w) (hsel : hd.select < 6)
    (hsplit : 0 < hd.split → hd.select + 1 < 6) (hbits : hd.bits ≤ 16)
    (start : Nat → Nat → Nat) (hu1 : hd.up1 = [(start 0 0 : Int), (start 1 0 : Int)]) (hu2 : hd.up2 = [(start 0 1 : Int), (start 1 1 : Int)])
    (px : Nat → Nat → Int) (sym : Nat → Nat → Nat × Nat) (hsum : Sums hd.select hd.split w h (fun r c => (start r c : Int)) px sym)
    (hpx : ∀ r c, r < h → c < w → -2 ^ 31 ≤ px r c ∧ px r c < 2 ^ 31) (P : Nat → Nat → Nat → Prop)
    (hP : ∀ r c, r < h → c < w → ∀ rand, rand < 2 ^ 32 →
      Dithers tbl (limit hd.bits (px r c)) rand (noiseStep rand) (P (limit hd.bits (px r c)) rand))
    (pad : List Bool) (hp : 32 ≤ pad.length) (hcode : bytesMSB src = encodeNef hd.select hd.split w h sym ++ pad) :
    ∃ img, doDecode src mt le w h bps = .ok img ∧ img.length = h * w ∧
      ∀ r c, r < h → c < w → ∃ q, img[r * w + c]? = some q ∧
        P (limit hd.bits (px r c)) (noise (natMSB ((bytesMSB src).take 24)) (r * w + c)) q := by
  obtain ⟨t, et, ht⟩ := create_ok hd.select hsel
  have hrep : (PumpMSB.new src).Rep (encodeNef hd.select hd.split w h sym ++ pad) := by rw [← hcode]; exact PumpMSB.rep_new src hb
  obtain ⟨p, ep, rp, _⟩ := PumpMSB.peek_field _ _ 24 hrep (by omega) (by rw [List.length_append]; omega)
  have hrand : natMSB ((bytesMSB src).take 24) < 2 ^ 32 := by
    refine Nat.lt_of_lt_of_le (natMSB_lt _) (Nat.pow_le_pow_right (by omega) ?_)
    rw [List.length_take]; omega
  have e1 : ∀ r c, c < w → (r * w + c) / w = r := by
    intro r c hc
    rw [Nat.mul_comm, Nat.mul_add_div h0, Nat.div_eq_of_lt hc, Nat.add_zero]
  have e2 : ∀ r c, c < w → (r * w + c) % w = c := by
    intro r c hc
    rw [Nat.mul_comm, Nat.mul_add_mod, Nat.mod_eq_of_lt hc]
  obtain ⟨st, es, hdone⟩ := image_ok (tbl := tbl) (w := w) (h := h) (start := fun r c => (start r c : Int)) (px := px)
    (rnd := noise (natMSB ((bytesMSB src).take 24)))
    (Q := fun j q => P (limit hd.bits (px (j / w) (j % w))) (noise (natMSB ((bytesMSB src).take 24)) j) q) hd sym (w / 2 - 1) (by omega) hsplit hsum hpx
    (by
      intro r c hr hc
      rw [e1 r c hc, e2 r c hc, clampbits_eq _ _ hbits]
      exact hP r c hr hc _ (noise_lt _ _ hrand))
    ⟨p, t, natMSB ((bytesMSB src).take 24), hd.up1, hd.up2, List.replicate (w * h) 0⟩ ht rfl pad
    (by
      refine ⟨?_, ?_⟩
      · rw [hu1]; simp [before]
      · rw [hu2]; simp [before]) (Done.start _ _) rp hp
  refine ⟨st.out, ?_, by rw [hdone.1, Nat.mul_comm], ?_⟩
  · unfold doDecode
    simp only [bind, Except.bind]
    rw [hh]; simp only
    rw [et]; simp only
    rw [hn]; simp only
    rw [ep, ← hcode]; simp only
    rw [es]
  · intro r c hr hc
    have hlt : r * w + c < w * h := by
      have : (r + 1) * w ≤ h * w := Nat.mul_le_mul_right _ hr
      rw [Nat.add_mul, Nat.one_mul, Nat.mul_comm h] at this; omega
    obtain ⟨q, hq, hq'⟩ := hdone.2 _ hlt
    rw [e1 r c hc, e2 r c hc] at hq'
    exact ⟨q, hq, hq'⟩

/-! ### the metadata -/

/-- The metadata up to the curve. -/
theorem header_ok (le : Bool) (bps v0 v1 : Nat) (skip : List Nat) (hs : skip.length = skipped v0 v1) (start : Nat → Nat → Nat) (csize : Nat)
    (tail : List Nat) (bits : Nat) (hbits : realBps v0 v1 bps = .ok bits) (pts : List Nat) (max split : Nat)
    (hc : curve v0 v1 le (preamble le v0 v1 skip start csize ++ tail) (2 ^ bits) csize tail = .ok (pts, max, split)) (hm : max ≤ pts.length) :
    header (preamble le v0 v1 skip start csize ++ tail) le bps =
      .ok ⟨(if v0 = 70 then 2 else 0) + (if bps = 14 then 3 else 0), [(start 0 0 : Int), (start 1 0 : Int)],
        [(start 0 1 : Int), (start 1 1 : Int)], bits, pts.take max, split⟩ := by
  generalize hmt : preamble le v0 v1 skip start csize ++ tail = mt at *
  have hmt' : mt = v0 :: v1 :: (skip ++ (Spec.Pef.word16 le (start 0 0) ++ (Spec.Pef.word16 le (start 1 0) ++ (Spec.Pef.word16 le (start 0 1) ++
      (Spec.Pef.word16 le (start 1 1) ++ (Spec.Pef.word16 le csize ++ tail)))))) := by
    rw [← hmt, preamble]; simp
  have hskip : ∀ l : List Nat, ¬ ((v0 = 73 ∨ v1 = 88) ∧ (skip ++ l).length < 2110) ∧
      (if v0 = 73 ∨ v1 = 88 then (skip ++ l).drop 2110 else skip ++ l) = l := by
    intro l
    unfold skipped at hs
    by_cases h : v0 = 73 ∨ v1 = 88
    · rw [if_pos h] at hs
      refine ⟨?_, ?_⟩
      · rw [List.length_append, hs]; omega
      · rw [if_pos h, List.drop_left' hs]
    · rw [if_neg h, List.length_eq_zero_iff] at hs
      subst hs
      exact ⟨fun h' => h h'.1, by rw [if_neg h]; rfl⟩
  unfold header
  have g1 : getU8 mt = .ok (v0, v1 :: (skip ++ (Spec.Pef.word16 le (start 0 0) ++ (Spec.Pef.word16 le (start 1 0) ++
    (Spec.Pef.word16 le (start 0 1) ++ (Spec.Pef.word16 le (start 1 1) ++ (Spec.Pef.word16 le csize ++ tail))))))) := by rw [hmt']; rfl
  rw [g1]
  simp only [bind, Except.bind, getU8]
  rw [if_neg (hskip _).1, (hskip _).2]
  simp only [bsU16_word]
  rw [hbits]
  simp only
  rw [hc]
  simp only
  rw [assert', if_pos (decide_eq_true hm)]

/-- The loop that reads the points. -/
theorem knots_ok (le : Bool) (step : Nat) (hs : 1 ≤ step) (knots : List Nat) (pts : List Nat) (hfit : ∀ i, i < knots.length → i * step < pts.length)
    (more : List Nat) :
    ∃ pts', forN knots.length (knotStep le step) (pts, knots.flatMap (Spec.Pef.word16 le) ++ more) = .ok (pts', more) ∧ pts'.length = pts.length ∧
      ∀ i, i < knots.length → pts'[i * step]? = some (knots.getD i 0) := by
  obtain ⟨⟨pts', s'⟩, e, h1, h2, h3⟩ := forN_inv knots.length (knotStep le step)
    (fun i st => st.1.length = pts.length ∧ st.2 = (knots.drop i).flatMap (Spec.Pef.word16 le) ++ more ∧
      ∀ j, j < i → st.1[j * step]? = some (knots.getD j 0)) (pts, knots.flatMap (Spec.Pef.word16 le) ++ more) ⟨rfl, rfl, fun j hj => by omega⟩
    (by
      intro i ⟨a, s⟩ hi ⟨h1, h2, h3⟩
      simp only at h1 h2 h3
      subst h2
      have hf := hfit i hi
      refine ⟨(a.set (i * step) (knots.getD i 0), (knots.drop (i + 1)).flatMap (Spec.Pef.word16 le) ++ more), ?_, ?_, rfl, ?_⟩
      · rw [List.drop_eq_getElem_cons hi, List.flatMap_cons, List.append_assoc]
        simp only [knotStep, bsU16_word, bind, Except.bind]
        rw [upd_lt _ _ _ (by omega), getD_lt0 _ _ _ hi]
      · simp only [List.length_set]; exact h1
      · intro j hj
        simp only
        by_cases hji : j = i
        · subst hji
          rw [List.getElem?_set_self (by omega)]
        · have : j * step ≠ i * step := by
            intro h
            exact hji (Nat.eq_of_mul_eq_mul_right (by omega) h)
          rw [List.getElem?_set_ne (by omega)]
          exact h3 j (by omega))
  simp only [List.drop_length, List.flatMap_nil, List.nil_append] at h2
  subst h2
  exact ⟨pts', e, h1, h3⟩

theorem lerp_at (knots : List Nat) (step k : Nat) (hs : 1 ≤ step) : lerp knots step (k * step) = knots.getD k 0 := by
  unfold lerp
  rw [Nat.mul_mod_left, Nat.mul_div_cancel _ (by omega), Nat.zero_mul, Nat.add_zero, Nat.sub_zero, Nat.mul_div_cancel_left _ (by omega)]

theorem lerp_lt (knots : List Nat) (hk : ∀ v ∈ knots, v < 2 ^ 16) (step i : Nat) (hs : 1 ≤ step) : lerp knots step i < 2 ^ 16 := by
  have hg : ∀ k, knots.getD k 0 ≤ 65535 := by
    intro k
    by_cases h : k < knots.length
    · rw [getD_lt0 _ _ _ h]; have := hk _ (List.getElem_mem h); omega
    · rw [List.getD_eq_getElem?_getD, List.getElem?_eq_none (by omega)]; simp
  unfold lerp
  have hb : i % step < step := Nat.mod_lt _ (by omega)
  rw [Nat.div_lt_iff_lt_mul (by omega)]
  have h1 := Nat.mul_le_mul_left (step - i % step) (hg (i / step))
  have h2 := Nat.mul_le_mul_left (i % step) (hg (i / step + 1))
  have h3 : (step - i % step) * 65535 + i % step * 65535 = step * 65535 := by
    rw [← Nat.add_mul]; congr 1; omega
  omega

/-- The interpolation. -/
theorem lerps_ok (knots : List Nat) (hk : ∀ v ∈ knots, v < 2 ^ 16) (step max : Nat) (hs : 1 ≤ step) (hmax : max = step * (knots.length - 1))
    (pts : List Nat) (hl : max < pts.length) (hp : ∀ i, i < knots.length → pts[i * step]? = some (knots.getD i 0)) :
    ∃ pts', forN max (lerpStep step) pts = .ok pts' ∧ pts'.length = pts.length ∧ pts'.take max = (List.range max).map (lerp knots step) := by
  obtain ⟨pts', e, h1, h2, _⟩ := forN_inv max (lerpStep step)
    (fun i a => a.length = pts.length ∧ (∀ j, j < i → a[j]? = some (lerp knots step j)) ∧
      ∀ j, j < knots.length → i ≤ j * step → a[j * step]? = some (knots.getD j 0)) pts
    ⟨rfl, fun j hj => by omega, fun j hj _ => hp j hj⟩
    (by
      intro i a hi ⟨h1, h2, h3⟩
      have hb : i % step < step := Nat.mod_lt _ (by omega)
      have hdm := Nat.div_add_mod i step
      have hq : i / step < knots.length - 1 := by
        rw [Nat.div_lt_iff_lt_mul (by omega), Nat.mul_comm]; omega
      have hqm : i / step * step = step * (i / step) := Nat.mul_comm _ _
      have hq1 : (i / step + 1) * step = step * (i / step) + step := by rw [Nat.add_mul, Nat.one_mul, hqm]
      have hle : (i / step + 1) * step ≤ max := by
        rw [hmax, Nat.mul_comm]; exact Nat.mul_le_mul_left _ (by omega)
      have ga : a[i - i % step]? = some (knots.getD (i / step) 0) := by
        have e : i - i % step = i / step * step := by omega
        by_cases hz : i % step = 0
        · rw [e]; exact h3 _ (by omega) (by omega)
        · rw [e, h2 _ (by omega), lerp_at _ _ _ hs]
      have gb : a[i - i % step + step]? = some (knots.getD (i / step + 1) 0) := by
        have e : i - i % step + step = (i / step + 1) * step := by omega
        have hge : i ≤ (i / step + 1) * step := by rw [hq1]; omega
        rw [e]; exact h3 _ (Nat.add_lt_of_lt_sub hq) hge
      have ia : idx a (i - i % step) = .ok (knots.getD (i / step) 0) := by rw [idx, ga]
      have ib : idx a (i - i % step + step) = .ok (knots.getD (i / step + 1) 0) := by rw [idx, gb]
      refine ⟨a.set i (lerp knots step i), ?_, by rw [List.length_set]; exact h1, ?_, ?_⟩
      · simp only [lerpStep, ia, ib, bind, Except.bind]
        have := lerp_lt knots hk step i hs
        rw [show ((step - i % step) * knots.getD (i / step) 0 + i % step * knots.getD (i / step + 1) 0) / step = lerp knots step i from rfl,
          Nat.mod_eq_of_lt this, upd_lt _ _ _ (by omega)]
      · intro j hj
        by_cases hji : j = i
        · subst hji
          rw [List.getElem?_set_self (by omega)]
        · rw [List.getElem?_set_ne (by omega)]; exact h2 j (by omega)
      · intro j hj hij
        rw [List.getElem?_set_ne (by omega)]; exact h3 j hj (by omega))
  refine ⟨pts', e, h1, ?_⟩
  apply List.ext_getElem?
  intro j
  by_cases hj : j < max
  · rw [List.getElem?_take_of_lt hj, h2 j hj, List.getElem?_map, List.getElem?_range hj]; rfl
  · rw [List.getElem?_eq_none (by rw [List.length_take]; omega), List.getElem?_eq_none (by rw [List.length_map, List.length_range]; omega)]

theorem range16 : (List.range 65536).length = 65536 := List.length_range

/-- A curve given by equally spaced points. -/
theorem curve_points (v1 : Nat) (hv : v1 = 32 ∨ v1 = 64) (le : Bool) (mt : List Nat) (bits : Nat) (hb : bits ≤ 15) (knots : List Nat)
    (hk : ∀ v ∈ knots, v < 2 ^ 16) (step : Nat) (hs : 1 ≤ step) (hmax : 2 ^ bits = step * (knots.length - 1)) (split : Nat) (more more' : List Nat)
    (hsp : mt.drop 562 = Spec.Pef.word16 le split ++ more') :
    ∃ pts, curve 68 v1 le mt (2 ^ bits) knots.length (knots.flatMap (Spec.Pef.word16 le) ++ more) = .ok (pts, 2 ^ bits, split) ∧
      2 ^ bits ≤ pts.length ∧ pts.take (2 ^ bits) = (List.range (2 ^ bits)).map (lerp knots step) := by
  have hpow : 2 ^ bits ≤ 2 ^ 15 := Nat.pow_le_pow_right (by omega) hb
  have h1 : 1 ≤ 2 ^ bits := Nat.one_le_two_pow
  have hc : 1 < knots.length := by
    rcases Nat.lt_or_ge 1 knots.length with h | h
    · exact h
    · rw [show knots.length - 1 = 0 by omega] at hmax; omega
  generalize hM : 2 ^ bits = M at *
  have hst : (if knots.length > 1 then M / (knots.length - 1) else 0) = step := by
    rw [if_pos hc, hmax, Nat.mul_div_cancel _ (by omega)]
  obtain ⟨p1, e1, l1, g1⟩ := knots_ok le step hs knots (List.range 65536) (by
    intro i hi
    have : i * step ≤ M := by rw [hmax, Nat.mul_comm]; exact Nat.mul_le_mul_left _ (by omega)
    rw [range16]; omega) more
  obtain ⟨p2, e2, l2, g2⟩ := lerps_ok knots hk step M hs hmax p1 (by rw [l1, range16]; omega) g1
  refine ⟨p2, ?_, by rw [l2, l1, range16]; omega, g2⟩
  unfold curve
  simp only [hst]
  rw [if_pos (And.intro trivial ⟨hv, (by omega : step > 0)⟩), e1]
  simp only [bind, Except.bind]
  rw [e2]
  simp only
  rw [hsp, bsU16_word]

/-- A curve given value by value. -/
theorem curve_table (v0 v1 : Nat) (h70 : v0 ≠ 70) (hnot : ¬ (v0 = 68 ∧ (v1 = 32 ∨ v1 = 64))) (le : Bool) (mt : List Nat) (max : Nat) (table : List Nat)
    (hl : table.length ≤ 0x4001) (more : List Nat) :
    ∃ pts, curve v0 v1 le mt max table.length (table.flatMap (Spec.Pef.word16 le) ++ more) = .ok (pts, table.length, 0) ∧
      table.length ≤ pts.length ∧ pts.take table.length = table := by
  obtain ⟨p1, e1, l1, g1⟩ := knots_ok le 1 (by omega) table (List.range 65536) (by intro i hi; rw [range16]; omega) more
  refine ⟨p1, ?_, by rw [l1, range16]; omega, ?_⟩
  · unfold curve
    simp only
    rw [if_neg (fun h => hnot ⟨h.1, h.2.1⟩), if_pos ⟨h70, hl⟩, e1]
    rfl
  · apply List.ext_getElem?
    intro j
    by_cases hj : j < table.length
    · have := g1 j hj
      rw [Nat.mul_one] at this
      rw [List.getElem?_take_of_lt hj, this, getD_lt0 _ _ _ hj, List.getElem?_eq_getElem hj]
    · rw [List.getElem?_eq_none (by rw [List.length_take]; omega), List.getElem?_eq_none (by omega)]

/-- No curve. -/
theorem curve_none (v1 : Nat) (le : Bool) (mt : List Nat) (max csize : Nat) (s : List Nat) :
    curve 70 v1 le mt max csize s = .ok (List.range 65536, max, 0) := by
  unfold curve
  simp only
  rw [if_neg (fun h => by omega), if_neg (fun h => h.1 rfl)]

/-! ### dithering -/

theorem dither_next {tbl : List (Nat × Nat × Nat)} {v rand q rand' : Nat} (e : Linearize.dither tbl v rand = .ok (q, rand')) :
    rand' = noiseStep rand := by
  unfold Linearize.dither at e
  obtain ⟨_, _, e⟩ := Props.bind_inv _ _ _ e
  obtain ⟨_, _, e⟩ := Props.bind_inv _ _ _ e
  obtain ⟨_, _, e⟩ := Props.bind_inv _ _ _ e
  obtain ⟨_, _, e⟩ := Props.bind_inv _ _ _ e
  have e := (Prod.mk.inj (Except.ok.inj e)).2
  rw [← e, noiseStep, show (65535 : Nat) = 2 ^ 16 - 1 from rfl, Nat.and_two_pow_sub_one_eq_mod, Nat.shiftRight_eq_div_pow]

theorem dithers_near (points : List Nat) (hg : Gentle points) (n : Nat) (v rand : Nat) (hv : v < n) (hr : rand < 2 ^ 32) :
    Dithers ((List.range n).map (Props.entryAt points)) v rand (noiseStep rand) (Props.Near points v) := by
  obtain ⟨q, r', e, h, _⟩ := Props.dither_ok points hg n v rand hv hr
  rw [dither_next e] at e
  exact ⟨q, e, h⟩

theorem new_points (points : List Nat) (hg : Gentle points) :
    Linearize.new points = .ok ((List.range points.length).map (Props.entryAt points)) := by
  obtain ⟨last, h⟩ : ∃ last, points.getLast? = some last := by
    cases h : points.getLast? with
    | none => exact absurd (List.getLast?_eq_none_iff.mp h) hg.1
    | some x => exact ⟨x, rfl⟩
  have := Props.new_ok points hg 0 last h
  rwa [List.replicate_zero, List.append_nil, Nat.add_zero] at this

theorem at'_range (n i : Nat) (h : 0 < n) : at' (List.range n) i = min i (n - 1) := by
  rw [at', List.length_range, getD_lt0 _ _ _ (by rw [List.length_range]; omega), List.getElem_range]

theorem gentle_range (n : Nat) (h : 0 < n) (h2 : n ≤ 65536) : Gentle (List.range n) := by
  refine ⟨by intro h'; rw [List.range_eq_nil] at h'; omega, fun v hv => ?_, fun i => ?_, fun i hi => ?_⟩
  · rw [List.mem_range] at hv; omega
  · rw [at'_range _ _ h, at'_range _ _ h]; omega
  · rw [List.length_range] at hi
    unfold spread
    rw [at'_range _ _ h, at'_range _ _ h, at'_range _ _ h]
    omega

/-- Without a curve the smallest and the largest value are kept, and the others made smaller by 1 for three quarters of the
random numbers. -/
theorem dithers_range (n : Nat) (h2 : n ≤ 65536) (v rand : Nat) (hv : v < n) (hr : rand < 2 ^ 32) :
    Dithers ((List.range n).map (Props.entryAt (List.range n))) v rand (noiseStep rand)
      (fun q => q = if v = 0 ∨ v + 1 = n ∨ 1536 ≤ rand % 2048 then v else v - 1) := by
  obtain ⟨q, rand', e, _, _⟩ := Props.dither_ok (List.range n) (gentle_range n (by omega) h2) n v rand hv hr
  rw [dither_next e] at e
  refine ⟨q, e, ?_⟩
  unfold Linearize.dither at e
  rw [idx_lt _ _ (by simpa using hv)] at e
  obtain ⟨a, ea, e⟩ := Props.bind_inv _ _ _ e
  cases ea
  simp only [List.getElem_map, List.getElem_range, Props.entryAt, spread] at e
  rw [at'_range _ _ (by omega), at'_range _ _ (by omega), at'_range _ _ (by omega)] at e
  have hand : rand &&& 2047 = rand % 2048 := Nat.and_two_pow_sub_one_eq_mod rand 11
  rw [hand] at e
  have ht : rand % 2048 < 2048 := Nat.mod_lt _ (by omega)
  generalize rand % 2048 = t at *
  obtain ⟨_, _, e⟩ := Props.bind_inv _ _ _ e
  obtain ⟨_, _, e⟩ := Props.bind_inv _ _ _ e
  obtain ⟨_, _, e⟩ := Props.bind_inv _ _ _ e
  have e := (Prod.mk.inj (Except.ok.inj e)).1
  rw [Nat.shiftRight_eq_div_pow] at e
  have hm : min v (n - 1) = v := by omega
  rw [hm] at e
  have hcase : v = 0 ∨ (0 < v ∧ v + 1 < n) ∨ (0 < v ∧ v + 1 = n) := by omega
  rcases hcase with rfl | ⟨h1, h3⟩ | ⟨h1, h3⟩
  · have hd : min (0 + 1) (n - 1) - min (0 - 1) (n - 1) ≤ 1 := by omega
    generalize min (0 + 1) (n - 1) - min (0 - 1) (n - 1) = d at *
    have : d * t ≤ 1 * t := Nat.mul_le_mul_right _ hd
    have : (d * t + 1024) / 2 ^ 12 = 0 := by omega
    rw [if_pos rfl, this] at e
    rw [if_pos (Or.inl rfl)]
    omega
  · have hd : min (v + 1) (n - 1) - min (v - 1) (n - 1) = 2 := by omega
    rw [hd, if_neg (by omega)] at e
    by_cases h4 : 1536 ≤ t
    · rw [if_pos (by omega)]; omega
    · rw [if_neg (by omega)]; omega
  · have hd : min (v + 1) (n - 1) - min (v - 1) (n - 1) = 1 := by omega
    rw [hd, if_neg (by omega)] at e
    have : (1 * t + 1024) / 2 ^ 12 = 0 := by omega
    rw [if_pos (by omega)]
    omega

end Verif.Nef
