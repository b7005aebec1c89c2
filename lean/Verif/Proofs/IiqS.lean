import Verif.Proofs.Iiq
/-! # Phase One IIQ S, version 2 -/

namespace Verif.Iiq
open Verif Verif.Pumps Verif.Spec Verif.Spec.Iiq
open Verif.Spec.Srw (BitsAt)
open Verif.Orf (ok_bind)

/-- A word, seen in a view of more digits. -/
theorem peek_word {p : PumpMSB32} {L v n : Nat} {r : List Bool} (h : p.RepT (bitsMSB L v ++ r)) (hv : v < 2 ^ L) (hL : L ≤ n) (hn : n ≤ 32)
    (hr : n ≤ r.length) : ∃ t p', t < 2 ^ (n - L) ∧ BitPump.peek p n = .ok (v * 2 ^ (n - L) + t, p') ∧ p'.RepT (bitsMSB L v ++ r) ∧ n ≤ p'.nbits := by
  obtain ⟨p', e, h', a⟩ := PumpMSB32.lawfulT.peek_ok p _ n h hn (by simp; omega)
  have hl : (r.take (n - L)).length = n - L := by rw [List.length_take]; omega
  have hlt := natMSB_lt (r.take (n - L))
  rw [hl] at hlt
  refine ⟨natMSB (r.take (n - L)), p', hlt, ?_, h', a⟩
  rw [e, takeZ_of_le (by simp; omega), List.take_append, length_bitsMSB, List.take_of_length_le (by simp; omega), natMSB_append,
    natMSB_bitsMSB, Nat.mod_eq_of_lt hv, hl]

theorem newCheck_entry (b L v n : Nat) (p : PumpMSB32) (r : List Bool) (h2 : 2 ≤ L) (h7 : L ≤ 7) (hv : v < 2 ^ L)
    (ht : ∀ t, t < 2 ^ (7 - L) → v * 2 ^ (7 - L) + t < 32 ∧ bitIndicator[v * 2 ^ (7 - L) + t]? = some n ∧
      skipBits[v * 2 ^ (7 - L) + t]? = some (L - 2))
    (hr : 7 ≤ r.length) (h : p.RepT (bitsMSB L v ++ r)) : ∃ p', newCheck b p = .ok (n, p') ∧ p'.RepT r := by
  obtain ⟨t, p1, htl, e1, h1, a1⟩ := peek_word h hv h7 (by omega) hr
  obtain ⟨t1, t2, t3⟩ := ht t htl
  obtain ⟨p2, e2, h2', a2⟩ := PumpMSB32.lawfulT.consume_ok p1 _ 2 h1 (by omega)
  obtain ⟨p3, e3, h3, a3⟩ := PumpMSB32.lawfulT.consume_ok p2 _ (L - 2) h2' (by omega)
  refine ⟨p3, ?_, ?_⟩
  · rw [newCheck, e1, ok_bind]
    simp only
    rw [e2, ok_bind, if_neg (by omega), idx, t2, ok_bind, idx, t3, ok_bind, e3, ok_bind]
  · rw [List.drop_drop, show 2 + (L - 2) = L by omega, List.drop_left' (by simp)] at h3
    exact h3

theorem newCheck_word (b n : Nat) (p : PumpMSB32) (r : List Bool) (hn : n ≤ 9) (hr : 7 ≤ r.length)
    (h : p.RepT (bitsMSB (sizeWord n).1 (sizeWord n).2 ++ r)) : ∃ p', newCheck b p = .ok (n, p') ∧ p'.RepT r := by
  interval_cases n
  · exact newCheck_entry b 7 2 0 p r (by decide) (by decide) (by decide) (by decide) hr h
  · exact newCheck_entry b 5 2 1 p r (by decide) (by decide) (by decide) (by decide) hr h
  · exact newCheck_entry b 4 3 2 p r (by decide) (by decide) (by decide) (by decide) hr h
  · exact newCheck_entry b 4 2 3 p r (by decide) (by decide) (by decide) (by decide) hr h
  · exact newCheck_entry b 5 3 4 p r (by decide) (by decide) (by decide) (by decide) hr h
  · exact newCheck_entry b 6 3 5 p r (by decide) (by decide) (by decide) (by decide) hr h
  · exact newCheck_entry b 6 2 6 p r (by decide) (by decide) (by decide) (by decide) hr h
  · exact newCheck_entry b 7 3 7 p r (by decide) (by decide) (by decide) (by decide) hr h
  · exact newCheck_entry b 7 1 8 p r (by decide) (by decide) (by decide) (by decide) hr h
  · exact newCheck_entry b 7 0 9 p r (by decide) (by decide) (by decide) (by decide) hr h

theorem newCheck_rel (b v : Nat) (p : PumpMSB32) (r : List Bool) (h0 : 1 ≤ v) (h3 : v ≤ 3) (hb : 2 ≤ v + b) (hr : 7 ≤ r.length)
    (h : p.RepT (bitsMSB 2 v ++ r)) : ∃ p', newCheck b p = .ok (v + b - 2, p') ∧ p'.RepT r := by
  obtain ⟨t, p1, ht, e1, h1, a1⟩ := peek_word (n := 7) h (by omega) (by omega) (by omega) hr
  obtain ⟨p2, e2, h2, a2⟩ := PumpMSB32.lawfulT.consume_ok p1 _ 2 h1 (by omega)
  refine ⟨p2, ?_, ?_⟩
  · rw [newCheck, e1, ok_bind]
    simp only
    rw [e2, ok_bind, if_pos (by omega), Nat.shiftRight_eq_div_pow, usub, if_pos (by omega), ok_bind]
    congr 2
    omega
  · rw [List.drop_left' (by simp)] at h2
    exact h2

theorem newCheck_ok {R : Spec.Iiq.RowS} (hR : R.Ok) (k q : Nat) (p : PumpMSB32) (r : List Bool) (hr : 7 ≤ r.length)
    (h : p.RepT (R.sizeBits k q ++ r)) : ∃ p', newCheck (R.before k q) p = .ok (R.size k q, p') ∧ p'.RepT r := by
  obtain ⟨-, -, h3⟩ := hR
  obtain ⟨h9, hrel⟩ := h3 k q
  unfold Spec.Iiq.RowS.sizeBits at h
  split at h
  · rename_i c
    obtain ⟨a, b⟩ := hrel c
    obtain ⟨p', e, h'⟩ := newCheck_rel (R.before k q) _ p r (by omega) (by omega) (by omega) hr h
    exact ⟨p', by rw [e]; congr 2; omega, h'⟩
  · exact newCheck_word _ _ p r h9 hr h

theorem low_eq {base b : Nat} (hb : base < 8) (h9 : b ≤ 9) : 0xffff >>> (17 - base - b) = 2 ^ (base + b) / 2 - 1 := by
  interval_cases base <;> interval_cases b <;> rfl

/-- The cluster the bits stand for. -/
def clusterAt (R : Spec.Iiq.RowS) (k : Nat) : Cluster :=
  ⟨R.base + R.extra k, R.size k 0, R.size k 1, R.size k 0 - R.extra k, R.size k 1 - R.extra k,
    2 ^ (R.base + R.size k 0) / 2 - 1, 2 ^ (R.base + R.size k 1) / 2 - 1⟩

theorem clusterOf_ok {R : Spec.Iiq.RowS} (hR : R.Ok) (k : Nat) (p : PumpMSB32) (r : List Bool) (hr : 7 ≤ r.length)
    (h : p.RepT (R.extraBits k ++ r)) :
    ∃ p', clusterOf R.base (R.size k 0) (R.size k 1) p = .ok (clusterAt R k, p') ∧ p'.RepT r := by
  obtain ⟨h8, he, h3⟩ := hR
  have hs0 := (h3 k 0).1
  have hs1 := (h3 k 1).1
  have he := he k
  have key : ∃ x p1 p2 u, BitPump.peek p 3 = .ok (x, p1) ∧ usedCorr[x]? = some u ∧ BitPump.consume p1 u = .ok p2 ∧
      extraBits[x]? = some (R.extra k) ∧ p2.RepT r := by
    unfold Spec.Iiq.RowS.extraBits at h
    split at h
    · rename_i c
      obtain ⟨t, p1, ht, e1, h1, a1⟩ := peek_word (L := 1) (v := 1) (n := 3) h (by omega) (by omega) (by omega) (by omega)
      obtain ⟨p2, e2, h2, a2⟩ := PumpMSB32.lawfulT.consume_ok p1 _ 1 h1 (by omega)
      refine ⟨_, p1, p2, 1, e1, ?_, e2, ?_, h2⟩
      · norm_num at ht
        interval_cases t <;> rfl
      · norm_num at ht
        rw [c]
        interval_cases t <;> rfl
    · rename_i c
      obtain ⟨t, p1, ht, e1, h1, a1⟩ := peek_word (n := 3) h (by omega) (by omega) (by omega) (by omega)
      obtain ⟨p2, e2, h2, a2⟩ := PumpMSB32.lawfulT.consume_ok p1 _ 3 h1 (by omega)
      rw [List.drop_left' (by simp)] at h2
      norm_num at ht
      refine ⟨_, p1, p2, 3, e1, ?_, e2, ?_, h2⟩
      · rw [ht]
        generalize R.extra k = e at *
        interval_cases e <;> first | rfl | omega
      · rw [ht]
        generalize R.extra k = e at *
        interval_cases e <;> first | rfl | omega
  obtain ⟨x, p1, p2, u, e1, e2, e3, e4, h'⟩ := key
  refine ⟨p2, ?_, h'⟩
  rw [clusterOf, e1, ok_bind]
  simp only
  rw [idx, e2, ok_bind, e3, ok_bind, idx, e4, ok_bind, usub, if_pos (by omega), ok_bind, usub, if_pos (by omega), ok_bind,
    shrU32, if_pos (by omega), ok_bind, usub, if_pos (by omega), ok_bind, shrU32, if_pos (by omega), ok_bind, low_eq h8 hs0, low_eq h8 hs1]
  rfl

theorem valueS_ok {base b e prev v : Nat} (h8 : base < 8) (h9 : b ≤ 9) (he : e ≤ 4) (hv : v < 2 ^ 14) (hp : prev < 2 ^ 14)
    (hF : b ≠ 9 → prev ≤ v + (2 ^ (base + b) / 2 - 1) ∧ (v + (2 ^ (base + b) / 2 - 1) - prev) % 2 ^ (b - e) = 0 ∧
      (v + (2 ^ (base + b) / 2 - 1) - prev) / 2 ^ (b - e) < 2 ^ (base + e)) (p : PumpMSB32) (r : List Bool)
    (h : p.RepT ((if b = 9 then bitsMSB 14 v else bitsMSB (base + e) ((v + (2 ^ (base + b) / 2 - 1) - prev) / 2 ^ (b - e))) ++ r)) :
    ∃ c p', valueS (base + e) b (b - e) (2 ^ (base + b) / 2 - 1) prev p = .ok (v, c, p') ∧ c < 2 ^ 14 ∧ p'.RepT r := by
  unfold valueS
  by_cases c : b = 9
  · rw [if_pos c] at h ⊢
    obtain ⟨p', e', h'⟩ := get_field h (by omega) (by omega)
    exact ⟨0, p', by rw [e', ok_bind], by omega, h'⟩
  · rw [if_neg c] at h ⊢
    obtain ⟨f1, f2, f3⟩ := hF c
    have hle : 2 ^ (base + b) ≤ 2 ^ 16 := Nat.pow_le_pow_right (by omega) (by omega)
    generalize hd : 2 ^ (base + b) / 2 - 1 = d at *
    have hd' : d < 2 ^ 16 := by omega
    obtain ⟨p', e', h'⟩ := get_field h f3 (by omega)
    refine ⟨v, p', ?_, hv, h'⟩
    rw [e', ok_bind]
    simp only
    have hm : (v + d - prev) / 2 ^ (b - e) * 2 ^ (b - e) = v + d - prev := Nat.div_mul_cancel (Nat.dvd_of_mod_eq_zero f2)
    rw [shlU32, if_pos (by omega), ok_bind, Nat.shiftLeft_eq, hm, Nat.mod_eq_of_lt (by omega), if_pos (by omega), usub, if_pos (by omega), ok_bind,
      show prev + (v + d - prev) - d = v by omega]

/-- What holds before sample `i` of the eight from `pos` on. -/
def InvC (px : Nat → Nat) (w s pos i : Nat) (st : StS) : Prop :=
  st.prev0 = (if pos + i = 0 then 0 else px ((pos + i - 1) / 2 * 2)) ∧ st.prev1 = (if pos + i < 2 then 0 else px ((pos + i) / 2 * 2 - 1)) ∧
    st.check < 2 ^ 14 ∧ st.line.length = w ∧ ∀ j, j < pos + i → st.line[j]? = some (shl16 (px j) s)

theorem sampleS_ok {R : Spec.Iiq.RowS} (hR : R.Ok) {px : Nat → Nat} {w s k : Nat} (hpx : ∀ c, c < w → px c < 2 ^ 14) (hF : R.Fits w px)
    (hk : 8 * k + 8 ≤ w) {i : Nat} (hi : i < 8) {p : PumpMSB32} {st : StS} {r : List Bool} (hinv : InvC px w s (8 * k) i st)
    (h : p.RepT (R.pixel w px (8 * k + i) ++ r)) :
    ∃ p' st', sampleS (clusterAt R k) (8 * k) s i (p, st) = .ok (p', st') ∧ p'.RepT r ∧ InvC px w s (8 * k) (i + 1) st' := by
  obtain ⟨h8, he, h3⟩ := hR
  obtain ⟨i0, i1, hch, hl, hline⟩ := hinv
  have hdiv : (8 * k + i) / 8 = k := by omega
  have hraw : R.Raw w (8 * k + i) ↔ R.size k ((8 * k + i) % 2) = 9 := by
    unfold Spec.Iiq.RowS.Raw
    rw [hdiv]
    constructor
    · rintro (a | a)
      · omega
      · exact a
    · exact Or.inr
  have hprev : prev px (8 * k + i) < 2 ^ 14 := by
    unfold prev
    split
    · omega
    · exact hpx _ (by omega)
  have hfit := hF (8 * k + i) (by omega)
  unfold Spec.Iiq.RowS.pixel at h
  simp only [hraw, Spec.Iiq.RowS.low, Spec.Iiq.RowS.step, hdiv] at h hfit
  obtain ⟨c, p2, e2, hc, h2⟩ := valueS_ok h8 (h3 k ((8 * k + i) % 2)).1 (he k) (hpx (8 * k + i) (by omega)) hprev hfit p r h
  have hnew : ∀ j, j < 8 * k + (i + 1) → (st.line.set (8 * k + i) (shl16 (px (8 * k + i)) s))[j]? = some (shl16 (px j) s) := by
    intro j hj
    by_cases ci : j = 8 * k + i
    · rw [ci, List.getElem?_set_self (by omega)]
    · rw [List.getElem?_set_ne (by omega), hline j (by omega)]
  have hor : st.check ||| c < 2 ^ 14 := Nat.or_lt_two_pow hch hc
  unfold sampleS
  simp only
  rw [and1]
  by_cases c2 : i % 2 = 0
  · rw [if_pos c2]
    have : prev px (8 * k + i) = st.prev0 := by
      rw [i0]; unfold prev
      by_cases c0 : 8 * k + i = 0
      · rw [if_pos c0, if_pos (by omega)]
      · rw [if_neg c0, if_neg (by omega)]; congr 1; omega
    rw [this, show (8 * k + i) % 2 = 0 by omega] at e2
    rw [clusterAt]
    simp only
    rw [e2, ok_bind]
    simp only
    rw [upd_lt _ _ _ (by omega), ok_bind]
    refine ⟨p2, _, rfl, h2, ?_, ?_, hor, by simp [hl], hnew⟩
    · simp only
      rw [if_neg (by omega)]; congr 1; omega
    · simp only
      rw [i1]
      by_cases c0 : 8 * k + i < 2
      · rw [if_pos c0, if_pos (by omega)]
      · rw [if_neg c0, if_neg (by omega)]; congr 1; omega
  · rw [if_neg c2]
    have : prev px (8 * k + i) = st.prev1 := by
      rw [i1]; unfold prev
      by_cases c0 : 8 * k + i < 2
      · rw [if_pos c0, if_pos c0]
      · rw [if_neg c0, if_neg c0]; congr 1; omega
    rw [this, show (8 * k + i) % 2 = 1 by omega] at e2
    rw [clusterAt]
    simp only
    rw [e2, ok_bind]
    simp only
    rw [upd_lt _ _ _ (by omega), ok_bind]
    refine ⟨p2, _, rfl, h2, ?_, ?_, hor, by simp [hl], hnew⟩
    · simp only
      rw [i0, if_neg (by omega), if_neg (by omega)]; congr 1; omega
    · simp only
      rw [if_neg (by omega)]; congr 1; omega

/-- What holds before group `k`. -/
def InvS (R : Spec.Iiq.RowS) (px : Nat → Nat) (w s k : Nat) (st : RowS) : Prop :=
  (8 * k ≤ w → st.b0 = R.before k 0 ∧ st.b1 = R.before k 1 ∧ st.prev0 = (if 8 * k = 0 then 0 else px ((8 * k - 1) / 2 * 2)) ∧
    st.prev1 = (if 8 * k < 2 then 0 else px (8 * k / 2 * 2 - 1))) ∧ st.line.length = w ∧
    ∀ j, j < 8 * k → j < w → st.line[j]? = some (shl16 (px j) s)

theorem cluster_ok {R : Spec.Iiq.RowS} (hR : R.Ok) {px : Nat → Nat} {w s k : Nat} (hpx : ∀ c, c < w → px c < 2 ^ 14) (hF : R.Fits w px)
    (hk : k < (w + 7) / 8) {p : PumpMSB32} {st : RowS} {r : List Bool} (hinv : InvS R px w s k st) (hr : 7 ≤ r.length)
    (h : p.RepT (R.group w px k ++ r)) :
    ∃ p' st', cluster R.base w s k (p, st) = .ok (p', st') ∧ p'.RepT r ∧ InvS R px w s (k + 1) st' := by
  obtain ⟨hst, hl, hline⟩ := hinv
  obtain ⟨hb0, hb1, hp0, hp1⟩ := hst (by omega)
  unfold cluster
  unfold Spec.Iiq.RowS.group at h
  by_cases c : 8 * k + 8 ≤ w
  · rw [if_pos c] at h ⊢
    rw [List.append_assoc, List.append_assoc, List.append_assoc] at h
    obtain ⟨p1, e1, h1⟩ := newCheck_ok hR k 0 p _ (by simp only [List.length_append]; omega) h
    obtain ⟨p2, e2, h2⟩ := newCheck_ok hR k 1 p1 _ (by simp only [List.length_append]; omega) h1
    obtain ⟨p3, e3, h3⟩ := clusterOf_ok hR k p2 _ (by simp only [List.length_append]; omega) h2
    obtain ⟨p4, s4, e4, h4, i4⟩ := forN_code PumpMSB32.RepT 8 (sampleS (clusterAt R k) (8 * k) s) (fun i => R.pixel w px (8 * k + i))
      (InvC px w s (8 * k)) 0 (fun i hi p st r hs h _ => sampleS_ok hR hpx hF c hi hs h) p3 ⟨st.prev0, st.prev1, 0, st.line⟩ r
      ⟨hp0, hp1, by simp, hl, fun j hj => hline j (by omega) (by omega)⟩ h3 (Nat.zero_le _)
    simp only
    rw [hb0, e1, ok_bind]
    simp only
    rw [hb1, e2, ok_bind]
    simp only
    rw [e3, ok_bind]
    simp only
    rw [e4, ok_bind]
    simp only
    obtain ⟨j0, j1, hch, hl4, hline4⟩ := i4
    have hand : s4.check &&& 0x3fff = s4.check := by
      rw [show (0x3fff : Nat) = 2 ^ 14 - 1 by rfl, Nat.and_two_pow_sub_one_eq_mod, Nat.mod_eq_of_lt hch]
    rw [if_neg (by rw [hand]; exact fun h => h rfl)]
    refine ⟨p4, _, rfl, h4, fun _ => ⟨?_, ?_, j0, j1⟩, hl4, fun j hj _ => hline4 j hj⟩
    · simp only [Spec.Iiq.RowS.before]; rw [if_neg (by omega), Nat.add_sub_cancel]
    · simp only [Spec.Iiq.RowS.before]; rw [if_neg (by omega), Nat.add_sub_cancel]
  · rw [if_neg c] at h ⊢
    obtain ⟨p4, line, e4, h4, hl4, hline4⟩ := forN_code PumpMSB32.RepT (w - 8 * k) (fun i (st : PumpMSB32 × List Nat) => do
        let (v, p) ← getBits st.1 14
        let line ← upd st.2 (8 * k + i) (shl16 v s)
        (.ok (p, line) : Verif.R (PumpMSB32 × List Nat))) (fun i => R.pixel w px (8 * k + i))
      (fun i line => line.length = w ∧ ∀ j, j < 8 * k + i → line[j]? = some (shl16 (px j) s)) 0
      (by
        rintro i hi p line r ⟨hl, hline⟩ h -
        unfold Spec.Iiq.RowS.pixel at h
        rw [if_pos (show R.Raw w (8 * k + i) from Or.inl (by omega))] at h
        obtain ⟨p', e, h'⟩ := get_field h (hpx _ (by omega)) (by omega)
        refine ⟨p', line.set (8 * k + i) (shl16 (px (8 * k + i)) s), ?_, h', by simp [hl], ?_⟩
        · simp only
          rw [e, ok_bind]
          simp only
          rw [upd_lt _ _ _ (by omega), ok_bind]
        · intro j hj
          by_cases ci : j = 8 * k + i
          · rw [ci, List.getElem?_set_self (by omega)]
          · rw [List.getElem?_set_ne (by omega), hline j (by omega)])
      p st.line r ⟨hl, fun j hj => hline j (by omega) (by omega)⟩ h (Nat.zero_le _)
    simp only at e4 ⊢
    rw [e4, ok_bind]
    exact ⟨p4, _, rfl, h4, fun _ => by omega, hl4, fun j hj hw => hline4 j (by omega)⟩

theorem rowS_ok {R : Spec.Iiq.RowS} (hR : R.Ok) {px : Nat → Nat} {w s : Nat} (hpx : ∀ c, c < w → px c < 2 ^ 14) (hF : R.Fits w px)
    {buf strips : List Nat} (hb : IsBytes buf) {off row junk : Nat} (ho : off < 2 ^ 32) (hj : junk < 2 ^ 13)
    (hs : Ciff.At strips (4 * row) (Ciff.le 4 off)) {pad : List Bool} (hpad : 7 ≤ pad.length)
    (hbits : BitsAt buf off (R.bits w px junk ++ pad)) :
    rowS buf strips w s (List.replicate w 0) row = .ok ((List.range w).map fun c => shl16 (px c) s) := by
  have h8 := hR.1
  obtain ⟨src, pad', e1, h1⟩ := rep_at hb hbits
  unfold Spec.Iiq.RowS.bits at h1
  rw [← bitsMSB_append 13 3 junk R.base (by omega), List.append_assoc, List.append_assoc] at h1
  obtain ⟨p1, e2, h2⟩ := get_field h1 (by omega) (by omega)
  obtain ⟨p', st', e, hr, hi⟩ := forN_code PumpMSB32.RepT ((w + 7) / 8) (cluster R.base w s) _ (InvS R px w s) 7
    (fun i hi p st r hs h hm => cluster_ok hR hpx hF hi hs hm h)
    p1 ⟨0, 0, 0, 0, List.replicate w 0⟩ (pad ++ pad') ⟨fun _ => ⟨rfl, rfl, rfl, rfl⟩, by simp, fun j hj => by omega⟩ h2
    (by simp only [List.length_append]; omega)
  rw [rowS, Nat.mul_comm row 4, Verif.Ciff.leU32_at hs ho, ok_bind, e1, ok_bind]
  rw [e2, ok_bind]
  simp only
  rw [and7, show (junk * 2 ^ 3 + R.base) % 8 = R.base by omega, e, ok_bind]
  simp only
  rw [line_eq hi.2.1 fun i hi' => hi.2.2 i (by omega) hi']

end Verif.Iiq
