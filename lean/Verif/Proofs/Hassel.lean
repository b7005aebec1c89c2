import Verif.Proofs.JpegScan
import Verif.Proofs.Holds
import Verif.Proofs.BitRun
import Verif.Spec.Leaf
/-! # Hasselblad -/

namespace Verif.Pumps
open Verif Verif.Spec

/-- The pump of 32 bit words will deliver `l`, from whole words; then there are other bytes. -/
def PumpMSB32.RepT (p : PumpMSB32) (l : List Bool) : Prop :=
  ∃ words tail, p.rest = words ++ tail ∧ p.nbits < 64 ∧ p.bits < 2 ^ p.nbits ∧ IsBytes words ∧ words.length % 4 = 0 ∧
    l = bitsMSB p.nbits p.bits ++ bytesMSB (swapWords words)

theorem PumpMSB32.repT_new (words tail : List Nat) (hb : IsBytes words) (h4 : words.length % 4 = 0) :
    (PumpMSB32.new (words ++ tail)).RepT (bytesMSB (swapWords words)) :=
  ⟨words, tail, rfl, by simp [PumpMSB32.new], by simp [PumpMSB32.new], hb, h4, by simp [PumpMSB32.new, bitsMSB]⟩

theorem PumpMSB32.fillT {p : PumpMSB32} {l : List Bool} {n : Nat} (h : p.RepT l) (h32 : n ≤ 32) (hn : n ≤ l.length) :
    ∃ p', p.fill n = .ok p' ∧ p'.RepT l ∧ n ≤ p'.nbits := by
  obtain ⟨words, tail, hrest, h64, hlt, hb, h4, rfl⟩ := h
  rw [PumpMSB32.fill]
  by_cases hc : n > p.nbits
  · rw [if_pos hc, hrest]
    have hne : words ≠ [] := by
      rintro h
      rw [h] at hn
      simp [swapWords] at hn; omega
    match words, hne, h4, hb with
    | [_], _, h4, _ => simp at h4
    | [_, _], _, h4, _ => simp at h4
    | [_, _, _], _, h4, _ => simp at h4
    | a :: b :: c :: d :: r, _, h4, hb =>
      obtain ⟨v, cnt, r', e, hv, hcnt, hr, hbits, hlast, _, hdrop⟩ := refillLE_ok (a :: b :: c :: d :: r) hb (by simp)
      have hcnt : cnt = 32 := by
        rcases hlast with h | ⟨_, _, h⟩
        · exact h.1
        · simp only [List.length_cons] at h; omega
      subst hcnt
      have hr' : r' = r := hdrop
      subst hr'
      have e' : refillLE (a :: b :: c :: d :: r' ++ tail) = .ok (v, 32, r' ++ tail) := by
        rw [refillLE] at e
        have := Except.ok.inj e
        simp only [Prod.mk.injEq] at this
        rw [List.cons_append, List.cons_append, List.cons_append, List.cons_append, refillLE, this.1]
      rw [e']
      simp only [bind, Except.bind]
      have es := shl_or p.bits 32 v p.nbits hlt hv (by omega)
      refine ⟨_, rfl, ⟨r', tail, rfl, by simp only; omega, ?_, hr, by simp only [List.length_cons] at h4; omega, ?_⟩, by simp only; omega⟩
      · simp only; rw [es]; exact mul_add_lt_pow _ _ _ _ hlt hv
      · simp only; rw [es, bitsMSB_append _ _ _ _ hv, hbits, List.append_assoc]
  · rw [if_neg hc]; exact ⟨p, rfl, ⟨words, tail, hrest, h64, hlt, hb, h4, rfl⟩, by omega⟩

theorem PumpMSB32.lawfulT : Lawful PumpMSB32 PumpMSB32.RepT PumpMSB32.nbits (fun l n => n ≤ l.length) where
  peek_ok p l n h h32 hn := by
    obtain ⟨p', e, r, a⟩ := PumpMSB32.fillT h h32 hn
    refine ⟨p', ?_, r, a⟩
    obtain ⟨words, tail, hrest, h64, hlt, hb, h4, rfl⟩ := r
    show PumpMSB32.peek p n = _
    rw [PumpMSB32.peek, e]
    simp only [bind, Except.bind]
    rw [topBits_ok _ _ _ hlt a h64 h32, takeZ_of_le hn, List.take_append_of_le_length (by simpa using a)]
  consume_ok p l n h hn := by
    obtain ⟨words, tail, hrest, h64, hlt, hb, h4, rfl⟩ := h
    refine ⟨{ p with bits := p.bits % 2 ^ (p.nbits - n), nbits := p.nbits - n }, ?_, ⟨words, tail, hrest, ?_, ?_, hb, h4, ?_⟩, rfl⟩
    · show PumpMSB32.consume p n = _
      simp [PumpMSB32.consume, consumeMSB_ok _ _ _ hn h64, bind, Except.bind]
    · simp only; omega
    · exact Nat.mod_lt _ (Nat.two_pow_pos _)
    · simp only
      rw [List.drop_append_of_le_length (by simpa using hn), drop_bitsMSB _ _ _ hn, bitsMSB_mod]

end Verif.Pumps

namespace Verif.Ljpeg
open Verif Verif.Pumps Verif.Spec Verif.Spec.Jpeg

/-- The word of a difference, read alone. -/
theorem ReadsT.len {bug : Bool} {T : Table} {t : HuffTable} (h : ReadsT bug T t) {d : Int}
    (hd : catOf d ∈ T.vals) {p : PumpMSB32} {rest : List Bool} (hr : p.RepT (T.word d ++ rest)) (h16 : 16 ≤ rest.length) :
    ∃ p' n, huffLen t p = .ok ((n, catOf d, 0), p') ∧ p'.RepT rest := by
  obtain ⟨hv, ht, hc, hvals⟩ := h.ok
  have hV := h.valid
  have hk := List.idxOf_lt_length_iff.2 hd
  have hv' : hv.getD (T.vals.idxOf (catOf d)) 0 = catOf d := by
    rw [hvals _ hk, List.getD_eq_getElem?_getD, List.getElem?_eq_getElem hk, Option.getD_some, List.getElem_idxOf]
  obtain ⟨hs, _⟩ := refSymbol_codeWord T.counts (T.vals.idxOf (catOf d)) rest (by rw [hV.total]; exact hk)
    (by rw [hV.counts]) (by rw [Verif.Props.hpos_lensOf]; exact hV.kraft)
  have hnb := ht.nb16
  obtain ⟨p1, e1, r1, a1⟩ := PumpMSB32.lawfulT.peek_ok p _ t.nbits hr (by omega) (by rw [List.length_append]; omega)
  have hc := natMSB_lt (takeZ t.nbits (T.word d ++ rest))
  rw [length_takeZ] at hc
  have hlook := ht.look _ hc
  have hsym := ht.sym (T.word d ++ rest)
  rw [Table.word] at hsym hlook
  rw [show (0 :: T.counts).tail = T.counts from rfl] at hsym hlook
  rw [hs] at hsym
  cases hf : findSlot t.nbits (lensOf 0 T.counts) (natMSB (takeZ t.nbits (codeWord T.counts (T.vals.idxOf (catOf d)) ++ rest))) with
  | none => rw [hf] at hsym; simp at hsym
  | some k =>
    rw [hf] at hsym hlook
    simp only [Option.map_some, Option.some.injEq, Prod.mk.injEq] at hsym
    obtain ⟨hl1, rfl⟩ := hsym
    simp only [← hl1, hv'] at hlook
    have hrange := ht.sym_range (l := codeWord T.counts (T.vals.idxOf (catOf d)) ++ rest) hs
    obtain ⟨p2, e2, r2, _⟩ := PumpMSB32.lawfulT.consume_ok p1 _ (codeWord T.counts (T.vals.idxOf (catOf d))).length r1 (by omega)
    refine ⟨p2, (codeWord T.counts (T.vals.idxOf (catOf d))).length, ?_, ?_⟩
    · rw [huffLen, e1]
      simp only [bind, Except.bind]
      rw [Table.word, hlook]
      simp only [e2]
    · rw [Table.word, List.drop_left] at r2
      exact r2

/-- The digits of a difference, read alone. -/
theorem ReadsT.diff {T : Table} {t : HuffTable} (h : ReadsT true T t) {d : Int} (h1 : -32768 ≤ d) (h2 : d ≤ 32767)
    {p : PumpMSB32} {rest : List Bool} (n : Nat) (hr : p.RepT (digits d ++ rest)) :
    ∃ p', huffDiff t p (n, catOf d, 0) = .ok (d, p') ∧ p'.RepT rest := by
  obtain ⟨c1, c2⟩ := catOf_le h1 h2
  by_cases h0 : catOf d = 0
  · have hd0 : d = 0 := by
      by_contra hne
      unfold catOf at h0
      rw [if_neg hne] at h0; omega
    refine ⟨p, ?_, ?_⟩
    · rw [huffDiff, if_pos h0, hd0]
    · rw [digits, h0] at hr
      simpa [bitsMSB] using hr
  · by_cases h16 : catOf d = 16
    · obtain ⟨p', e, r⟩ := getBits_ok PumpMSB32.lawfulT p _ 16 hr (by omega) (by simp [digits, h16]) (by omega)
      refine ⟨p', ?_, ?_⟩
      · rw [huffDiff, if_neg h0, if_pos h16, h.bug, if_pos rfl, e]
        simp only [bind, Except.bind]
        rw [c2 h16]
      · rw [digits, h16, List.drop_left' (by simp)] at r
        exact r
    · have hd0 : d ≠ 0 := by rintro rfl; exact h0 rfl
      obtain ⟨p', e, r⟩ := huffDiff_extend PumpMSB32.lawfulT t p _ n (catOf d) hr (by omega) (by omega) (by simp [digits])
      rw [digits, takeZ_of_le (by simp), List.take_left' (by simp), natMSB_bitsMSB, Nat.mod_eq_of_lt (extraOf_lt d)] at e
      have := diffOf_extra d hd0
      rw [diffOf, if_pos rfl] at this
      rw [refExtend, this] at e
      refine ⟨p', e, ?_⟩
      rw [digits, List.drop_left' (by simp)] at r
      exact r

/-- Each step of a loop reads its bits, and there are always `m` bits after them. -/
theorem forN_readm {σ : Type} (f : Nat → σ → R σ) (c : Nat → List Bool) (I : Nat → σ → Prop) (rep : σ → List Bool → Prop) (m : Nat)
    (n : Nat) (hstep : ∀ k s rest, k < n → I k s → m ≤ rest.length → rep s (c k ++ rest) → ∃ s', f k s = .ok s' ∧ I (k + 1) s' ∧ rep s' rest)
    (s : σ) (rest : List Bool) (h0 : I 0 s) (hm : m ≤ rest.length) (hr : rep s ((List.range n).flatMap c ++ rest)) :
    ∃ s', forN n f s = .ok s' ∧ I n s' ∧ rep s' rest := by
  induction n generalizing rest with
  | zero => exact ⟨s, rfl, h0, hr⟩
  | succ n ih =>
    rw [List.range_succ, List.flatMap_append, List.append_assoc] at hr
    obtain ⟨s1, e1, i1, r1⟩ := ih (fun k s rest hk => hstep k s rest (by omega)) _ (by rw [List.length_append]; omega) hr
    simp only [List.flatMap_cons, List.flatMap_nil, List.append_nil] at r1
    obtain ⟨s2, e2, i2, r2⟩ := hstep n s1 rest (by omega) i1 hm r1
    exact ⟨s2, by rw [forN_succ, e1]; exact e2, i2, r2⟩

/-- The sum of the differences of a row up to pair `k` stands for the sample before it and is not too large. -/
def Prior (f : Nat → Nat → Nat) (r c k : Nat) (q : Int) : Prop :=
  (q - (if c < 2 then 32768 else f r (c - 2) : Nat)) % 65536 = 0 ∧ 32768 - 32768 * (k : Int) ≤ q ∧ q ≤ 32768 + 32768 * (k : Int)

theorem hDiff_range (f : Nat → Nat → Nat) (r c : Nat) : -32768 ≤ hDiff f r c ∧ hDiff f r c ≤ 32767 := diff16_range _

theorem Prior.step {f : Nat → Nat → Nat} {r c k : Nat} {q : Int} (h : Prior f r c k q) (hk : k < 65534) (hu : f r c < 65536) :
    chkI32 (q + hDiff f r c) = .ok (q + hDiff f r c) ∧ asU16 (q + hDiff f r c) = f r c ∧ Prior f r (c + 2) (k + 1) (q + hDiff f r c) := by
  obtain ⟨h1, h2, h3⟩ := h
  obtain ⟨d1, d2⟩ := hDiff_range f r c
  have key : (q + hDiff f r c - f r c) % 65536 = 0 := by
    unfold hDiff diff16
    generalize (if c < 2 then 32768 else f r (c - 2)) = e at *
    omega
  generalize hDiff f r c = d at *
  refine ⟨?_, ?_, ?_, ?_, ?_⟩
  · rw [chkI32, if_pos (by omega)]
  · unfold asU16; omega
  · rw [if_neg (by omega), Nat.add_sub_cancel]; exact key
  · push_cast; omega
  · push_cast; omega

theorem hasselPair_ok {T : Table} {t : HuffTable} (h : ReadsT true T t) {f : Nat → Nat → Nat} {W H r k : Nat} (hr : r < H) (hk : 2 * k + 1 < W)
    (hW : W ≤ 131068) (hu : ∀ c, c < W → f r c < 65536) (hcat : ∀ c, c < W → catOf (hDiff f r c) ∈ T.vals)
    {out : List Nat} {g : Nat → Nat → Nat} (hout : Holds out W H g) {pump : PumpMSB32} {p1 p2 : Int} (h1 : Prior f r (2 * k) k p1)
    (h2 : Prior f r (2 * k + 1) k p2) {rest : List Bool} (h16 : 16 ≤ rest.length) (hp : pump.RepT (hPair T f r (2 * k) ++ rest)) :
    ∃ out' pump' q1 q2, hasselPair t (r * W + 2 * k) (out, pump, p1, p2) = .ok (out', pump', q1, q2) ∧
      (Holds out' W H fun r' c => if r' = r ∧ c / 2 = k then f r c else g r' c) ∧ Prior f r (2 * (k + 1)) (k + 1) q1 ∧
      Prior f r (2 * (k + 1) + 1) (k + 1) q2 ∧ pump'.RepT rest := by
  rw [hPair, List.append_assoc, List.append_assoc, List.append_assoc] at hp
  obtain ⟨a1, a2⟩ := hDiff_range f r (2 * k)
  obtain ⟨b1, b2⟩ := hDiff_range f r (2 * k + 1)
  obtain ⟨pa, n1, ea, ra⟩ := h.len (hcat _ (by omega)) hp (by simp only [List.length_append]; omega)
  obtain ⟨pb, n2, eb, rb⟩ := h.len (hcat _ hk) ra (by simp only [List.length_append]; omega)
  obtain ⟨pc, ec, rc⟩ := h.diff a1 a2 n1 rb
  obtain ⟨pd, ed, rd⟩ := h.diff b1 b2 n2 rc
  obtain ⟨s1, s2, s3⟩ := h1.step (by omega) (hu _ (by omega))
  obtain ⟨t1, t2, t3⟩ := h2.step (by omega) (hu _ hk)
  obtain ⟨o1, e1, ho1⟩ := hout.write (r := r) (c := 2 * k) hr (by omega) (f r (2 * k)) rfl
  obtain ⟨o2, e2, ho2⟩ := ho1.write (r := r) (c := 2 * k + 1) hr hk (f r (2 * k + 1)) (i := r * W + 2 * k + 1) (by omega)
  refine ⟨o2, pd, _, _, ?_, ho2.same ?_, s3, t3, rd⟩
  · rw [hasselPair, ea]
    simp only [bind, Except.bind]
    rw [eb]
    simp only
    rw [ec]
    simp only
    rw [s1]
    simp only
    rw [ed]
    simp only
    rw [t1]
    simp only
    rw [s2, e1]
    simp only
    rw [t2, e2]
  · intro r' c hr' hc
    by_cases c1 : r' = r ∧ c = 2 * k + 1
    · obtain ⟨rfl, rfl⟩ := c1
      rw [if_pos ⟨rfl, rfl⟩, if_pos (by omega)]
    · rw [if_neg c1]
      by_cases c2 : r' = r ∧ c = 2 * k
      · obtain ⟨rfl, rfl⟩ := c2
        rw [if_pos ⟨rfl, rfl⟩, if_pos (by omega)]
      · rw [if_neg c2, if_neg (by omega)]

theorem decodeHasselblad_ok {T : Table} {t : HuffTable} {d : Dec} (ht : d.htable 0 = .ok t) (h : ReadsT true T t) {f : Nat → Nat → Nat} {W H : Nat}
    (hW0 : 0 < W) (hW : W ≤ 131068) (hu : ∀ r c, r < H → c < W → f r c < 65536) (hcat : ∀ r c, r < H → c < W → catOf (hDiff f r c) ∈ T.vals)
    {words tail : List Nat} (hd : d.buffer = words ++ tail) (hb : IsBytes words) (h4 : words.length % 4 = 0) {rest : List Bool}
    (h16 : 16 ≤ rest.length) (hbits : bytesMSB (swapWords words) = hScan T f W H ++ rest) {out : List Nat} {g : Nat → Nat → Nat}
    (hout : Holds out W H g) :
    ∃ out', decodeHasselblad d out W = .ok out' ∧ Holds out' W H fun r c => if c / 2 < W / 2 then f r c else g r c := by
  have hrows : out.length / W = H := by rw [hout.1, Nat.mul_div_cancel _ hW0]
  have hrep := PumpMSB32.repT_new words tail hb h4
  rw [hbits, ← hd, hScan] at hrep
  obtain ⟨⟨o, p⟩, e, hi, _⟩ := forN_readm (fun row (st : List Nat × PumpMSB32) => do
      let (out, pump, _, _) ← forN (W / 2) (fun k st => hasselPair t (row * W + 2 * k) st) (st.1, st.2, 0x8000, 0x8000)
      (.ok (out, pump) : R (List Nat × PumpMSB32)))
    (fun r => (List.range (W / 2)).flatMap fun k => hPair T f r (2 * k))
    (fun n st => Holds st.1 W H fun r c => if r < n ∧ c / 2 < W / 2 then f r c else g r c) (fun st l => st.2.RepT l) 16 H
    (by
      rintro r ⟨out, pump⟩ rest hr hi h16 hp
      obtain ⟨⟨o, p, q1, q2⟩, e, hj, hp'⟩ := forN_readm (fun k st => hasselPair t (r * W + 2 * k) st) (fun k => hPair T f r (2 * k))
        (fun k st => (Holds st.1 W H fun r' c => if r' = r ∧ c / 2 < k then f r c else if r' < r ∧ c / 2 < W / 2 then f r' c else g r' c) ∧
          Prior f r (2 * k) k st.2.2.1 ∧ Prior f r (2 * k + 1) k st.2.2.2)
        (fun st l => st.2.1.RepT l) 16 (W / 2)
        (by
          rintro k ⟨o, p, q1, q2⟩ rest hk ⟨hj, hq1, hq2⟩ h16 hp
          obtain ⟨o', p', q1', q2', e, a, b, c, d⟩ := hasselPair_ok h hr (by omega) hW (fun c => hu r c hr) (fun c => hcat r c hr) hj hq1 hq2 h16 hp
          refine ⟨(o', p', q1', q2'), e, ⟨a.same ?_, b, c⟩, d⟩
          intro r' c hr' hc
          by_cases c1 : r' = r ∧ c / 2 = k
          · rw [if_pos c1, if_pos (by omega)]
          · rw [if_neg c1]
            by_cases c2 : r' = r ∧ c / 2 < k
            · rw [if_pos c2, if_pos (by omega)]
            · rw [if_neg c2, if_neg (show ¬(r' = r ∧ c / 2 < k + 1) by omega)])
        (out, pump, 0x8000, 0x8000) rest ⟨hi.same fun r' c _ _ => by rw [if_neg (show ¬(r' = r ∧ c / 2 < 0) by omega)], by simp [Prior], by simp [Prior]⟩ h16 hp
      refine ⟨(o, p), ?_, hj.1.same ?_, hp'⟩
      · simp only [bind, Except.bind] at e ⊢
        rw [e]
      · intro r' c hr' hc
        by_cases c1 : r' = r ∧ c / 2 < W / 2
        · obtain ⟨rfl, c1⟩ := c1
          rw [if_pos ⟨rfl, c1⟩, if_pos (by omega)]
        · rw [if_neg c1]
          by_cases c2 : r' < r ∧ c / 2 < W / 2
          · rw [if_pos c2, if_pos (by omega)]
          · rw [if_neg c2, if_neg (by omega)])
    (out, PumpMSB32.new d.buffer) rest (hout.same fun r c _ _ => by rw [if_neg (by omega)]) h16 hrep
  refine ⟨o, ?_, hi.same ?_⟩
  · rw [decodeHasselblad, ht]
    simp only [bind, Except.bind]
    rw [if_neg (by omega), hrows]
    simp only [bind, Except.bind] at e
    rw [e]
  · intro r c hr hc
    by_cases c1 : c / 2 < W / 2
    · rw [if_pos c1, if_pos ⟨hr, c1⟩]
    · rw [if_neg c1, if_neg (by omega)]

end Verif.Ljpeg
