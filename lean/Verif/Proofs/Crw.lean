import Verif.Model.Crw
import Verif.Spec.Crw
import Verif.Proofs.HuffShift
import Verif.Proofs.BitRun
import Verif.Proofs.Orf
/-! # Canon CRW: reading the codes -/

namespace Verif.Crw
open Verif Verif.Ljpeg Verif.Pumps Verif.Spec Verif.Spec.Jpeg
open Verif.Orf (ok_bind)

/-- The table `t` reads the words of `T`. -/
def Reads (T : Table) (t : HuffTable) : Prop :=
  ∀ (p : PumpJPEG) (s : Nat) (rest : List Bool), s ∈ T.vals → p.Rep (Crw.symbol T s ++ rest) → ∃ p', huffGet t p = .ok (s, p') ∧ p'.Rep rest

theorem lensOf_len (i : Nat) (cs : List Nat) : (lensOf i cs).length = cs.sum := by
  induction cs generalizing i with
  | nil => rfl
  | cons n cs ih => rw [lensOf, List.length_append, ih, List.length_replicate, List.sum_cons]

theorem createTable_ok (T : Table) (extra : List Nat) (hc : T.counts.length = 16) (ht : T.counts.sum = T.vals.length)
    (hm : T.vals.length + extra.length ≤ 256) (hk : hpos 16 (lensOf 0 T.counts) ≤ 2 ^ 16) (hv : ∀ v ∈ T.vals, v < 256) :
    ∃ t, createTable (T.counts ++ (T.vals ++ extra)) = .ok t ∧ Reads T t := by
  obtain ⟨bits, hbits⟩ : ∃ bits, bits = 0 :: T.counts := ⟨_, rfl⟩
  obtain ⟨hval, hhval⟩ : ∃ hval, hval = T.vals ++ extra ++ List.replicate (256 - ((T.counts ++ (T.vals ++ extra)).length - 16)) 0 := ⟨_, rfl⟩
  have hlen : bits.length = 17 := by rw [hbits, List.length_cons, hc]
  have htail : bits.tail = T.counts := by rw [hbits]; rfl
  have hvl : hval.length = 256 := by
    rw [hhval]; simp only [List.length_append, List.length_replicate]; omega
  have hvg : ∀ k, k < T.vals.length → hval.getD k 0 = T.vals.getD k 0 := by
    intro k hk
    rw [hhval, List.append_assoc, List.getD_eq_getElem?_getD, List.getD_eq_getElem?_getD, List.getElem?_append_left hk]
  obtain ⟨h16, hz⟩ := maxLen_spec bits 16
  have hl := codeLens_eq bits hlen
  have hlens : ∀ l ∈ lensOf 0 bits.tail, 1 ≤ l ∧ l ≤ maxLen bits 16 := by
    intro l hm
    obtain ⟨j, hj, rfl, hp⟩ := mem_lensOf hm
    refine ⟨by omega, ?_⟩
    by_contra hgt
    have e : bits.tail.getD j 0 = bits.getD (j + 1) 0 := by cases bits <;> simp
    have hj' : j < 16 := by simpa [hlen] using hj
    rw [e, hz _ (by omega) (by omega)] at hp
    omega
  have hsp : hpos (maxLen bits 16) (lensOf 0 bits.tail) ≤ 2 ^ maxLen bits 16 := by
    have h1 := hk
    rw [← htail, hpos_scale (maxLen bits 16) h16 _ (fun l hl => (hlens l hl).2)] at h1
    have e : 2 ^ 16 = 2 ^ (16 - maxLen bits 16) * 2 ^ maxLen bits 16 := by rw [← Nat.pow_add]; congr 1; omega
    rw [e] at h1
    exact Nat.le_of_mul_le_mul_left h1 (Nat.two_pow_pos _)
  obtain ⟨g, hg⟩ : ∃ g : Nat → Nat → Nat × Nat × Nat,
    g = fun a b => (a % 256, hval.getD b 0 % 256, (List.replicate 256 0).getD b 0 % 256) := ⟨_, rfl⟩
  obtain ⟨ent, hent⟩ : ∃ ent, ent = ((lensOf 0 bits.tail).zipIdx.flatMap fun p =>
    List.replicate (2 ^ (maxLen bits 16 - p.1)) (g p.1 p.2)) := ⟨_, rfl⟩
  have hel : ent.length = hpos (maxLen bits 16) (lensOf 0 bits.tail) := by rw [hent]; exact fill_length _ _ _ _
  have hfill : fillTable bits hval (List.replicate 256 0) (maxLen bits 16) =
      .ok (ent ++ List.replicate (2 ^ maxLen bits 16 - ent.length) (0, 0, 0)) := by
    unfold fillTable
    simp only [hl]
    rw [if_neg (by rw [hvl, List.length_replicate, lensOf_len, htail]; omega)]
    have : (List.flatMap (fun p : Nat × Nat => List.replicate (2 ^ (maxLen bits 16 - p.1))
      (p.1 % 256, hval.getD p.2 0 % 256, (List.replicate 256 0).getD p.2 0 % 256)) (lensOf 0 bits.tail).zipIdx) = ent := by
      rw [hent, hg]
    rw [this, if_pos (by omega)]
  refine ⟨⟨false, maxLen bits 16, ent ++ List.replicate (2 ^ maxLen bits 16 - ent.length) (0, 0, 0), []⟩, ?_, ?_⟩
  · unfold createTable
    simp only
    rw [List.take_left' hc, List.drop_left' hc, ← hbits, ← hhval, hfill, ok_bind]
  · intro p s rest hs hr
    have hi : T.vals.idxOf s < T.vals.length := List.idxOf_lt_length_iff.2 hs
    obtain ⟨hsym, h16'⟩ := refSymbol_codeWord T.counts (T.vals.idxOf s) rest (by omega) (by omega) hk
    have hfs := refSymbol_findSlot (maxLen bits 16) bits.tail 0 0 0 0 (Crw.symbol T s ++ rest) 0 (by omega) (by
      intro j hj
      have e : bits.tail.getD j 0 = bits.getD (j + 1) 0 := by cases bits <;> simp
      rw [e]
      by_cases h17 : j + 1 ≤ 16
      · exact hz _ (by omega) h17
      · rw [List.getD_eq_getElem?_getD, List.getElem?_eq_none (by rw [hlen]; omega)]; rfl) rfl
    rw [htail, show Crw.symbol T s = codeWord T.counts (T.vals.idxOf s) from rfl, hsym, ← show Crw.symbol T s = codeWord T.counts (T.vals.idxOf s) from rfl, ← htail] at hfs
    simp only [Nat.zero_mul, Nat.zero_add, Nat.sub_zero] at hfs
    obtain ⟨k, hk1, hk2⟩ := Option.map_eq_some_iff.1 hfs.symm
    simp only [Prod.mk.injEq] at hk2
    obtain ⟨hk3, rfl⟩ := hk2
    change _ = (codeWord T.counts (T.vals.idxOf s)).length at hk3
    obtain ⟨p1, e1, r1, a1⟩ := PumpJPEG.lawful.peek_ok p _ (maxLen bits 16) hr (by omega) trivial
    have hcl := natMSB_lt (takeZ (maxLen bits 16) (Crw.symbol T s ++ rest))
    rw [length_takeZ] at hcl
    have hget : ent[natMSB (takeZ (maxLen bits 16) (Crw.symbol T s ++ rest))]? = some (g ((lensOf 0 bits.tail).getD (T.vals.idxOf s) 0) (T.vals.idxOf s)) := by
      rw [hent, fill_get, hk1]; simp
    have hlt : natMSB (takeZ (maxLen bits 16) (Crw.symbol T s ++ rest)) < ent.length := by
      by_contra hge
      rw [List.getElem?_eq_none (by omega)] at hget
      simp at hget
    have hval2 : hval.getD (T.vals.idxOf s) 0 = s := by
      rw [hvg _ hi, List.getD_eq_getElem?_getD, List.getElem?_eq_getElem hi]
      exact List.getElem_idxOf hi
    have hs256 := hv s hs
    have hle : (codeWord T.counts (T.vals.idxOf s)).length ≤ maxLen bits 16 := by
      rw [← hk3]
      have hkl := findSlot_lt hk1
      rw [List.getD_eq_getElem?_getD, List.getElem?_eq_getElem hkl]
      exact (hlens _ (List.getElem_mem hkl)).2
    obtain ⟨p2, e2, r2, _⟩ := PumpJPEG.lawful.consume_ok p1 _ (codeWord T.counts (T.vals.idxOf s)).length r1 (by omega)
    refine ⟨p2, ?_, ?_⟩
    · unfold huffGet
      rw [e1, ok_bind]
      simp only
      rw [idx, List.getElem?_append_left hlt, hget]
      simp only [hg, ok_bind]
      rw [hk3, Nat.mod_eq_of_lt (show _ < 256 by omega), e2, ok_bind, hval2, Nat.mod_eq_of_lt hs256]
    · rwa [show Crw.symbol T s = codeWord T.counts (T.vals.idxOf s) from rfl, List.drop_left] at r2

/-! ## Blocks -/

theorem digit_read (p : PumpJPEG) (d : Int) (rest : List Bool) (hd : catOf d ≤ 15) (h : p.Rep (Crw.digits d ++ rest)) :
    ∃ v p', getBits p (catOf d) = .ok (v, p') ∧ p'.Rep rest ∧
      (d ≠ 0 → (if v &&& (1 <<< (catOf d - 1)) = 0 then (v : Int) - ((1 <<< catOf d : Nat) - 1) else (v : Int)) = d) := by
  obtain ⟨p', e, r⟩ := getBits_field PumpJPEG.lawful p (catOf d) (extraOf d) rest h (extraOf_lt d) (by omega) trivial
  refine ⟨extraOf d, p', e, r, fun h0 => ?_⟩
  have h1 := diffOf_extra d h0
  unfold diffOf at h1
  rw [if_pos rfl] at h1
  have hc : 0 < catOf d := by unfold catOf; rw [if_neg h0]; omega
  have htb := testBit_top (catOf d) 0 (extraOf d) hc (extraOf_lt d) 0 (by simp)
  simp only [Nat.pow_zero, Nat.mul_one, Nat.add_zero] at htb
  rw [Nat.shiftLeft_eq, Nat.one_mul, Nat.shiftLeft_eq, Nat.one_mul]
  have hcast : ((2 ^ catOf d : Nat) : Int) = (2 : Int) ^ catOf d := by push_cast; rfl
  rw [hcast]
  by_cases hlt : extraOf d < 2 ^ (catOf d - 1)
  · rw [if_pos ((and_pow_eq_zero _ _).2 (by rw [htb]; simp [hlt]))]
    rwa [if_pos hlt] at h1
  · rw [if_neg (fun h => by rw [and_pow_eq_zero, htb] at h; simp [hlt] at h)]
    rwa [if_neg hlt] at h1

theorem cat_pos {d : Int} (h : d ≠ 0) : 1 ≤ catOf d := by unfold catOf; rw [if_neg h]; omega

theorem leaf_hi (z k : Nat) (hk : k < 16) : (16 * z + k) >>> 4 = z ∧ (16 * z + k) &&& 0x0f = k := by
  constructor
  · rw [Nat.shiftRight_eq_div_pow]; omega
  · rw [show (0x0f : Nat) = 2 ^ 4 - 1 from rfl, Nat.and_two_pow_sub_one_eq_mod]; omega

/-- What the second table has words for. -/
def Full (T : Table) : Prop := 0 ∈ T.vals ∧ 0xf0 ∈ T.vals ∧ ∀ z, z < 16 → ∀ k, k < 11 → 1 ≤ k → 16 * z + k ∈ T.vals

instance (T : Table) : Decidable (Full T) := by unfold Full; infer_instance

theorem zeros_ok {T : Table} {t0 t1 : HuffTable} (hT : Reads T t1) (hF : Full T) (n : Nat) : ∀ (fuel i : Nat) (buf : List Int) (p : PumpJPEG) (rest : List Bool),
    1 ≤ i → i + 16 * n < 64 → n ≤ fuel → p.Rep ((List.replicate n (Crw.symbol T 0xf0)).flatten ++ rest) →
    ∃ p', blockLoop t0 t1 fuel i buf p = blockLoop t0 t1 (fuel - n) (i + 16 * n) buf p' ∧ p'.Rep rest := by
  induction n with
  | zero => intro fuel i buf p rest _ _ _ h; exact ⟨p, rfl, by simpa using h⟩
  | succ n ih =>
    intro fuel i buf p rest hi h64 hf h
    obtain ⟨fuel, rfl⟩ : ∃ f, fuel = f + 1 := ⟨fuel - 1, by omega⟩
    rw [List.replicate_succ, List.flatten_cons, List.append_assoc] at h
    obtain ⟨p1, e1, r1⟩ := hT p 0xf0 _ hF.2.1 h
    obtain ⟨p2, e2, r2⟩ := ih fuel (i + 16) buf p1 rest (by omega) (by omega) (by omega) r1
    refine ⟨p2, ?_, r2⟩
    rw [blockLoop, if_pos (by omega), if_pos (by omega), e1, ok_bind]
    simp only
    rw [if_neg (by omega), if_neg (by omega), show (0xf0 : Nat) >>> 4 = 15 from rfl, show (0xf0 : Nat) &&& 0x0f = 0 from rfl, if_pos rfl,
      show i + 15 + 1 = i + 16 by omega, e2, show fuel + 1 - (n + 1) = fuel - n by omega, show i + 16 + 16 * n = i + 16 * (n + 1) by omega]

theorem runs_ok {T : Table} {t0 t1 : HuffTable} (hT : Reads T t1) (hF : Full T) (l : List Int) :
    ∀ (z fuel : Nat) (pre : List Int) (p : PumpJPEG) (rest : List Bool), 1 ≤ pre.length → pre.length + z + l.length = 64 → 64 ≤ fuel + pre.length →
      (∀ d ∈ l, catOf d ≤ 10) → p.Rep (Crw.runs T z l ++ rest) →
      ∃ p', blockLoop t0 t1 fuel pre.length (pre ++ List.replicate (64 - pre.length) 0) p = .ok (pre ++ List.replicate z 0 ++ l, p') ∧ p'.Rep rest := by
  induction l with
  | nil =>
    intro z fuel pre p rest h1 h64 hf _ h
    rw [List.length_nil, Nat.add_zero] at h64
    rw [Crw.runs] at h
    by_cases hz : z = 0
    · rw [if_pos hz, List.nil_append] at h
      refine ⟨p, ?_, h⟩
      subst hz
      have : ∀ f, blockLoop t0 t1 f pre.length (pre ++ List.replicate (64 - pre.length) 0) p = .ok (pre ++ List.replicate (64 - pre.length) 0, p) := by
        intro f
        cases f <;> rw [blockLoop, if_neg (by omega)]
      rw [this, show 64 - pre.length = 0 by omega, List.append_nil]
    · rw [if_neg hz] at h
      obtain ⟨p1, e1, r1⟩ := hT p 0 _ hF.1 h
      refine ⟨p1, ?_, r1⟩
      obtain ⟨fuel, rfl⟩ : ∃ f, fuel = f + 1 := ⟨fuel - 1, by omega⟩
      rw [blockLoop, if_pos (by omega), if_pos (by omega), e1, ok_bind]
      simp only
      rw [if_pos ⟨trivial, by omega⟩, show 64 - pre.length = z by omega, List.append_nil]
  | cons d l ih =>
    intro z fuel pre p rest h1 h64 hf hl h
    rw [List.length_cons] at h64
    rw [Crw.runs] at h
    by_cases hd : d = 0
    · rw [if_pos hd] at h
      obtain ⟨p', e, r⟩ := ih (z + 1) fuel pre p rest h1 (by omega) hf (fun d hd => hl d (List.mem_cons_of_mem _ hd)) h
      refine ⟨p', ?_, r⟩
      rw [e, hd, List.replicate_succ']
      simp
    · rw [if_neg hd] at h
      simp only [List.append_assoc] at h
      have hc := cat_pos hd
      have hc10 := hl d (List.mem_cons_self ..)
      obtain ⟨p1, e1, r1⟩ := zeros_ok (t0 := t0) hT hF (z / 16) fuel pre.length (pre ++ List.replicate (64 - pre.length) 0) p _ h1 (by omega) (by omega) h
      obtain ⟨p2, e2, r2⟩ := hT p1 (16 * (z % 16) + catOf d) _ (hF.2.2 _ (by omega) _ (by omega) hc) r1
      obtain ⟨v, p3, e3, r3, hv⟩ := digit_read p2 d _ (by omega) r2
      obtain ⟨p4, e4, r4⟩ := ih 0 (fuel - z / 16 - 1) (pre ++ List.replicate z 0 ++ [d]) p3 rest (by simp; omega)
        (by simp only [List.length_append, List.length_replicate, List.length_cons, List.length_nil]; omega)
        (by simp only [List.length_append, List.length_replicate, List.length_cons, List.length_nil]; omega)
        (fun d hd => hl d (List.mem_cons_of_mem _ hd)) r3
      refine ⟨p4, ?_, r4⟩
      obtain ⟨f2, hf2⟩ : ∃ f, fuel - z / 16 = f + 1 := ⟨fuel - z / 16 - 1, by omega⟩
      rw [e1, hf2, blockLoop, if_pos (by omega), if_pos (by omega), e2, ok_bind]
      simp only
      rw [if_neg (by omega), if_neg (by omega), (leaf_hi (z % 16) (catOf d) (by omega)).1, (leaf_hi (z % 16) (catOf d) (by omega)).2, if_neg (by omega),
        e3, ok_bind]
      simp only
      rw [hv hd, show pre.length + 16 * (z / 16) + z % 16 = pre.length + z by omega, if_pos (by omega)]
      have hset : (pre ++ List.replicate (64 - pre.length) (0 : Int)).set (pre.length + z) d =
          (pre ++ List.replicate z 0 ++ [d]) ++ List.replicate (64 - (pre ++ List.replicate z 0 ++ [d]).length) 0 := by
        rw [show 64 - pre.length = z + 1 + (64 - (pre ++ List.replicate z 0 ++ [d]).length) by
          simp only [List.length_append, List.length_replicate, List.length_cons, List.length_nil]; omega]
        rw [List.set_append_right _ _ (by omega), Nat.add_sub_cancel_left, ← List.replicate_append_replicate, ← List.replicate_append_replicate,
          List.set_append_left _ _ (by simp), List.set_append_right _ _ (by simp)]
        simp
      rw [hset, show pre.length + z + 1 = (pre ++ List.replicate z 0 ++ [d]).length by
        simp only [List.length_append, List.length_replicate, List.length_cons, List.length_nil]]
      rw [show fuel - z / 16 - 1 = f2 by omega] at e4
      rw [e4]
      simp

/-- A whole block. -/
theorem blockLoop_ok {n : Nat} {t0 t1 : HuffTable} (h0 : Reads (Crw.firstTable n) t0) (hF0 : ∀ k, k < 12 → k ∈ (Crw.firstTable n).vals)
    (h1 : Reads (Crw.otherTable n) t1) (hF : Full (Crw.otherTable n)) (d : Int) (l : List Int) (hd : catOf d ≤ 11) (hl : ∀ d ∈ l, catOf d ≤ 10)
    (hll : l.length = 63) (p : PumpJPEG) (rest : List Bool) (h : p.Rep (Crw.blockBits n d l ++ rest)) :
    ∃ p', blockLoop t0 t1 64 0 (List.replicate 64 0) p = .ok (d :: l, p') ∧ p'.Rep rest := by
  unfold Crw.blockBits at h
  simp only [List.append_assoc] at h
  obtain ⟨p1, e1, r1⟩ := h0 p (catOf d) _ (hF0 _ (by omega)) h
  rw [blockLoop, if_pos (by omega), if_neg (by omega), e1, ok_bind]
  simp only
  have hlh := leaf_hi 0 (catOf d) (by omega)
  rw [Nat.mul_zero, Nat.zero_add] at hlh
  rw [if_neg (by omega), if_neg (by omega), hlh.1, hlh.2]
  by_cases hz : d = 0
  · subst hz
    rw [show catOf 0 = 0 from rfl, if_pos rfl]
    have r2 : p1.Rep (Crw.runs (Crw.otherTable n) 0 l ++ rest) := r1
    obtain ⟨p2, e2, r2⟩ := runs_ok (t0 := t0) h1 hF l 0 63 [0] p1 rest (by simp) (by simp; omega) (by simp) hl r2
    exact ⟨p2, e2, r2⟩
  · have hc := cat_pos hz
    obtain ⟨v, p2, e2, r2, hv⟩ := digit_read p1 d _ (by omega) r1
    rw [if_neg (by omega), e2, ok_bind]
    simp only
    rw [if_pos (by omega), hv hz]
    obtain ⟨p3, e3, r3⟩ := runs_ok (t0 := t0) h1 hF l 0 63 [d] p2 rest (by simp) (by simp; omega) (by simp) hl r2
    exact ⟨p3, e3, r3⟩

end Verif.Crw
