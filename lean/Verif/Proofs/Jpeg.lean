import Verif.Proofs.LjpegHeader
import Verif.Proofs.HuffShift
import Verif.Props.HuffDecode
import Verif.Spec.Jpeg
/-! # Lossless JPEG files of any writer: one difference, and the header -/

namespace Verif.Ljpeg
open Verif Verif.Pumps Verif.Spec Verif.Spec.Jpeg

/-- The decoder's table for a table of the file. -/
structure ReadsT (bug : Bool) (T : Table) (t : HuffTable) : Prop where
  valid : T.Valid
  bug : t.dngBug = bug
  ok : ∃ hv, TableOK (0 :: T.counts) hv t ∧ CacheOK (0 :: T.counts) hv t ∧ ∀ k, k < T.vals.length → hv.getD k 0 = T.vals.getD k 0

theorem goodDht_table {T : Table} (h : T.Valid) (pad : List Nat) : GoodDht (0 :: T.counts) (T.vals ++ pad) where
  len := by simp [h.counts]
  space := by rw [List.tail_cons, Verif.Props.hpos_lensOf]; exact h.kraft
  vals := by
    intro k hk
    rw [List.tail_cons, Verif.Props.length_lensOf, h.total] at hk
    rw [List.getD_eq_getElem?_getD, List.getElem?_append_left hk, List.getElem?_eq_getElem hk]
    exact h.cats _ (List.getElem_mem hk)
  enough := by rw [List.tail_cons, Verif.Props.length_lensOf, h.total, List.length_append]; omega

theorem readsT_new {T : Table} (h : T.Valid) (bug : Bool) (pad : List Nat) (hl : (T.vals ++ pad).length = 256) :
    ∃ t, HuffTable.new (0 :: T.counts) (T.vals ++ pad) (List.replicate 256 0) bug = .ok t ∧ ReadsT bug T t := by
  obtain ⟨t, e, hd, ht, hc⟩ := HuffTable.new_ok _ _ bug (goodDht_table h pad) hl
  refine ⟨t, e, h, hd, _, ht, hc, ?_⟩
  intro k hk
  rw [List.getD_eq_getElem?_getD, List.getElem?_append_left hk, ← List.getD_eq_getElem?_getD]

theorem catOf_le {d : Int} (h1 : -32768 ≤ d) (h2 : d ≤ 32767) : catOf d ≤ 16 ∧ (catOf d = 16 → d = -32768) := by
  unfold catOf
  split
  · omega
  · rename_i h0
    have hb : d.natAbs < 2 ^ 16 := by omega
    have h3 := Nat.log2_lt (n := d.natAbs) (k := 16) (by omega)
    have := h3.2 hb
    refine ⟨by omega, fun he => ?_⟩
    have h4 := Nat.log2_self_le (n := d.natAbs) (by omega)
    rw [show d.natAbs.log2 = 15 by omega] at h4
    have : (2 : Nat) ^ 15 = 32768 := rfl
    omega

/-- The decoder reads a coded difference. -/
theorem ReadsT.decode {bug : Bool} {T : Table} {t : HuffTable} (h : ReadsT bug T t) {d : Int} (h1 : -32768 ≤ d) (h2 : d ≤ 32767)
    (hd : catOf d ∈ T.vals) {p : PumpJPEG} {rest : List Bool} (hr : p.Rep (T.code bug d ++ rest)) :
    ∃ p', huffDecode t p = .ok (d, p') ∧ p'.Rep rest := by
  obtain ⟨hv, ht, hc, hvals⟩ := h.ok
  have hV := h.valid
  obtain ⟨p', e, r⟩ := fast_ok PumpJPEG.lawful ht hc p _ hr
  rw [h.bug] at e r
  have hk := List.idxOf_lt_length_iff.2 hd
  have hv' : hv.getD (T.vals.idxOf (catOf d)) 0 = catOf d := by
    rw [hvals _ hk, List.getD_eq_getElem?_getD, List.getElem?_eq_getElem hk, Option.getD_some, List.getElem_idxOf]
  obtain ⟨c1, c2⟩ := catOf_le h1 h2
  obtain ⟨hs, _⟩ := refSymbol_codeWord T.counts (T.vals.idxOf (catOf d))
    ((if catOf d = 16 ∧ bug = false then [] else bitsMSB (catOf d) (extraOf d)) ++ rest) (by rw [hV.total]; exact hk)
    (by rw [hV.counts]) (by rw [Verif.Props.hpos_lensOf]; exact hV.kraft)
  have hdec : refDecode (0 :: T.counts) hv bug (T.code bug d ++ rest) = (d, (T.code bug d).length) := by
    rw [Table.code, List.append_assoc]
    have href := refDecode_some (bits := 0 :: T.counts) (huffval := hv) (dng := bug) hs hv'.symm
    rw [href]
    by_cases h0 : catOf d = 0
    · have hd0 : d = 0 := by
        by_contra hne
        unfold catOf at h0
        rw [if_neg hne] at h0; omega
      rw [if_pos h0, if_neg (by omega), h0]
      simp [bitsMSB, hd0]
    · rw [if_neg h0]
      by_cases h16 : catOf d = 16
      · rw [if_pos h16]
        cases bug
        · rw [show (if catOf d = 16 ∧ false = false then [] else bitsMSB (catOf d) (extraOf d)) = [] from if_pos ⟨h16, rfl⟩,
            List.append_nil]
          exact Prod.ext (c2 h16).symm rfl
        · rw [show (if catOf d = 16 ∧ true = false then [] else bitsMSB (catOf d) (extraOf d)) = bitsMSB (catOf d) (extraOf d) from
            if_neg (by simp), List.length_append, length_bitsMSB, h16]
          exact Prod.ext (c2 h16).symm rfl
      · have hd0 : d ≠ 0 := by rintro rfl; exact h0 rfl
        rw [if_neg h16, if_neg (fun hh => h16 hh.1), List.drop_left, takeZ_of_le (by simp), List.take_left' (by simp),
          natMSB_bitsMSB, Nat.mod_eq_of_lt (extraOf_lt d), List.length_append, length_bitsMSB]
        have := diffOf_extra d hd0
        rw [diffOf, if_pos rfl] at this
        rw [refExtend, this]
  rw [hdec] at e r
  exact ⟨p', e, by simpa using r⟩

/-! ### tables -/

/-- The decoder's record of the tables seen so far. -/
structure DhtRep (L : List (Nat × Table)) (d : Dhts) : Prop where
  l1 : d.init.length = 4
  l2 : d.bits.length = 4
  l3 : d.huffval.length = 4
  hl : ∀ i, i < 4 → (d.huffval.getD i []).length = 256
  none : ∀ i, i < 4 → (L.reverse.find? fun t => t.1 = i) = none → d.init.getD i false = false
  some : ∀ i t, i < 4 → (L.reverse.find? fun t => t.1 = i) = some t → d.init.getD i false = true ∧
    d.bits.getD i [] = 0 :: t.2.counts ∧ ∃ pad, d.huffval.getD i [] = t.2.vals ++ pad

theorem dhtRep_empty : DhtRep [] Dhts.empty where
  l1 := by simp [Dhts.empty]
  l2 := by simp [Dhts.empty]
  l3 := by simp [Dhts.empty]
  hl := by
    intro i hi
    simp only [Dhts.empty]
    rw [List.getD_eq_getElem?_getD, List.getElem?_replicate, if_pos hi, Option.getD_some, List.length_replicate]
  none := by
    intro i hi _
    simp only [Dhts.empty]
    rw [List.getD_eq_getElem?_getD, List.getElem?_replicate]
    split <;> rfl
  some := by simp

/-- The record after one more table. -/
def Dhts.put (d : Dhts) (t : Nat × Table) : Dhts :=
  { init := d.init.set t.1 true
    bits := d.bits.set t.1 (0 :: t.2.counts)
    huffval := d.huffval.set t.1 (t.2.vals ++ (d.huffval.getD t.1 []).drop t.2.vals.length) }

theorem dhtRep_put {L : List (Nat × Table)} {d : Dhts} (h : DhtRep L d) (t : Nat × Table) (ht : t.1 < 4) (hv : t.2.Valid) :
    DhtRep (L ++ [t]) (d.put t) where
  l1 := by simp [Dhts.put, h.l1]
  l2 := by simp [Dhts.put, h.l2]
  l3 := by simp [Dhts.put, h.l3]
  hl := by
    intro i hi
    simp only [Dhts.put]
    rw [getD_set_lt _ _ _ _ _ (by rw [h.l3]; exact ht)]
    split
    · have h1 := h.hl t.1 ht
      have h2 := hv.max
      rw [List.length_append, List.length_drop, h1]; omega
    · exact h.hl i hi
  none := by
    intro i hi hn
    rw [List.reverse_append, List.reverse_singleton, List.singleton_append, List.find?_cons] at hn
    split at hn
    · simp at hn
    · rename_i hne
      simp only [Dhts.put]
      rw [getD_set_lt _ _ _ _ _ (by rw [h.l1]; exact ht), if_neg (by simpa using hne)]
      exact h.none i hi hn
  some := by
    intro i t' hi hs
    rw [List.reverse_append, List.reverse_singleton, List.singleton_append, List.find?_cons] at hs
    simp only [Dhts.put]
    rw [getD_set_lt _ _ _ _ _ (by rw [h.l1]; exact ht), getD_set_lt _ _ _ _ _ (by rw [h.l2]; exact ht),
      getD_set_lt _ _ _ _ _ (by rw [h.l3]; exact ht)]
    split at hs
    · rename_i he
      have he' : t.1 = i := by simpa using he
      injection hs with hs
      subst hs
      simp only [if_pos he']
      exact ⟨trivial, trivial, _, rfl⟩
    · rename_i hne
      have hne' : ¬ t.1 = i := by simpa using hne
      simp only [if_neg hne']
      exact h.some i t' hi hs

theorem dhtLoop_ok (l : List (Nat × Table)) (hl : ∀ t ∈ l, t.1 ≤ 3 ∧ t.2.Valid) (L : List (Nat × Table)) (d : Dhts)
    (hd : DhtRep L d) (s : List Nat) (f : Nat) (hf : l.length ≤ f) :
    ∃ d', dhtLoop f (l.map fun t => 17 + t.2.vals.length).sum ((l.flatMap fun t => [t.1] ++ t.2.counts ++ t.2.vals) ++ s) d =
      .ok (d', s) ∧ DhtRep (L ++ l) d' := by
  induction l generalizing L d f with
  | nil =>
    refine ⟨d, ?_, by simpa using hd⟩
    simp [dhtLoop_zero]
  | cons t l ih =>
    obtain ⟨h3, hv⟩ := hl t (by simp)
    cases f with
    | zero => simp at hf
    | succ f =>
      obtain ⟨d', e', r'⟩ := ih (fun t ht => hl t (by simp [ht])) (L ++ [t]) (d.put t) (dhtRep_put hd t (by omega) hv) f (by
        simpa using hf)
      refine ⟨d', ?_, by simpa using r'⟩
      have hc2 : t.1 >>> 4 = 0 := by rw [Nat.shiftRight_eq_div_pow]; omega
      have hc3 : t.1 &&& 0xf = t.1 := by
        rw [show (0xf : Nat) = 2 ^ 4 - 1 from rfl, Nat.and_two_pow_sub_one_eq_mod]; omega
      have hb : ∀ r, getBytes 16 (t.2.counts ++ r) = .ok (t.2.counts, r) := by
        intro r
        have := getBytes_append t.2.counts r
        rwa [hv.counts] at this
      rw [List.map_cons, List.sum_cons, List.flatMap_cons, dhtLoop]
      rw [if_neg (by omega)]
      simp only [List.cons_append, List.nil_append, List.append_assoc, getU8, bind, Except.bind, hc2, hc3, hb, hv.total]
      rw [if_neg (by omega), if_neg (by omega), if_neg (by have := hv.max; omega), if_neg (by omega)]
      simp only [getBytes_append]
      rw [show 17 + t.2.vals.length + (l.map fun t => 17 + t.2.vals.length).sum - (1 + 16 + t.2.vals.length) =
        (l.map fun t => 17 + t.2.vals.length).sum by omega]
      rw [← e']
      simp only [Dhts.put, List.append_assoc]
      rfl

theorem word_be16 (n : Nat) (h : n < 65536) (s : List Nat) : getU16 (word n ++ s) = .ok (n, s) := by
  simp only [word, List.cons_append, List.nil_append, getU16]
  congr 2
  omega

/-! ### segments -/

theorem skip_junk (junk : List Nat) (hj : quiet junk = true) (m : Nat) (h0 : m ≠ 0) (h1 : m ≠ 0xff) (s : List Nat) :
    nextMarker (junk ++ 0xff :: m :: s) = .ok (m, s) := by
  induction junk with
  | nil => exact nextMarker_ok m h0 h1 s
  | cons b junk ih =>
    have hq : quiet junk = true := by
      cases junk with
      | nil => rfl
      | cons c r => rw [quiet, Bool.and_eq_true] at hj; exact hj.2
    have := ih hq
    rw [nextMarker] at this ⊢
    rw [List.cons_append, skipToMarker.eq_def]
    simp only
    by_cases hb : b = 0xff
    · rw [if_pos hb]
      cases junk with
      | nil =>
        simp only [List.nil_append]
        rw [if_neg (by omega)]
        exact this
      | cons c r =>
        have hc : c = 0 ∨ c = 0xff := by
          rw [quiet, hb] at hj
          simp only [bne_self_eq_false, Bool.false_or, Bool.and_eq_true, Bool.or_eq_true, beq_iff_eq] at hj
          exact hj.1
        simp only [List.cons_append]
        rw [if_neg (by omega)]
        exact this
    · rw [if_neg hb, if_neg (by simp)]
      exact this

theorem segs_ok (segs : List Segment) (hs : ∀ g ∈ segs, g.Ok) (L : List (Nat × Table)) (d : Dhts) (hd : DhtRep L d)
    (junk : List Nat) (hj : quiet junk = true) (S : List Nat) (sof : SofInfo) (f : Nat) :
    ∃ junk' d', markerLoop (segs.length + f) (junk ++ (segs.flatMap Segment.bytes ++ S)) sof d =
      markerLoop f (junk' ++ S) sof d' ∧ quiet junk' = true ∧ DhtRep (L ++ tablesOf segs) d' := by
  induction segs generalizing L d junk with
  | nil => exact ⟨junk, d, by simp, hj, by simpa [tablesOf] using hd⟩
  | cons g segs ih =>
    have hg := hs g (by simp)
    have hs' : ∀ g ∈ segs, g.Ok := fun g hg => hs g (by simp [hg])
    rw [List.flatMap_cons, List.append_assoc, show (g :: segs).length + f = (segs.length + f) + 1 by simp; omega, markerLoop]
    cases g with
    | tables l =>
      obtain ⟨h1, h2⟩ := hg
      obtain ⟨d1, e1, r1⟩ := dhtLoop_ok l h1 L d hd (segs.flatMap Segment.bytes ++ S) ((l.map fun t => 17 + t.2.vals.length).sum + 1) (by
        have : ∀ l : List (Nat × Table), l.length ≤ (l.map fun t => 17 + t.2.vals.length).sum := by
          intro l
          induction l with
          | nil => simp
          | cons a l ih => simp; omega
        have := this l
        omega)
      obtain ⟨junk', d2, e2, j2, r2⟩ := ih hs' _ d1 r1 [] rfl
      refine ⟨junk', d2, ?_, j2, by
        rw [show L ++ tablesOf (.tables l :: segs) = L ++ l ++ tablesOf segs by simp [tablesOf]]
        exact r2⟩
      simp only [Segment.bytes, List.cons_append, List.nil_append, List.append_assoc]
      rw [skip_junk junk hj 0xc4 (by omega) (by omega)]
      simp only [bind, Except.bind]
      rw [if_neg (by omega), if_pos (by trivial), parseDht, word_be16 _ h2]
      simp only [bind, Except.bind]
      rw [usub, if_pos (by omega), Nat.add_sub_cancel_left]
      simp only [List.cons_append, List.nil_append, List.append_assoc] at e1
      simp only [e1]
      exact e2
    | other m body =>
      obtain ⟨h1, h2⟩ := hg
      simp only [List.mem_cons, List.not_mem_nil, or_false, not_or] at h1
      obtain ⟨junk', d2, e2, j2, r2⟩ := ih hs' L d hd body h2
      refine ⟨junk', d2, ?_, j2, by
        rw [show L ++ tablesOf (.other m body :: segs) = L ++ tablesOf segs by simp [tablesOf]]
        exact r2⟩
      simp only [Segment.bytes, List.cons_append, List.nil_append]
      rw [skip_junk junk hj m h1.1 h1.2.1]
      simp only [bind, Except.bind]
      rw [if_neg h1.2.2.1, if_neg h1.2.2.2.1, if_neg h1.2.2.2.2.2.1, if_neg h1.2.2.2.2.1, if_neg h1.2.2.2.2.2.2]
      exact e2

/-! ### frame and scan headers -/

/-- A component as the decoder knows it after the frame header. -/
def rawComp (c : Comp) : CompInfo := ⟨c.id, 0, c.h, c.v⟩

/-- A component as the decoder knows it after the scan header. -/
def fullComp (c : Comp) : CompInfo := ⟨c.id, c.tbl, c.h, c.v⟩

theorem sofComps_ok (cs : List Comp) (hc : ∀ c ∈ cs, c.h < 16 ∧ c.v < 16 ∧ c.tbl ≤ 3) (acc : List CompInfo) (s : List Nat) :
    sofComponents cs.length ((cs.flatMap fun c => [c.id, 16 * c.h + c.v, 0]) ++ s) acc = .ok (acc ++ cs.map rawComp, s) := by
  induction cs generalizing acc with
  | nil => simp [sofComponents]
  | cons c cs ih =>
    obtain ⟨h1, h2, _⟩ := hc c (by simp)
    have e1 : (16 * c.h + c.v) >>> 4 = c.h := by rw [Nat.shiftRight_eq_div_pow]; omega
    have e2 : (16 * c.h + c.v) &&& 0xf = c.v := by
      rw [show (0xf : Nat) = 2 ^ 4 - 1 from rfl, Nat.and_two_pow_sub_one_eq_mod]; omega
    rw [List.length_cons, sofComponents, List.flatMap_cons]
    simp only [List.cons_append, List.nil_append, getU8, bind, Except.bind, e1, e2]
    rw [ih (fun c hc' => hc c (by simp [hc']))]
    simp [rawComp]

theorem sosComps_ok (fix : Bool) (post : List Comp) (hc : ∀ c ∈ post, c.tbl ≤ 3) (sel : List Nat) (hsel : sel.length = post.length)
    (pre : List Comp) (hnd : ((pre ++ post).map (·.id)).Nodup)
    (hid : post.map (·.id) = if fix then List.range' pre.length post.length else sel) (s : List Nat) :
    sosComponents post.length pre.length fix (((sel.zip post).flatMap fun p => [p.1, 16 * p.2.tbl]) ++ s)
      (pre.map fullComp ++ post.map rawComp) = .ok ((pre ++ post).map fullComp, s) := by
  induction post generalizing pre sel with
  | nil => simp [sosComponents]
  | cons c post ih =>
    cases sel with
    | nil => simp at hsel
    | cons a sel =>
      have ht := hc c (by simp)
      have hcs : (if fix then pre.length else a) = c.id := by
        cases fix
        · simp at hid; simp [hid.1]
        · simp [List.range'_succ] at hid; simp [hid.1]
      have hfind : (pre.map fullComp ++ (c :: post).map rawComp).findIdx? (fun x => x.id = c.id) = some pre.length := by
        rw [List.findIdx?_append, List.findIdx?_eq_none_iff.2]
        · simp [rawComp, List.findIdx?_cons]
        · intro x hx
          obtain ⟨y, hy, rfl⟩ := List.mem_map.1 hx
          simp only [fullComp]
          refine decide_eq_false ?_
          intro he
          rw [List.map_append, List.map_cons, List.nodup_append] at hnd
          exact hnd.2.2 y.id (List.mem_map_of_mem hy) c.id (by simp) he
      have e1 : (16 * c.tbl) >>> 4 = c.tbl := by rw [Nat.shiftRight_eq_div_pow]; omega
      rw [List.length_cons, sosComponents, List.zip_cons_cons, List.flatMap_cons]
      simp only [List.cons_append, List.nil_append, getU8, bind, Except.bind, hcs, hfind, e1]
      rw [if_neg (by simp), setTable, hfind]
      simp only
      rw [if_neg (by omega)]
      simp only
      have hmod : (pre.map fullComp ++ (c :: post).map rawComp).modify pre.length (fun x => { x with dcTbl := c.tbl }) =
          (pre ++ [c]).map fullComp ++ post.map rawComp := by
        rw [List.modify_eq_set_getElem?, List.getElem?_append_right (by simp)]
        simp [List.set_append, rawComp, fullComp]
      rw [hmod]
      have := ih (fun c hc' => hc c (by simp [hc'])) sel (by simpa using hsel) (pre ++ [c]) (by simpa using hnd) (by
        cases fix
        · simp at hid ⊢; exact hid.2
        · simp [List.range'_succ] at hid ⊢; exact hid.2)
      rw [List.length_append, List.length_singleton] at this
      rw [this]
      simp

/-- What the decoder knows after the headers. -/
structure DecFor (F : Frame) (T : Nat → Table) (bug : Bool) (pred pt : Nat) (data : List Nat) (d : Dec) : Prop where
  buffer : d.buffer = data
  width : d.sof.width = F.width
  height : d.sof.height = F.height
  cps : d.sof.cps = F.comps.length
  prec : d.sof.precision = F.prec
  comps : d.sof.components = F.comps.map fullComp
  pred : d.predictor = pred
  pt : d.pt = pt
  tabs : ∀ k, k < F.comps.length → ∃ t, d.htable k = .ok t ∧ ReadsT bug (T k) t

theorem newFull_ok (F : Frame) (hF : F.Ok) (pre post : List Segment) (hpre : ∀ g ∈ pre, g.Ok) (hpost : ∀ g ∈ post, g.Ok)
    (sel : List Nat) (fix bug : Bool) (hsel : Selects F sel fix) (pred pt : Nat) (hpt : pt < 16) (data : List Nat)
    (T : Nat → Table) (hT : ∀ k, ∀ c, F.comps[k]? = some c → tableFor (pre ++ post) c.tbl = some (T k)) :
    ∃ d, Dec.newFull (file F pre post sel pred pt data) bug fix = .ok d ∧ DecFor F T bug pred pt data d := by
  obtain ⟨hw1, hw2⟩ := hF.w
  obtain ⟨hh1, hh2⟩ := hF.h
  obtain ⟨hp1, hp2⟩ := hF.prec
  obtain ⟨hn1, hn4⟩ := hF.n
  have hpt15 : pt &&& 0xf = pt := by
    rw [show (0xf : Nat) = 2 ^ 4 - 1 from rfl, Nat.and_two_pow_sub_one_eq_mod]; omega
  let sof0 := SofInfo.empty fix
  let sof1 : SofInfo := ⟨F.width, F.height, F.comps.length, F.prec, F.comps.map rawComp, fix⟩
  let sof2 : SofInfo := ⟨F.width, F.height, F.comps.length, F.prec, F.comps.map fullComp, fix⟩
  let S2 := scanHeader F sel pred pt ++ data
  let S1 := post.flatMap Segment.bytes ++ S2
  let S0 := F.bytes ++ S1
  have hfile : file F pre post sel pred pt data = 0xff :: 0xd8 :: (pre.flatMap Segment.bytes ++ S0) := by
    simp only [file, S0, S1, S2, List.append_assoc]; rfl
  have hfm : firstMarker (0xff :: 0xd8 :: (pre.flatMap Segment.bytes ++ S0)) = .ok (0xd8, pre.flatMap Segment.bytes ++ S0) := by
    simp [firstMarker, getU8, bind, Except.bind]
  -- fuel
  have hlen : ∀ l : List Segment, l.length ≤ (l.flatMap Segment.bytes).length := by
    intro l
    induction l with
    | nil => simp
    | cons g l ih =>
      rw [List.flatMap_cons, List.length_append, List.length_cons]
      have : 1 ≤ g.bytes.length := by cases g <;> simp [Segment.bytes]
      omega
  obtain ⟨f, hf⟩ : ∃ f, (pre.flatMap Segment.bytes ++ S0).length + 1 = pre.length + ((post.length + (f + 1)) + 1) := by
    refine ⟨(pre.flatMap Segment.bytes ++ S0).length + 1 - pre.length - post.length - 2, ?_⟩
    have h1 := hlen pre
    have h2 := hlen post
    have h3 : 2 ≤ S2.length := by simp only [S2, scanHeader, List.length_append, List.length_cons]; omega
    simp only [S0, S1, List.length_append] at *
    omega
  obtain ⟨j0, d0, e0, hj0, r0⟩ := segs_ok pre hpre [] Dhts.empty dhtRep_empty [] rfl S0 sof0 (post.length + (f + 1) + 1)
  rw [List.nil_append] at e0 r0
  -- frame header
  have hsof : parseSof sof0 (word (8 + 3 * F.comps.length) ++ ([F.prec] ++ (word F.height ++ (word F.width ++
      ([F.comps.length] ++ ((F.comps.flatMap fun c => [c.id, 16 * c.h + c.v, 0]) ++ S1)))))) = .ok (sof1, S1) := by
    simp only [parseSof, word_be16 _ (show 8 + 3 * F.comps.length < 65536 by omega), bind, Except.bind]
    simp only [List.cons_append, List.nil_append, getU8, word_be16 _ (show F.height < 65536 by omega),
      word_be16 _ (show F.width < 65536 by omega)]
    rw [if_neg (by omega), if_neg (by omega), if_neg (by omega)]
    simp only [sof0, SofInfo.empty, sofComps_ok _ hF.comps]
    rfl
  have e1 : markerLoop (post.length + (f + 1) + 1) (j0 ++ S0) sof0 d0 = markerLoop (post.length + (f + 1)) S1 sof1 d0 := by
    rw [markerLoop]
    have : j0 ++ S0 = j0 ++ 0xff :: 0xc3 :: (word (8 + 3 * F.comps.length) ++ ([F.prec] ++ (word F.height ++ (word F.width ++
      ([F.comps.length] ++ ((F.comps.flatMap fun c => [c.id, 16 * c.h + c.v, 0]) ++ S1)))))) := by
      simp only [S0, Frame.bytes, List.append_assoc]; rfl
    rw [this, skip_junk j0 hj0 0xc3 (by omega) (by omega)]
    simp only [bind, Except.bind]
    rw [if_pos (by trivial), hsof]
    simp only
    rw [if_neg (by simp only [sof1]; omega)]
  obtain ⟨j1, d1, e2, hj1, r1⟩ := segs_ok post hpost _ d0 r0 [] rfl S2 sof1 (f + 1)
  rw [List.nil_append] at e2
  -- scan header
  have hsos : parseSos sof1 (word (6 + 2 * F.comps.length) ++ ([F.comps.length] ++
      (((sel.zip F.comps).flatMap fun p => [p.1, 16 * p.2.tbl]) ++ ([pred, 0, pt] ++ data)))) = .ok ((sof2, pred, pt), data) := by
    simp only [parseSos, sof1]
    rw [if_neg (by omega), word_be16 _ (show 6 + 2 * F.comps.length < 65536 by omega)]
    simp only [bind, Except.bind, List.cons_append, List.nil_append, getU8]
    rw [if_neg (by omega)]
    have := sosComps_ok fix F.comps (fun c hc => (hF.comps c hc).2.2) sel hsel.1 [] (by simpa using hF.ids) (by
      rw [hsel.2, List.length_nil, List.range_eq_range']) (pred :: 0 :: pt :: data)
    simp only [List.map_nil, List.nil_append, List.length_nil] at this
    simp only [this, hpt15]
    rfl
  have e3 : markerLoop (f + 1) (j1 ++ S2) sof1 d1 = .ok ((sof2, pred, pt), d1, data) := by
    rw [markerLoop]
    have : j1 ++ S2 = j1 ++ 0xff :: 0xda :: (word (6 + 2 * F.comps.length) ++ ([F.comps.length] ++
      (((sel.zip F.comps).flatMap fun p => [p.1, 16 * p.2.tbl]) ++ ([pred, 0, pt] ++ data)))) := by
      simp only [S2, scanHeader, List.append_assoc]; rfl
    rw [this, skip_junk j1 hj1 0xda (by omega) (by omega)]
    simp only [bind, Except.bind]
    rw [if_neg (by omega), if_neg (by omega), if_pos (by trivial), hsos]
  have hml : markerLoop ((pre.flatMap Segment.bytes ++ S0).length + 1) (pre.flatMap Segment.bytes ++ S0) sof0 Dhts.empty =
      .ok ((sof2, pred, pt), d1, data) := by
    rw [hf, e0, e1, e2, e3]
  -- tables
  have htf : tablesOf pre ++ tablesOf post = tablesOf (pre ++ post) := by simp [tablesOf]
  rw [htf] at r1
  have hvalid : ∀ i t, ((tablesOf (pre ++ post)).reverse.find? fun t => t.1 = i) = some t → t.2.Valid := by
    intro i t ht
    have hm := List.mem_of_find?_eq_some ht
    rw [List.mem_reverse, tablesOf, List.mem_flatMap] at hm
    obtain ⟨g, hg, hm⟩ := hm
    have hok : g.Ok := by
      rcases List.mem_append.1 hg with hg | hg
      · exact hpre g hg
      · exact hpost g hg
    cases g with
    | tables l => exact (hok.1 t hm).2
    | other => simp at hm
  obtain ⟨ts, m1, l1, q1⟩ := mapM_exists (fun i =>
    if d1.init.getD i false then HuffTable.new (d1.bits.getD i []) (d1.huffval.getD i []) (List.replicate 256 0) bug
    else .ok HuffTable.empty) (fun c t => ∀ T', tableFor (pre ++ post) c = some T' → ReadsT bug T' t) (List.range 4) (by
      intro c hc
      rw [List.mem_range] at hc
      rcases hfd : ((tablesOf (pre ++ post)).reverse.find? fun t => t.1 = c) with _ | t'
      · refine ⟨_, by rw [r1.none c hc hfd, if_neg (by simp)], ?_⟩
        intro T' hT'
        rw [tableFor, hfd] at hT'
        simp at hT'
      · obtain ⟨i1, i2, pad, i3⟩ := r1.some c t' hc hfd
        have hlen := r1.hl c hc
        rw [i3] at hlen
        obtain ⟨t, t1, t2⟩ := readsT_new (hvalid c t' hfd) bug pad hlen
        refine ⟨t, ?_, ?_⟩
        · rw [i1, if_pos (by trivial), i2, i3]; exact t1
        · intro T' hT'
          rw [tableFor, hfd] at hT'
          simp at hT'
          rw [← hT']; exact t2)
  rw [List.length_range] at l1
  rw [hfile, Dec.newFull]
  simp only [hfm, bind, Except.bind]
  rw [if_neg (by omega)]
  have hml' := hml
  simp only [sof0] at hml'
  simp only [hml', m1]
  rw [if_neg (by
    simp only [sof2]
    intro hnil
    have := congrArg List.length hnil
    simp at this; rw [this] at hn1; simp at hn1)]
  refine ⟨_, rfl, ?_⟩
  constructor <;> try rfl
  intro k hk
  have ht3 := (hF.comps _ (List.getElem_mem hk)).2.2
  have hts : F.comps[k].tbl < ts.length := by omega
  have := q1 F.comps[k].tbl F.comps[k].tbl ts[F.comps[k].tbl] (List.getElem?_range (by omega)) (List.getElem?_eq_getElem hts) (T k)
    (hT k _ (List.getElem?_eq_getElem hk))
  refine ⟨ts[F.comps[k].tbl], ?_, this⟩
  simp only [Dec.htable, sof2]
  rw [idx_lt _ _ (by simpa using hk)]
  simp only [bind, Except.bind, List.getElem_map, fullComp]
  rw [idx_lt _ _ hts]

end Verif.Ljpeg
