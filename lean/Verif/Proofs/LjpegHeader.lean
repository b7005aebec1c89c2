import Verif.Proofs.LjpegScan
import Verif.Model.LjpegDec
import Mathlib.Tactic.IntervalCases
/-! # The decoder reads the header the encoder writes -/

namespace Verif.Ljpeg
open Verif Verif.Pumps Verif.Spec

theorem getU16_be16 (n : Nat) (h : n < 65536) (s : List Nat) : getU16 (be16 n ++ s) = .ok (n, s) := by
  simp only [be16, List.cons_append, List.nil_append, getU16]
  congr 2
  omega

theorem nextMarker_ok (m : Nat) (h0 : m ≠ 0) (h1 : m ≠ 0xff) (s : List Nat) : nextMarker (0xff :: m :: s) = .ok (m, s) := by
  simp [nextMarker, skipToMarker, h0, h1, getU8, bind, Except.bind]

theorem getBytes_append (l s : List Nat) : getBytes l.length (l ++ s) = .ok (l, s) := by
  induction l with
  | nil => rfl
  | cons b l ih => simp [getBytes, getU8, ih, bind, Except.bind]

theorem sofComponents_ok (n : Nat) (h1 : 1 ≤ n) (h4 : n ≤ 4) (s : List Nat) :
    sofComponents n (((List.range n).flatMap fun c => [c % 256, 0x11, 0]) ++ s) [] =
      .ok ((List.range n).map (fun c => ⟨c, 0, 1, 1⟩), s) := by
  interval_cases n <;> rfl

theorem sosComponents_ok (n : Nat) (h1 : 1 ≤ n) (h4 : n ≤ 4) (s : List Nat) :
    sosComponents n 0 false (((List.range n).flatMap fun c => [c % 256, (c <<< 4) % 256]) ++ s)
      ((List.range n).map (fun c => ⟨c, 0, 1, 1⟩)) = .ok ((List.range n).map (fun c => ⟨c, c, 1, 1⟩), s) := by
  interval_cases n <;> rfl

/-- The symbols of a DHT segment. -/
def dhtVals (T : List Code) : List Nat := (List.range 16).flatMap fun i => symbolsOfLen T (i + 1)

theorem nonempty_count {T vals lens} (h : Canon T vals lens) : (T.filter fun c => c.nbits ≠ 0).length = vals.length := by
  rw [filter_zipIdx_length]
  have := (codeList_perm h).length_eq
  rw [this]; simp [codeList]

/-- The tables after one DHT segment. -/
def Dhts.add (d : Dhts) (c : Nat) (T : List Code) : Dhts :=
  { init := d.init.set c true
    bits := d.bits.set c (0 :: dhtCounts T)
    huffval := d.huffval.set c (dhtVals T ++ (d.huffval.getD c []).drop (dhtVals T).length) }

theorem dhtLoop_zero (f : Nat) (s : List Nat) (d : Dhts) : dhtLoop f 0 s d = .ok (d, s) := by
  cases f <;> simp [dhtLoop]

theorem parseDht_ok {T vals lens} (h : Canon T vals lens) (c : Nat) (hc : c ≤ 3) (s : List Nat) (d : Dhts) :
    parseDht (be16 (2 + (1 + 16) + (T.filter fun c => c.nbits ≠ 0).length) ++ ([c % 256] ++ (dhtCounts T ++ (dhtVals T ++ s)))) d =
      .ok (d.add c T, s) := by
  have hv : dhtVals T = vals := dht_vals h
  have hlen := canon_length_le h
  rw [nonempty_count h, parseDht, getU16_be16 _ (by omega)]
  have hu : usub (2 + (1 + 16) + vals.length) 2 = .ok (17 + vals.length) := by
    rw [usub, if_pos (by omega)]; congr 1; omega
  have hb : getBytes 16 (dhtCounts T ++ (dhtVals T ++ s)) = .ok (dhtCounts T, dhtVals T ++ s) := by
    have := getBytes_append (dhtCounts T) (dhtVals T ++ s)
    rwa [length_dhtCounts] at this
  have hb2 : getBytes vals.length (dhtVals T ++ s) = .ok (dhtVals T, s) := by
    have := getBytes_append (dhtVals T) s
    rwa [hv] at this ⊢
  have hc1 : c % 256 = c := by omega
  have hc2 : c >>> 4 = 0 := by rw [Nat.shiftRight_eq_div_pow]; omega
  have hc3 : c &&& 0xf = c := by
    rw [show (0xf : Nat) = 2 ^ 4 - 1 from rfl, Nat.and_two_pow_sub_one_eq_mod]; omega
  simp only [bind, Except.bind, hu]
  rw [dhtLoop]
  rw [if_neg (by omega)]
  simp only [List.cons_append, List.nil_append, getU8, bind, Except.bind, hc1, hc2, hc3]
  rw [if_neg (by omega), if_neg (by omega)]
  simp only [hb, dhtCounts_sum h]
  rw [if_neg (by omega), if_neg (by omega)]
  simp only [hb2]
  rw [show 17 + vals.length - (1 + 16 + vals.length) = 0 by omega, dhtLoop_zero]
  simp only [Dhts.add, hv]

/-- What is known about the tables after the segments of the first `k` components. -/
structure DhtInv (tables : List (List Code)) (k : Nat) (d : Dhts) : Prop where
  l1 : d.init.length = 4
  l2 : d.bits.length = 4
  l3 : d.huffval.length = 4
  hl : ∀ i, i < 4 → (d.huffval.getD i []).length = 256
  done : ∀ i, i < k → d.init.getD i false = true ∧ d.bits.getD i [] = 0 :: dhtCounts (tables.getD i []) ∧
    ∃ pad, d.huffval.getD i [] = dhtVals (tables.getD i []) ++ pad
  todo : ∀ i, k ≤ i → d.init.getD i false = false

theorem dhtInv_empty (tables : List (List Code)) : DhtInv tables 0 Dhts.empty where
  l1 := by simp [Dhts.empty]
  l2 := by simp [Dhts.empty]
  l3 := by simp [Dhts.empty]
  hl := by
    intro i hi
    simp only [Dhts.empty]
    rw [List.getD_eq_getElem?_getD, List.getElem?_replicate, if_pos hi, Option.getD_some, List.length_replicate]
  done := by omega
  todo := by
    intro i _
    simp only [Dhts.empty]
    rw [List.getD_eq_getElem?_getD, List.getElem?_replicate]
    split <;> rfl

theorem getD_set_lt {α} (l : List α) (k i : Nat) (v x : α) (hk : k < l.length) :
    (l.set k v).getD i x = if k = i then v else l.getD i x := by
  rw [List.getD_eq_getElem?_getD, List.getElem?_set]
  by_cases h : k = i
  · subst h; simp [hk]
  · simp [h]

theorem dhtInv_add {tables : List (List Code)} {k : Nat} {d : Dhts} (h : DhtInv tables k d) (hk : k < 4)
    {vals lens} (hc : Canon (tables.getD k []) vals lens) : DhtInv tables (k + 1) (d.add k (tables.getD k [])) where
  l1 := by simp [Dhts.add, h.l1]
  l2 := by simp [Dhts.add, h.l2]
  l3 := by simp [Dhts.add, h.l3]
  hl := by
    intro i hi
    simp only [Dhts.add]
    rw [getD_set_lt _ _ _ _ _ (by rw [h.l3]; exact hk)]
    split
    · have h1 := h.hl k hk
      have h2 := canon_length_le hc
      have h3 : dhtVals (tables.getD k []) = vals := dht_vals hc
      rw [List.length_append, List.length_drop, h1, h3]; omega
    · exact h.hl i hi
  done := by
    intro i hi
    simp only [Dhts.add]
    rw [getD_set_lt _ _ _ _ _ (by rw [h.l1]; exact hk), getD_set_lt _ _ _ _ _ (by rw [h.l2]; exact hk),
      getD_set_lt _ _ _ _ _ (by rw [h.l3]; exact hk)]
    by_cases hki : k = i
    · subst hki
      simp only [if_true]
      exact ⟨trivial, trivial, _, rfl⟩
    · simp only [if_neg hki]
      exact h.done i (by omega)
  todo := by
    intro i hi
    simp only [Dhts.add]
    rw [getD_set_lt _ _ _ _ _ (by rw [h.l1]; exact hk), if_neg (by omega)]
    exact h.todo i (by omega)

theorem markerLoop_dht (tables : List (List Code)) (h4 : tables.length ≤ 4)
    (hcan : ∀ c, c < tables.length → ∃ vals lens, Canon (tables.getD c []) vals lens) (s : List Nat) (sof : SofInfo) (f : Nat)
    (m k : Nat) (hk : k + m = tables.length) (d : Dhts) (hd : DhtInv tables k d) :
    ∃ d', DhtInv tables tables.length d' ∧
      markerLoop (m + f) (((tables.drop k).zipIdx k).flatMap (fun p => dhtSegment p.2 p.1) ++ s) sof d =
        markerLoop f s sof d' := by
  induction m generalizing k d with
  | zero =>
    have : k = tables.length := by omega
    subst this
    exact ⟨d, hd, by simp⟩
  | succ m ih =>
    have hlt : k < tables.length := by omega
    obtain ⟨vals, lens, hc⟩ := hcan k hlt
    obtain ⟨d', h1, h2⟩ := ih (k + 1) (by omega) _ (dhtInv_add hd (by omega) hc)
    refine ⟨d', h1, ?_⟩
    rw [← h2]
    have hget : tables[k] = tables.getD k [] := by
      rw [List.getD_eq_getElem?_getD, List.getElem?_eq_getElem hlt]; rfl
    rw [List.drop_eq_getElem_cons hlt, List.zipIdx_cons, List.flatMap_cons, hget,
      show m + 1 + f = (m + f) + 1 by omega, markerLoop]
    have hseg : ∀ s', dhtSegment k (tables.getD k []) ++ s' = 0xff :: 0xc4 ::
        (be16 (2 + (1 + 16) + ((tables.getD k []).filter fun c => c.nbits ≠ 0).length) ++
          ([k % 256] ++ (dhtCounts (tables.getD k []) ++ (dhtVals (tables.getD k []) ++ s')))) := by
      intro s'
      simp only [dhtSegment, dhtCounts, dhtVals, List.append_assoc]
      rfl
    rw [List.append_assoc, hseg, nextMarker_ok _ (by omega) (by omega)]
    simp only [bind, Except.bind]
    rw [if_neg (by omega), if_pos (by trivial), parseDht_ok hc k (by omega)]

/-- What the decoder knows after reading the header. -/
structure DecInv (e : Enc) (tables : List (List Code)) (S : List Nat) (d : Dec) : Prop where
  buffer : d.buffer = S
  width : d.sof.width = e.width
  height : d.sof.height = e.height
  cps : d.sof.cps = e.components
  prec : d.sof.precision = e.bitdepth
  comps : d.sof.components = (List.range e.components).map (fun c => ⟨c, c, 1, 1⟩)
  pred : d.predictor = e.predictor
  pt : d.pt = e.pt
  tabs : ∀ c, c < e.components → ∃ t pad, d.htable c = .ok t ∧ t.dngBug = false ∧
    TableOK (0 :: dhtCounts (tables.getD c [])) (dhtVals (tables.getD c []) ++ pad) t ∧
    CacheOK (0 :: dhtCounts (tables.getD c [])) (dhtVals (tables.getD c []) ++ pad) t

theorem header_ok (e : Enc) (h : e.OK) (tables : List (List Code)) (hl : tables.length = e.components)
    (hcan : ∀ c, c < tables.length → ∃ vals lens, Canon (tables.getD c []) vals lens) (h10 : 10 ≤ e.bitdepth) :
    ∃ hdr, header e tables = .ok hdr ∧ ∀ S, ∃ d, Dec.newFull (hdr ++ S) false false = .ok d ∧ DecInv e tables S d := by
  have hn1 := h.n1
  have hn4 := h.n4
  have hpt := h.pt
  have hbd := h.bd
  have hhm := h.hmax
  have hwm := h.wmax
  have hw1 := h.w1
  have hnm : e.components % 256 = e.components := by omega
  have hpt15 : e.pt &&& 0xf = e.pt := by
    rw [show (0xf : Nat) = 2 ^ 4 - 1 from rfl, Nat.and_two_pow_sub_one_eq_mod]; omega
  refine ⟨_, by rw [header, if_neg (by omega)], ?_⟩
  intro S
  -- the pieces after SOI
  let sosTail := [e.components % 256] ++ (((List.range e.components).flatMap fun c => [c % 256, (c <<< 4) % 256]) ++
    ([e.predictor, 0, e.pt &&& 0xf] ++ S))
  let afterDht := 0xff :: 0xda :: (be16 (6 + e.components * 2) ++ sosTail)
  let afterSof := ((tables.drop 0).zipIdx 0).flatMap (fun p => dhtSegment p.2 p.1) ++ afterDht
  let sofBody := be16 (2 + 6 + e.components * 3) ++ ([e.bitdepth] ++ (be16 e.height ++ (be16 e.width ++
    ([e.components % 256] ++ (((List.range e.components).flatMap fun c => [c % 256, 0x11, 0]) ++ afterSof)))))
  have hsplit : ([0xff, 0xd8, 0xff, 0xc3] ++ be16 (2 + 6 + e.components * 3) ++ [e.bitdepth] ++ be16 e.height ++ be16 e.width ++
    [e.components % 256] ++ ((List.range e.components).flatMap fun c => [c % 256, 0x11, 0]) ++
    (tables.zipIdx.flatMap fun p => dhtSegment p.2 p.1) ++
    [0xff, 0xda] ++ be16 (6 + e.components * 2) ++ [e.components % 256] ++
    ((List.range e.components).flatMap fun c => [c % 256, (c <<< 4) % 256]) ++
    [e.predictor, 0, e.pt &&& 0xf]) ++ S = 0xff :: 0xd8 :: 0xff :: 0xc3 :: sofBody := by
    simp only [sofBody, afterSof, afterDht, sosTail, List.append_assoc, List.drop_zero]
    rfl
  rw [hsplit, Dec.newFull]
  have hfm : firstMarker (0xff :: 0xd8 :: 0xff :: 0xc3 :: sofBody) = .ok (0xd8, 0xff :: 0xc3 :: sofBody) := by
    simp [firstMarker, getU8, bind, Except.bind]
  -- SOF
  let sof1 : SofInfo := ⟨e.width, e.height, e.components, e.bitdepth, (List.range e.components).map (fun c => ⟨c, 0, 1, 1⟩), false⟩
  have hsof : parseSof (SofInfo.empty false) sofBody = .ok (sof1, afterSof) := by
    simp only [parseSof, sofBody, getU16_be16 _ (show 2 + 6 + e.components * 3 < 65536 by omega), bind, Except.bind]
    simp only [List.cons_append, List.nil_append, getU8, getU16_be16 _ (show e.height < 65536 by omega),
      getU16_be16 _ (show e.width < 65536 by omega), hnm]
    rw [if_neg (by omega), if_neg (by omega), if_neg (by omega)]
    simp only [SofInfo.empty, sofComponents_ok _ hn1 hn4]
    rfl
  -- SOS
  let sof2 : SofInfo := ⟨e.width, e.height, e.components, e.bitdepth, (List.range e.components).map (fun c => ⟨c, c, 1, 1⟩), false⟩
  have hsos : parseSos sof1 (be16 (6 + e.components * 2) ++ sosTail) = .ok ((sof2, e.predictor, e.pt), S) := by
    simp only [parseSos, sof1]
    rw [if_neg (by omega), getU16_be16 _ (show 6 + e.components * 2 < 65536 by omega)]
    simp only [sosTail, bind, Except.bind, List.cons_append, List.nil_append, getU8, hnm]
    rw [if_neg (by omega)]
    simp only [sosComponents_ok _ hn1 hn4, hpt15]
    rfl
  -- the fuel
  obtain ⟨f, hf⟩ : ∃ f, (0xff :: 0xc3 :: sofBody : List Nat).length + 1 = (e.components + (f + 1)) + 1 := by
    refine ⟨(0xff :: 0xc3 :: sofBody : List Nat).length - e.components - 1, ?_⟩
    have : 10 ≤ (0xff :: 0xc3 :: sofBody : List Nat).length := by
      simp only [sofBody, be16, List.length_cons, List.length_append]; omega
    omega
  obtain ⟨dh, hinv, hloop⟩ := markerLoop_dht tables (by omega) hcan afterDht sof1 (f + 1) e.components 0 (by omega)
    Dhts.empty (dhtInv_empty tables)
  have hml : markerLoop ((0xff :: 0xc3 :: sofBody : List Nat).length + 1) (0xff :: 0xc3 :: sofBody) (SofInfo.empty false)
      Dhts.empty = .ok ((sof2, e.predictor, e.pt), dh, S) := by
    rw [hf, markerLoop, nextMarker_ok _ (by omega) (by omega)]
    simp only [bind, Except.bind]
    rw [if_pos (by trivial), hsof]
    simp only
    rw [if_neg (by simp only [sof1]; omega)]
    simp only [afterSof]
    rw [hloop, markerLoop]
    simp only [afterDht]
    rw [nextMarker_ok _ (by omega) (by omega)]
    simp only [bind, Except.bind]
    rw [if_neg (by omega), if_neg (by omega), if_pos (by trivial), hsos]
  -- tables
  obtain ⟨ts, e1, l1, q1⟩ := mapM_exists (fun i =>
    if dh.init.getD i false then HuffTable.new (dh.bits.getD i []) (dh.huffval.getD i []) (List.replicate 256 0) false
    else .ok HuffTable.empty) (fun c t => c < e.components → ∃ pad, t.dngBug = false ∧
      TableOK (0 :: dhtCounts (tables.getD c [])) (dhtVals (tables.getD c []) ++ pad) t ∧
      CacheOK (0 :: dhtCounts (tables.getD c [])) (dhtVals (tables.getD c []) ++ pad) t) (List.range 4) (by
      intro c hc
      rw [List.mem_range] at hc
      by_cases hlt : c < e.components
      · obtain ⟨i1, i2, pad, i3⟩ := hinv.done c (by omega)
        obtain ⟨vals, lens, hca⟩ := hcan c (by omega)
        have hv : dhtVals (tables.getD c []) = vals := dht_vals hca
        have hg := goodDht_canon hca pad
        have hlen := hinv.hl c hc
        rw [i3, hv] at hlen
        obtain ⟨t, t1, t2, t3, t4⟩ := HuffTable.new_ok _ _ false hg hlen
        refine ⟨t, ?_, fun _ => ⟨pad, t2, ?_, ?_⟩⟩
        · rw [i1, if_pos (by trivial), i2, i3, hv]; exact t1
        · rw [hv]; exact t3
        · rw [hv]; exact t4
      · have := hinv.todo c (by omega)
        exact ⟨_, by rw [this, if_neg (by simp)], fun h => absurd h hlt⟩)
  rw [List.length_range] at l1
  simp only [hfm, bind, Except.bind]
  rw [if_neg (by omega)]
  simp only [hml, e1]
  rw [if_neg (by
    simp only [sof2]
    intro hnil
    have := congrArg List.length hnil
    simp at this; omega)]
  refine ⟨_, rfl, ?_⟩
  constructor <;> try rfl
  intro c hc
  have hts : c < ts.length := by omega
  obtain ⟨pad, t1, t2, t3⟩ := q1 c c ts[c] (List.getElem?_range (by omega)) (List.getElem?_eq_getElem hts) hc
  refine ⟨ts[c], pad, ?_, t1, t2, t3⟩
  simp only [Dec.htable, sof2]
  rw [idx_lt _ _ (by simpa using hc)]
  simp only [bind, Except.bind, List.getElem_map, List.getElem_range]
  rw [idx_lt _ _ hts]

end Verif.Ljpeg
