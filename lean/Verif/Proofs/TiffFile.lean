import Verif.Spec.TiffFile
import Verif.Proofs.TiffDir
/-! # Reading TIFF files in either byte order -/

namespace Verif.Tiff
open Verif Verif.Spec Verif.Props

theorem bytesOf_length (e : Endian) (n v : Nat) : (bytesOf e n v).length = n := by cases e <;> simp [bytesOf]

theorem numLE_digits (n v : Nat) (h : v < 256 ^ n) : numLE ((List.range n).map fun i => v / 256 ^ i % 256) = v := by
  have : ∀ (n v : Nat), (List.range n).map (fun i => v / 256 ^ i % 256) = le n v := by
    intro n
    induction n with
    | zero => intro v; rfl
    | succ n ih =>
      intro v
      rw [List.range_succ_eq_map, List.map_cons, List.map_map, le, ← ih]
      congr 1
      · simp
      · apply List.map_congr_left
        intro i _
        simp only [Function.comp_apply]
        rw [Nat.succ_eq_add_one, Nat.pow_succ', Nat.div_div_eq_div_mul]
  rw [this, numLE_le, Nat.mod_eq_of_lt h]

theorem num_bytesOf (e : Endian) (n v : Nat) (h : v < 256 ^ n) : num e (bytesOf e n v) = v := by
  cases e with
  | little => exact numLE_digits n v h
  | big =>
    rw [num, bytesOf]
    rw [show ((List.range n).map fun i => v / 256 ^ (n - 1 - i) % 256).reverse = (List.range n).map fun i => v / 256 ^ i % 256 from ?_]
    · exact numLE_digits n v h
    · apply List.ext_getElem
      · simp
      · intro i h1 h2
        simp at h1
        simp only [List.getElem_reverse, List.getElem_map, List.getElem_range, List.length_map, List.length_range]
        rw [show n - 1 - (n - 1 - i) = i by omega]

theorem flatMap_bytesOf_length (e : Endian) (n : Nat) (v : List Nat) : (v.flatMap (bytesOf e n)).length = v.length * n := by
  rw [List.flatMap_def, flatten_length n, List.length_map]
  intro r hr
  obtain ⟨x, _, rfl⟩ := List.mem_map.mp hr
  exact bytesOf_length e n x

theorem groups_bytesOf (e : Endian) (n : Nat) (hn : 0 < n) (v : List Nat) (hv : ∀ x ∈ v, x < 256 ^ n) : groups e n (v.flatMap (bytesOf e n)) = v := by
  have hrow : ∀ r ∈ v.map (bytesOf e n), r.length = n := by
    intro r hr
    obtain ⟨x, _, rfl⟩ := List.mem_map.mp hr
    exact bytesOf_length e n x
  rw [groups, flatMap_bytesOf_length, Nat.mul_div_cancel _ hn]
  apply List.ext_getElem
  · simp
  · intro i h1 h2
    simp only [List.getElem_map, List.getElem_range]
    rw [List.flatMap_def, flatten_chunk n _ hrow i (by simpa using h2), List.getElem_map, num_bytesOf e n _ (hv _ (List.getElem_mem _))]

theorem pair_bytesOf (e : Endian) (v : List (Nat × Nat)) :
    (v.flatMap fun x => bytesOf e 4 x.1 ++ bytesOf e 4 x.2) = (v.flatMap fun x => [x.1, x.2]).flatMap (bytesOf e 4) := by
  induction v with
  | nil => rfl
  | cons x v ih => simp [ih]

theorem elemSize_typeSize (t : Nat) : elemSize t = typeSize t := by
  by_cases h : t < 13
  · have : ∀ t < 13, elemSize t = typeSize t := by decide
    exact this t h
  · rw [elemSize, List.getD_eq_getElem?_getD, List.getElem?_eq_none (by simp; omega), typeSize, if_neg (by omega), if_neg (by omega), if_neg (by omega)]
    rfl

theorem takeWhile_findIdx (l : List Nat) : l.take ((l.findIdx? (· == 0)).getD l.length) = l.takeWhile (· != 0) := by
  induction l with
  | nil => rfl
  | cons a l ih =>
    rw [List.findIdx?_cons, List.takeWhile_cons]
    by_cases h : a = 0
    · simp [h]
    · simp only [bne_iff_ne, ne_eq, h, not_false_eq_true, if_true, beq_iff_eq, if_false]
      cases hf : l.findIdx? (· == 0) with
      | none => rw [hf] at ih; simp at ih ⊢; exact ih
      | some k => rw [hf] at ih; simp at ih ⊢; exact ih

theorem encode_decode (utf8 : List Nat → Bool) (e : Endian) (v : Value) (ht : Readable utf8 v) :
    (encode e v).length = elements v * elemSize v.type ∧ v.type < 2 ^ 16 ∧ decodeValue utf8 e v.type (encode e v) = v := by
  have pairs : ∀ v : List (Nat × Nat), (∀ x ∈ v, x.1 < 2 ^ 32 ∧ x.2 < 2 ^ 32) →
      (v.flatMap fun x => bytesOf e 4 x.1 ++ bytesOf e 4 x.2).length = v.length * 8 ∧
      pairUp (groups e 4 (v.flatMap fun x => bytesOf e 4 x.1 ++ bytesOf e 4 x.2)) = v := by
    intro v ht
    have hv : ∀ x ∈ (v.flatMap fun x => [x.1, x.2]), x < 256 ^ 4 := by
      intro x hx
      simp only [List.mem_flatMap, List.mem_cons, List.not_mem_nil, or_false] at hx
      obtain ⟨p, hp, rfl | rfl⟩ := hx
      · exact (ht p hp).1
      · exact (ht p hp).2
    rw [pair_bytesOf]
    exact ⟨by rw [flatMap_bytesOf_length, pairs_length]; omega, by rw [groups_bytesOf e 4 (by decide) _ hv, pairUp_flatten]⟩
  cases v with
  | byte v => exact ⟨by simp [encode, elements, Value.count, elemSize, Value.type], by rw [Value.type]; decide, rfl⟩
  | sbyte v => exact ⟨by simp [encode, elements, Value.count, elemSize, Value.type], by rw [Value.type]; decide, rfl⟩
  | undefined v => exact ⟨by simp [encode, elements, Value.count, elemSize, Value.type], by rw [Value.type]; decide, rfl⟩
  | unknown t v =>
    have := ht.1
    refine ⟨?_, ht.2.1, ?_⟩
    · rw [elemSize_typeSize, Value.type, typeSize, if_neg (by omega), if_neg (by omega), if_neg (by omega)]
      simp [encode, elements, Value.count]
    · rw [Value.type, decodeValue, if_neg (by omega), if_neg (by omega), if_neg (by omega), if_neg (by omega), if_neg (by omega), if_neg (by omega),
        if_neg (by omega), if_neg (by omega), if_neg (by omega), if_neg (by omega), if_neg (by omega), if_neg (by omega)]
      rfl
  | short v =>
    exact ⟨flatMap_bytesOf_length e 2 v, by rw [Value.type]; decide, by rw [Value.type, decodeValue, encode]; simp [groups_bytesOf e 2 (by decide) v ht]⟩
  | sshort v =>
    exact ⟨flatMap_bytesOf_length e 2 v, by rw [Value.type]; decide, by rw [Value.type, decodeValue, encode]; simp [groups_bytesOf e 2 (by decide) v ht]⟩
  | long v =>
    exact ⟨flatMap_bytesOf_length e 4 v, by rw [Value.type]; decide, by rw [Value.type, decodeValue, encode]; simp [groups_bytesOf e 4 (by decide) v ht]⟩
  | slong v =>
    exact ⟨flatMap_bytesOf_length e 4 v, by rw [Value.type]; decide, by rw [Value.type, decodeValue, encode]; simp [groups_bytesOf e 4 (by decide) v ht]⟩
  | float v =>
    exact ⟨flatMap_bytesOf_length e 4 v, by rw [Value.type]; decide, by rw [Value.type, decodeValue, encode]; simp [groups_bytesOf e 4 (by decide) v ht]⟩
  | double v =>
    exact ⟨flatMap_bytesOf_length e 8 v, by rw [Value.type]; decide, by rw [Value.type, decodeValue, encode]; simp [groups_bytesOf e 8 (by decide) v ht]⟩
  | rational v =>
    obtain ⟨h1, h2⟩ := pairs v ht
    exact ⟨h1, by rw [Value.type]; decide, by rw [Value.type, decodeValue, encode, h2]; simp⟩
  | srational v =>
    obtain ⟨h1, h2⟩ := pairs v ht
    exact ⟨h1, by rw [Value.type]; decide, by rw [Value.type, decodeValue, encode, h2]; simp⟩
  | ascii a =>
    refine ⟨by simp [encode, elements, elemSize, Value.type], by rw [Value.type]; decide, ?_⟩
    obtain ⟨strings, plain⟩ := a
    obtain ⟨_, h⟩ := ht
    simp only [] at h
    rw [Value.type, decodeValue, if_neg (by decide), if_pos rfl, encode, Ascii.fromRaw, takeWhile_findIdx, h]
    rfl

variable {utf8 : List Nat → Bool} {F : List Nat} {e : Endian} {base : Nat} {corr : Int}

theorem parse_entry {p : Nat} {x : Nat × Value × Nat} (hF : F.length < 2 ^ 32) (h : EntryAt utf8 F e base corr p x) :
    parseEntry utf8 F e base corr (p + 2) = .ok x.2.1 x.2.2 := by
  obtain ⟨tag, v, loc⟩ := x
  obtain ⟨_, hr, hc, hlen, hat, hdata, hif⟩ := h
  simp only [] at *
  obtain ⟨d1, d2, d3⟩ := encode_decode utf8 e v hr
  have a1 : At F (p + 2) (bytesOf e 2 v.type) := by
    have := At.right (At.left hat); rwa [bytesOf_length] at this
  have a2 : At F (p + 2 + 2) (bytesOf e 4 (elements v)) := by
    have := At.right hat; rw [List.length_append, bytesOf_length, bytesOf_length] at this; rwa [Nat.add_assoc]
  have n1 : num e (bytesOf e 2 v.type) = v.type := num_bytesOf e 2 _ (by simpa using d2)
  have n2 : num e (bytesOf e 4 (elements v)) = elements v := num_bytesOf e 4 _ (by simpa using hc)
  have hd := hdata.1
  have hlo : base + loc < 2 ^ 32 - 1 := by
    by_cases hs : (encode e v).length ≤ 4
    · rw [if_pos hs] at hif; omega
    · omega
  have key : ∀ posNow, parseAt utf8 F e base v.type (elements v) loc posNow ((p + 2) % 2 ^ 32 - 2) = .ok v loc := by
    intro posNow
    rw [parseAt, if_neg (by omega), At.rd hdata d1.symm]
    simp only []
    rw [if_pos (by omega), d3]
  rw [parseEntry, if_neg (by omega), At.rd a1 (bytesOf_length _ _ _).symm]
  simp only []
  rw [At.rd a2 (bytesOf_length _ _ _).symm]
  simp only []
  rw [n1, n2, parseOffset, ← d1]
  by_cases hs : (encode e v).length ≤ 4
  · rw [if_pos hs] at hif
    rw [if_pos hs, if_pos (by omega), show (p + 2 + 6) % 2 ^ 32 - base = loc by omega]
    exact key _
  · rw [if_neg hs] at hif
    obtain ⟨o, ho, hao, hl⟩ := hif
    rw [if_neg hs, show p + 2 + 6 = p + 8 by omega, At.rd hao (bytesOf_length _ _ _).symm]
    simp only []
    rw [num_bytesOf e 4 _ (by simpa using ho), show applyCorr o corr = loc from hl.symm]
    exact key _

theorem parse_broken {p : Nat} (hF : F.length < 2 ^ 32) (h : BrokenAt F e base corr p) :
    parseEntry utf8 F e base corr (p + 2) = .err F.length := by
  obtain ⟨tag, typ, count, o, _, ht, hc, ho, hat, hsz, hb, hout⟩ := h
  have hd := hat.1
  simp only [List.length_append, bytesOf_length] at hd
  have a1 : At F (p + 2) (bytesOf e 2 typ) := by
    have := At.right (At.left (At.left hat)); rwa [bytesOf_length] at this
  have a2 : At F (p + 2 + 2) (bytesOf e 4 count) := by
    have := At.right (At.left hat); rw [List.length_append, bytesOf_length, bytesOf_length] at this; rwa [Nat.add_assoc]
  have a3 : At F (p + 8) (bytesOf e 4 o) := by
    have := At.right hat; rw [List.length_append, List.length_append, bytesOf_length, bytesOf_length, bytesOf_length] at this; exact this
  rw [parseEntry, if_neg (by omega), At.rd a1 (bytesOf_length _ _ _).symm]
  simp only []
  rw [At.rd a2 (bytesOf_length _ _ _).symm]
  simp only []
  rw [num_bytesOf e 2 _ (by simpa using ht), num_bytesOf e 4 _ (by simpa using hc), parseOffset, elemSize_typeSize, if_neg (by omega),
    show p + 2 + 6 = p + 8 by omega, At.rd a3 (bytesOf_length _ _ _).symm]
  simp only []
  rw [num_bytesOf e 4 _ (by simpa using ho), show applyCorr o corr = shifted o corr from rfl, parseAt, if_neg (by omega), elemSize_typeSize, rd,
    if_neg (by omega)]

/-- The offsets of sub-directories that the entries list -/
def subsOf (subTags : List Nat) (es : List (Nat × Value × Nat)) : List (Nat × List Nat) :=
  (es.filter fun x => x.1 ∈ subTags).map fun x => (x.1, match x.2.1 with | .long os => os | _ => [])

theorem file_loop (subTags : List Nat) (hF : F.length < 2 ^ 32) (es : List (Option (Nat × Value × Nat))) (p : Nat) (s : LoopState)
    (hroom : p + 12 * es.length + 4 ≤ F.length)
    (hok : ∀ i x, es[i]? = some (some x) → EntryAt utf8 F e base corr (p + 12 * i) x)
    (hbr : ∀ i, es[i]? = some none → BrokenAt F e base corr (p + 12 * i))
    (hasc : Ascending (kept s.errors es)) (hk : s.errors < 5)
    (hlt : ∀ y ∈ s.entries, ∀ x ∈ kept s.errors es, y.1 < x.1)
    (hlt' : ∀ y ∈ s.subs, ∀ x ∈ kept s.errors es, y.1 < x.1)
    (hsub : ∀ x ∈ kept s.errors es, x.1 ∈ subTags → ∃ os, x.2.1 = .long os)
    (hpos : s.pos = if s.errors = 0 then p else F.length) :
    ∃ s', entryLoop utf8 F e base corr subTags es.length p s = .ok s' ∧ s'.entries = s.entries ++ kept s.errors es ∧
      s'.subs = s.subs ++ subsOf subTags (kept s.errors es) ∧
      s'.pos = if endsBroken s.errors es then F.length else p + 12 * es.length := by
  induction es generalizing p s with
  | nil =>
    refine ⟨s, rfl, by simp [kept], by simp [kept, subsOf], ?_⟩
    rw [hpos]
    by_cases h : s.errors = 0 <;> simp [endsBroken, h]
  | cons x es ih =>
    rw [List.length_cons] at hroom ⊢
    have hok' : ∀ i y, es[i]? = some (some y) → EntryAt utf8 F e base corr (p + 12 + 12 * i) y := by
      intro i y hy
      have := hok (i + 1) y (by rwa [List.getElem?_cons_succ])
      rwa [show p + 12 * (i + 1) = p + 12 + 12 * i by omega] at this
    have hbr' : ∀ i, es[i]? = some none → BrokenAt F e base corr (p + 12 + 12 * i) := by
      intro i hy
      have := hbr (i + 1) (by rwa [List.getElem?_cons_succ])
      rwa [show p + 12 * (i + 1) = p + 12 + 12 * i by omega] at this
    cases x with
    | none =>
      have hb := hbr 0 rfl
      rw [Nat.mul_zero, Nat.add_zero] at hb
      have hp := parse_broken (utf8 := utf8) hF hb
      obtain ⟨tag, _, _, _, _, _, _, _, hat, _⟩ := hb
      have hat1 := At.left (At.left (At.left hat))
      rw [entryLoop, if_neg (by omega), At.rd hat1 (bytesOf_length _ _ _).symm]
      simp only []
      rw [hp]
      simp only []
      by_cases h4 : s.errors = 4
      · rw [if_pos (by omega)]
        refine ⟨_, rfl, ?_, ?_, ?_⟩
        · simp [kept, h4]
        · simp [kept, h4, subsOf]
        · simp [endsBroken, h4]
      · rw [if_neg (by omega)]
        rw [kept, if_neg h4] at hasc hlt hlt' hsub ⊢
        rw [endsBroken, if_neg h4]
        obtain ⟨s', h1, h2, h3, h4'⟩ := ih (p + 12) { s with errors := s.errors + 1, pos := F.length } (by omega) hok' hbr' hasc (by simp only []; omega) hlt hlt' hsub
          (by simp)
        refine ⟨s', h1, h2, h3, ?_⟩
        rw [h4', show p + 12 + 12 * es.length = p + 12 * (es.length + 1) by omega]
    | some x =>
      have hx := hok 0 x rfl
      rw [Nat.mul_zero, Nat.add_zero] at hx
      have hp := parse_entry hF hx
      obtain ⟨htag, _, _, _, hat, _⟩ := hx
      have hat1 := At.left (At.left hat)
      rw [kept] at hasc hlt hlt' hsub ⊢
      obtain ⟨hasc1, hasc2⟩ := List.pairwise_cons.mp hasc
      have hins : insertTag x.1 (x.2.1, x.2.2) s.entries = s.entries ++ [x] :=
        insertTag_last _ _ _ fun y hy => hlt y hy x List.mem_cons_self
      obtain ⟨sn, hsn, hsnv⟩ : ∃ sn, subOffsets subTags x.1 x.2.1 x.2.2 s.subs = .ok sn ∧ sn = s.subs ++ subsOf subTags [x] := by
        unfold subOffsets
        by_cases hm : x.1 ∈ subTags
        · obtain ⟨os, hos⟩ := hsub x List.mem_cons_self hm
          rw [if_pos hm, hos]
          refine ⟨_, rfl, ?_⟩
          rw [insertTag_last _ _ _ fun y hy => hlt' y hy x List.mem_cons_self]
          simp [subsOf, hm, hos]
        · rw [if_neg hm]
          exact ⟨_, rfl, by simp [subsOf, hm]⟩
      obtain ⟨s', h1, h2, h3, h4⟩ := ih (p + 12) { entries := s.entries ++ [x], subs := sn, errors := 0, pos := p + 12 } (by omega) hok' hbr' hasc2 (by simp)
        (by
          intro y hy z hz
          rcases List.mem_append.mp hy with hy | hy
          · exact hlt y hy z (List.mem_cons_of_mem _ hz)
          · rw [List.mem_singleton] at hy; subst hy; exact hasc1 z hz)
        (by
          intro y hy z hz
          simp only [] at hy
          rw [hsnv] at hy
          rcases List.mem_append.mp hy with hy | hy
          · exact hlt' y hy z (List.mem_cons_of_mem _ hz)
          · by_cases hm : x.1 ∈ subTags
            · simp [subsOf, hm] at hy; subst hy; exact hasc1 z hz
            · simp [subsOf, hm] at hy)
        (fun z hz => hsub z (List.mem_cons_of_mem _ hz)) (by simp)
      refine ⟨s', ?_, ?_, ?_, ?_⟩
      · rw [entryLoop, if_neg (by omega), At.rd hat1 (bytesOf_length _ _ _).symm]
        simp only []
        rw [hp]
        simp only []
        rw [num_bytesOf e 2 _ (by simpa using htag), hsn]
        simp only [bind, Except.bind]
        rw [hins]
        exact h1
      · rw [h2]; simp
      · rw [h3, hsnv, List.append_assoc]
        congr 1
        simp only [subsOf, List.filter_cons, List.filter_nil]
        by_cases hm : x.1 ∈ subTags <;> simp [hm]
      · rw [h4, endsBroken, show p + 12 + 12 * es.length = p + 12 * (es.length + 1) by omega]

theorem file_dir (subTags : List Nat) (hF : F.length < 2 ^ 32) (d : FileDir) (h : DirAt utf8 F e base corr d)
    (hsub : ∀ x ∈ kept 0 d.entries, x.1 ∈ subTags → ∃ os, x.2.1 = .long os) :
    readDir utf8 F e base corr subTags d.off = .ok (d.dir corr, subsOf subTags (kept 0 d.entries)) := by
  obtain ⟨hn, hnx, hc, hok, hbr, hnp, hasc⟩ := h
  have b1 := hnp.1
  rw [bytesOf_length] at b1
  obtain ⟨s', h1, h2, h3, h4⟩ := file_loop subTags hF d.entries (base + d.off + 2) { pos := base + d.off + 2 } (by omega) hok hbr hasc (by simp) (by simp) (by simp)
    hsub (by simp)
  rw [readDir, if_neg (by omega), At.rd hc (bytesOf_length _ _ _).symm]
  simp only []
  rw [num_bytesOf e 2 _ (by simp; omega), maxEntries, Nat.min_eq_left hn, Nat.mod_eq_of_lt (by omega), h1]
  simp only [bind, Except.bind]
  rw [h2, h3, h4]
  simp only [List.nil_append]
  rw [FileDir.dir]
  congr 3
  rw [nextPointer]
  cases hb : endsBroken 0 d.entries with
  | true =>
    simp only [if_true, or_true]
    rw [rd, if_neg (by omega)]
  | false =>
    simp only [Bool.false_eq_true, if_false, or_false]
    rw [At.rd hnp (bytesOf_length _ _ _).symm]
    simp only []
    rw [num_bytesOf e 4 _ (by simpa using hnx)]
    rfl

theorem file_subs (hF : F.length < 2 ^ 32) (os : List Nat) (subs : List (Option FileDir)) (h : List.Forall₂ (SubAt utf8 F e base corr) os subs) :
    readSubs utf8 F e base corr os = .ok ((subs.filterMap id).map fun d => d.dir corr) := by
  induction h with
  | nil => rfl
  | @cons o d os ds h1 _ ih =>
    rw [readSubs]
    cases d with
    | none =>
      obtain ⟨ha, hb⟩ := h1
      rw [readDir, show applyCorr o corr = shifted o corr from rfl, if_neg (by omega), rd, if_neg (by omega)]
      rw [ih]
      rfl
    | some d =>
      obtain ⟨ha, hb⟩ := h1
      rw [show applyCorr o corr = d.off from ha.symm, file_dir [] hF d hb (by simp)]
      simp only []
      rw [ih]
      rfl

theorem file_ifd (subTags : List Nat) (hF : F.length < 2 ^ 32) (d : FileIfd) (h : IfdAt utf8 F e base corr subTags d) :
    readIfd utf8 F e base corr subTags d.main.off = .ok (d.ifd corr) := by
  obtain ⟨h1, h2⟩ := h
  have hsub : ∀ x ∈ kept 0 d.main.entries, x.1 ∈ subTags → ∃ os, x.2.1 = .long os := by
    intro x hx hm
    have hxm : x ∈ (kept 0 d.main.entries).filter fun x => x.1 ∈ subTags := by simp [hx, hm]
    obtain ⟨i, hi, hie⟩ := List.getElem_of_mem hxm
    obtain ⟨hl, hg⟩ := List.forall₂_iff_get.mp h2
    have := (hg i hi (by omega)).2
    obtain ⟨os, ho, _⟩ := this
    rw [List.get_eq_getElem, hie] at ho
    exact ⟨os, ho⟩
  have hm : (subsOf subTags (kept 0 d.main.entries)).mapM (fun ((t, os) : Nat × List Nat) => do
        let ds ← readSubs utf8 F e base corr os
        (.ok (t, ds) : R (Nat × List Dir))) =
      .ok (d.subs.map fun s => (s.1, (s.2.filterMap id).map fun x => x.dir corr)) := by
    rw [subsOf]
    generalize (kept 0 d.main.entries).filter (fun x => x.1 ∈ subTags) = l at h2
    generalize d.subs = m at h2
    induction h2 with
    | nil => rfl
    | @cons x s l m hx _ ih =>
      obtain ⟨e1, os, e2, e3⟩ := hx
      rw [List.map_cons, List.mapM_cons, e2]
      simp only []
      rw [file_subs hF os s.2 e3, ih, e1]
      rfl
  rw [readIfd, file_dir subTags hF d.main h1 hsub]
  show Except.bind _ _ = _
  dsimp only [Except.bind]
  rw [hm]
  rfl

theorem file_chain (subTags : List Nat) (hF : F.length < 2 ^ 32) (max : Option Nat) (ds : List FileIfd) (p fuel : Nat)
    (chain : List (Dir × List (Nat × List Dir))) (h : ChainAt utf8 F e corr subTags p ds) (hmax : ∀ m, max = some m → chain.length + ds.length ≤ m)
    (hfuel : ds.length ≤ fuel) :
    chainLoop (readIfd utf8 F e 0 corr subTags) max fuel p chain = some (.ok (chain ++ ds.map fun d => d.ifd corr)) := by
  induction ds generalizing p fuel chain with
  | nil =>
    rw [show p = 0 from h]
    cases fuel <;> simp [chainLoop]
  | cons d ds ih =>
    obtain ⟨hp, hoff, hifd, hne, hch⟩ := h
    rw [List.length_cons] at hfuel hmax
    obtain ⟨fuel, rfl⟩ : ∃ k, fuel = k + 1 := ⟨fuel - 1, by omega⟩
    rw [chainLoop.eq_3 _ _ _ _ _ hp, ← hoff, file_ifd subTags hF d hifd]
    simp only []
    rw [if_neg (by simpa [FileIfd.ifd, FileDir.dir] using hne)]
    have key := ih (d.ifd corr).1.next fuel (chain ++ [d.ifd corr]) hch (by intro m hm; have := hmax m hm; simp; omega) (by omega)
    cases max with
    | none => simp only []; rw [key]; simp
    | some m =>
      simp only []
      rw [if_neg (by have := hmax m rfl; omega), key]; simp

end Verif.Tiff
