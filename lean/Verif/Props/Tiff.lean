import Verif.Proofs.TiffWriter
/-! # C18, C19, C20: what is written into a TIFF file is read from it -/

namespace Verif.Props
open Verif Verif.Tiff Verif.Spec

/-- What the operation `o` must have left in the finished file `F`, when it returned the offset `r.1` and occupies the blocks `r.2`:
a data block is found at the offset; a directory read at the offset is the map its history denotes, and the blocks are those of the values that
do not fit into their entry, then the directory itself. -/
def Found (utf8 : List Nat → Bool) (F : List Nat) (o : WOp) (r : Nat × List (Nat × Nat)) : Prop :=
  match o with
  | .data b => At F r.1 b ∧ r.2 = [(r.1, b.length)]
  | .dir h => ∀ subTags, ∃ d subs, readDir utf8 F .little 0 0 subTags r.1 = .ok (d, subs) ∧ IsMap d (mapOf h) ∧
      r.2 = outside d.entries ++ [(r.1, 6 + 12 * d.entries.length)]

theorem session_spec (utf8 : List Nat → Bool) (ops : List WOp) (root : List DirOp) (hops : ∀ o ∈ ops, Writable utf8 o)
    (hroot : WritableDir utf8 root) :
    ∃ F offs, session ops root = .ok (F, offs) ∧ (F.length < 2 ^ 32 →
      ∃ lay off bl, offs = lay.map (·.1) ∧ List.Forall₂ (Found utf8 F) ops lay ∧ Found utf8 F (.dir root) (off, bl) ∧
        Laid 8 (lay.flatMap (·.2) ++ bl) F.length ∧
        (∀ max fuel, ∃ d, parseFile utf8 F 0 max [] (fuel + 1) = some (.ok [(d, [])]) ∧ d.offset = off ∧ IsMap d (mapOf root))) := by
  obtain ⟨c0, hd0⟩ := new_clean
  obtain ⟨t1, offs, h1, h2, h3, h4⟩ := runAll_ok utf8 ops hops c0
  obtain ⟨t2, off, g1, g2, g3, g4⟩ := buildDir_ok utf8 root hroot h2
  have hkeep : Keeps t2.file.data (({ t2.file with pos := t2.ifdLocation } : File).put (le 4 off)).data := by
    rw [g2.loc]
    exact ⟨(patch_drop _ _ (le_length 4 off) g2.hdr 8 (Nat.le_refl _)).1, fun o ho => (patch_drop _ _ (le_length 4 off) g2.hdr o ho).2⟩
  have hhead : At (({ t2.file with pos := t2.ifdLocation } : File).put (le 4 off)).data 0 ([0x49, 0x49, 42, 0] ++ le 4 off) := by
    rw [g2.loc]
    apply patch_head _ _ (le_length 4 off) g2.hdr
    obtain ⟨r, hr⟩ := h3.trans g3
    rw [← hr, hd0]; rfl
  generalize hFdef : (({ t2.file with pos := t2.ifdLocation } : File).put (le 4 off)).data = F at hkeep hhead
  refine ⟨F, offs, ?_, ?_⟩
  · rw [session, h1]
    simp only [bind, Except.bind]
    rw [Writer.build, g1]
    simp only [bind, Except.bind]
    rw [hFdef]
  · intro hF
    have hlt2 : t2.file.data.length < 2 ^ 32 := by rw [← hkeep.1]; exact hF
    obtain ⟨lay, a1, a2, a3⟩ := h4 (Nat.lt_of_le_of_lt g3.length_le hlt2)
    obtain ⟨bl, b1, b2⟩ := g4 hlt2
    have hrd := DirAt.keep hkeep b1
    have hfroot : Found utf8 F (.dir root) (off, bl) := by
      intro subTags
      obtain ⟨d, subs, r1, _, r3, _, r5, _⟩ := DirAt.read utf8 hF hroot hrd subTags
      exact ⟨d, subs, r1, r3, r5⟩
    refine ⟨lay, off, bl, a1, ?_, hfroot, ?_, ?_⟩
    · refine List.Forall₂.imp (fun o r h => h) ?_
      have hall : List.Forall₂ (OpAt F) ops lay := a2.imp fun o r h => OpAt.keep hkeep (OpAt.mono h g3)
      clear a1 a2 a3 h1 h4
      induction hall with
      | nil => exact List.Forall₂.nil
      | @cons o r ops lay h hs ih =>
        refine List.Forall₂.cons ?_ (ih fun x hx => hops x (List.mem_cons_of_mem _ hx))
        have hw := hops o List.mem_cons_self
        cases o with
        | data b => exact ⟨h.2.1, h.2.2⟩
        | dir hist =>
          intro subTags
          obtain ⟨d, subs, r1, _, r3, _, r5, _⟩ := DirAt.read utf8 hF hw h subTags
          exact ⟨d, subs, r1, r3, r5⟩
    · rw [hkeep.1]
      rw [hd0] at a3
      exact Laid.append a3 b2
    · intro max fuel
      obtain ⟨d, subs, r1, r2, r3, r4, _, r6⟩ := DirAt.read utf8 hF hroot hrd []
      refine ⟨d, ?_, r2, r3⟩
      have hoff8 : 8 ≤ off := by obtain ⟨_, _, h, _⟩ := hrd; exact h
      have hofflt : off < 2 ^ 32 := by
        obtain ⟨es, _, _, h, _⟩ := hrd
        have := h.1; omega
      have hm : At F 0 [0x49, 0x49] := by
        have := At.left hhead; exact At.left (a := [0x49, 0x49]) (b := [42, 0]) this
      have h42 : At F 2 [42, 0] := by
        have := At.left hhead; exact At.right (a := [0x49, 0x49]) (b := [42, 0]) this
      have hp : At F 4 (le 4 off) := At.right hhead
      have hn : num .little (le 4 off) = off := num_le 4 off hofflt
      have hcorr : applyCorr off 0 = off := by rw [applyCorr]; omega
      have hifd : readIfd utf8 F .little 0 0 [] off = .ok (d, []) := by
        rw [readIfd, r1, r6 rfl]; rfl
      rw [parseFile, At.rd (n := 2) hm rfl]
      simp only []
      rw [parseFile.go, At.rd (n := 2) h42 rfl, At.rd hp (le_length _ _).symm]
      simp only []
      rw [if_neg (by decide), hn, if_neg (by omega), hcorr]
      have hloop : chainLoop (readIfd utf8 F .little 0 0 []) max (fuel + 1) off [] = some (.ok [(d, [])]) := by
        have hne : off ≠ 0 := by omega
        obtain ⟨n, rfl⟩ := Nat.exists_eq_succ_of_ne_zero hne
        rw [chainLoop, hifd]
        simp only [r4, if_false]
        rw [r3.1]
        cases max with
        | none => simp only []; cases fuel <;> rfl
        | some m =>
          simp only []
          split
          · rfl
          · cases fuel <;> rfl
        exact fun h => by omega
      rw [hloop]

/-- C20. For every sequence of data blocks and directories written before the file is finished with a root directory: the writer succeeds, and
in the finished file each returned offset points at the bytes of its block; all blocks, whether data, values outside their entry or directories,
lie behind the header, one behind the other in the order of writing without overlap, each on a multiple of four. -/
theorem C20_blocks_partial (utf8 : List Nat → Bool) (ops : List WOp) (root : List DirOp) (hops : ∀ o ∈ ops, Writable utf8 o)
    (hroot : WritableDir utf8 root) :
    ∃ F offs, session ops root = .ok (F, offs) ∧ (F.length < 2 ^ 32 →
      ∃ lay off bl, offs = lay.map (·.1) ∧ List.Forall₂ (Found utf8 F) ops lay ∧ Found utf8 F (.dir root) (off, bl) ∧
        Laid 8 (lay.flatMap (·.2) ++ bl) F.length) := by
  obtain ⟨F, offs, h1, h2⟩ := session_spec utf8 ops root hops hroot
  refine ⟨F, offs, h1, fun hF => ?_⟩
  obtain ⟨lay, off, bl, a, b, c, d, _⟩ := h2 hF
  exact ⟨lay, off, bl, a, b, c, d⟩

/-- C20, read for a single data block: whatever is written before and after it, its offset points at its bytes. -/
theorem C20_data_kept_partial (utf8 : List Nat → Bool) (before after : List WOp) (b : List Nat) (root : List DirOp)
    (h1 : ∀ o ∈ before, Writable utf8 o) (h2 : ∀ o ∈ after, Writable utf8 o) (hroot : WritableDir utf8 root) :
    ∃ F offs, session (before ++ WOp.data b :: after) root = .ok (F, offs) ∧
      (F.length < 2 ^ 32 → ∃ off, offs[before.length]? = some off ∧ At F off b ∧ 8 ≤ off ∧ off % 4 = 0) := by
  obtain ⟨F, offs, hs, hall⟩ := session_spec utf8 (before ++ WOp.data b :: after) root
    (by intro o ho; rcases List.mem_append.mp ho with h | h
        · exact h1 o h
        · rcases List.mem_cons.mp h with rfl | h
          · trivial
          · exact h2 o h) hroot
  refine ⟨F, offs, hs, fun hF => ?_⟩
  obtain ⟨lay, off, bl, a, hf, _, hl, _⟩ := hall hF
  obtain ⟨hlen, hget⟩ := List.forall₂_iff_get.mp hf
  have hi : before.length < lay.length := by rw [← hlen]; simp
  have := hget before.length (by simp) hi
  simp only [List.get_eq_getElem] at this
  rw [List.getElem_append_right (Nat.le_refl _)] at this
  simp only [Nat.sub_self, List.getElem_cons_zero] at this
  refine ⟨lay[before.length].1, ?_, this.1, ?_⟩
  · rw [a, List.getElem?_map, List.getElem?_eq_getElem hi]; rfl
  · have key : ∀ (l : List (Nat × Nat)) (lo hi : Nat), Laid lo l hi → ∀ x ∈ l, lo ≤ x.1 ∧ x.1 % 4 = 0 := by
      intro l
      induction l with
      | nil => intro lo hi _ x hx; simp at hx
      | cons y l ih =>
        intro lo hi h x hx
        rcases List.mem_cons.mp hx with rfl | hx
        · exact ⟨h.1, h.2.1⟩
        · have := ih _ _ h.2.2 x hx
          exact ⟨by have := h.1; omega, this.2⟩
    refine key _ _ _ hl (lay[before.length].1, b.length) (List.mem_append_left _ (List.mem_flatMap.mpr ⟨lay[before.length], List.getElem_mem hi, ?_⟩))
    rw [this.2]; exact List.mem_singleton_self _

/-- C19. Whatever calls built the root directory, the finished file is read as a chain of exactly that directory: its tags ascending, without
duplicates, with the last added value each, and none of those removed. Directories written before the root are read the same way. -/
theorem C19_directory_partial (utf8 : List Nat → Bool) (ops : List WOp) (root : List DirOp) (hops : ∀ o ∈ ops, Writable utf8 o)
    (hroot : WritableDir utf8 root) :
    ∃ F offs, session ops root = .ok (F, offs) ∧ (F.length < 2 ^ 32 →
      (∀ max fuel, ∃ d, parseFile utf8 F 0 max [] (fuel + 1) = some (.ok [(d, [])]) ∧ IsMap d (mapOf root)) ∧
      (∀ (i : Nat) (hist : List DirOp), ops[i]? = some (.dir hist) → ∃ off d subs, offs[i]? = some off ∧
        readDir utf8 F .little 0 0 [] off = .ok (d, subs) ∧ IsMap d (mapOf hist))) := by
  obtain ⟨F, offs, h1, h2⟩ := session_spec utf8 ops root hops hroot
  refine ⟨F, offs, h1, fun hF => ?_⟩
  obtain ⟨lay, off, bl, a, hf, _, _, e⟩ := h2 hF
  refine ⟨fun max fuel => ?_, fun i hist hi => ?_⟩
  · obtain ⟨d, p, _, q⟩ := e max fuel
    exact ⟨d, p, q⟩
  · obtain ⟨hlt, hio⟩ := List.getElem?_eq_some_iff.mp hi
    obtain ⟨hlen, hget⟩ := List.forall₂_iff_get.mp hf
    have hil : i < lay.length := by omega
    have := hget i hlt hil
    simp only [List.get_eq_getElem, hio] at this
    obtain ⟨d, subs, p, q, _⟩ := this []
    exact ⟨_, d, subs, by rw [a, List.getElem?_map, List.getElem?_eq_getElem hil]; rfl, p, q⟩

/-- C18. A value of any type and length, written as a tag and read back, has its type and content. -/
theorem C18_value_partial (utf8 : List Nat → Bool) (tag : Nat) (v : Value) (htag : tag < 2 ^ 16) (ht : Typed utf8 v) (hs : Storable v)
    (hc : v.count < 2 ^ 32) :
    ∃ F, session [] [.add tag v] = .ok (F, []) ∧ (F.length < 2 ^ 32 → ∀ max fuel, ∃ d v' e,
      parseFile utf8 F 0 max [] (fuel + 1) = some (.ok [(d, [])]) ∧ d.entries = [(tag, v', e)] ∧ content v' = content v) := by
  obtain ⟨F, offs, h1, h2⟩ := session_spec utf8 [] [.add tag v] (by simp)
    ⟨by simp [entriesOf, applyDirOp, insertTag], by simp [entriesOf, applyDirOp, insertTag], by
      intro e he
      simp [entriesOf, applyDirOp, insertTag] at he
      subst he; exact ⟨htag, ht, hs, hc⟩⟩
  have h0 : offs = [] := by
    have : session [] [.add tag v] = .ok (F, offs) := h1
    simp only [session, runAll, bind, Except.bind] at this
    split at this
    · simp at this
    · simp at this; exact this.2
  subst h0
  refine ⟨F, h1, fun hF max fuel => ?_⟩
  obtain ⟨lay, off, bl, _, _, _, _, e⟩ := h2 hF
  obtain ⟨d, p, _, _, q2, q3⟩ := e max fuel
  have hm : ∀ t, mapOf [.add tag v] t = if t = tag then some v else none := fun t => rfl
  have hall : ∀ x ∈ d.entries, x.1 = tag := by
    intro x hx
    have := q3 x.1
    rw [hm] at this
    by_contra hne
    rw [if_neg hne] at this
    have hf : find d.entries x.1 = none := by simpa using this
    have := (any_find d.entries x.1).mp (by simp only [List.any_eq_true]; exact ⟨x, hx, by simp⟩)
    exact this hf
  have hsome := q3 tag
  rw [hm, if_pos rfl] at hsome
  match hd : d.entries, hall, hsome, q2 with
  | [], _, hsome, _ => simp [find_nil] at hsome
  | [x], hall, hsome, _ =>
    have hx : x.1 = tag := hall x List.mem_cons_self
    obtain ⟨t, v', em⟩ := x
    simp only at hx
    subst hx
    rw [find_cons] at hsome
    simp at hsome
    exact ⟨d, v', em, p, hd, hsome⟩
  | x :: y :: r, hall, _, q2 =>
    have h1 := (List.pairwise_cons.mp q2).1 y List.mem_cons_self
    have h2 := hall x List.mem_cons_self
    have h3 := hall y (List.mem_cons_of_mem _ List.mem_cons_self)
    omega

/-! ## The hypotheses are met by real directories -/

example : WritableDir (fun _ => true) [.add 271 (.ascii { strings := [[67, 97, 110, 111, 110]] }), .add 256 (.long [6000]), .add 282 (.rational [(1, 2)]),
    .add 256 (.short [1, 2]), .remove 282, .add 50714 (.sshort [5, 65535])] := by
  refine ⟨by decide, by decide, ?_⟩
  intro e he
  simp [entriesOf, applyDirOp, insertTag, removeTag] at he
  rcases he with rfl | rfl | rfl <;> simp [Typed, Storable, Value.count, Ascii.count]

example : Writable (fun _ => true) (.data [1, 2, 3, 4, 5]) := trivial

/-! ## Values that are changed -/

/-- The single value of the directory of a file, as read -/
def readValue (F : List Nat) : Option Value :=
  match parseFile (fun _ => true) F 0 none [] 1 with
  | some (.ok [(d, _)]) => match d.entries with
    | [(_, v, _)] => some v
    | _ => none
  | _ => none

/-- `readValue` after writing `v` -/
def writeRead (v : Value) : Option Value :=
  match session [] [.add 700 v] with
  | .ok (F, _) => readValue F
  | _ => none

/-- The single float 1.0 comes back as the smallest subnormal number. -/
theorem C18_single_float_lost : writeRead (.float [0x3f800000]) = some (.float [1]) := by decide +kernel

/-- The signed bytes -1, 0 come back as -1, -1. -/
theorem C18_negative_bytes_lost : writeRead (.sbyte [0xff, 0]) = some (.sbyte [0xff, 0xff]) := by decide +kernel

/-- The signed words -1, 0 come back as -1, -1. -/
theorem C18_negative_words_lost : writeRead (.sshort [0xffff, 0]) = some (.sshort [0xffff, 0xffff]) := by decide +kernel

/-- Of two strings the first comes back. -/
theorem C18_second_string_lost :
    writeRead (.ascii { strings := [[65, 66], [67, 68]] }) = some (.ascii { strings := [[65, 66]], plain := [65, 66, 0, 67, 68, 0] }) := by decide +kernel

/-- An empty value makes the writer panic. -/
theorem C18_empty_value_panics (tag : Nat) : session [] [.add tag (.byte [])] = .error .panic := rfl

/-- A single float stays what it is only when its bit pattern read as a number is its value truncated: never for an ordinary number. -/
theorem C18_float_one_to_two_lost (b : Nat) (h1 : 0x3f800000 ≤ b) (h2 : b < 0x40000000) : (Value.float [b]).asEmbedded = .ok 1 := by
  have e : b / 2 ^ 23 % 256 = 127 := by omega
  have hs : b / 2 ^ 31 % 2 = 0 := by omega
  have : f32ToU32 b = 1 := by
    rw [f32ToU32, if_neg (by omega), if_neg (by omega), if_neg (by omega), if_neg (by omega), e]
    omega
  show (do let x ← idx [b] 0; .ok (f32ToU32 x)) = _
  simp only [idx, List.length_singleton, bind, Except.bind]
  simp [this]

/-! ## Files beyond 4 GiB -/

/-- Offsets are kept in 32 bits: behind any block of 4 GiB the next block is reported at the offset of the first. -/
theorem C20_beyond_4gib_same_offset (big : List Nat) (hbig : big.length = 2 ^ 32) :
    ∃ t, runAll (Writer.new { data := [], pos := 0 }) [.data big, .data [1]] = .ok (t, [8, 8]) := by
  have h0 : (Writer.new { data := [], pos := 0 }).file.pos = 8 := by decide
  generalize Writer.new { data := [], pos := 0 } = t at h0
  have hp : t.pad = t := by rw [Writer.pad, Writer.position, h0, if_neg (by decide)]
  have h1 : (t.put big).file.pos = 8 + 2 ^ 32 := by
    show t.file.pos + big.length = _
    rw [h0, hbig]
  have e1 : t.writeData big = (t.put big, 8) := by
    rw [Writer.writeData, hp, Writer.position, h0]
  have hp2 : (t.put big).pad = t.put big := by
    rw [Writer.pad, Writer.position, h1, if_neg (by decide)]
  have e2 : (t.put big).writeData [1] = ((t.put big).put [1], 8) := by
    rw [Writer.writeData, hp2, Writer.position, h1]
  refine ⟨(t.put big).put [1], ?_⟩
  simp only [runAll, WOp.run, bind, Except.bind]
  rw [e1]
  simp only []
  rw [e2]

end Verif.Props
