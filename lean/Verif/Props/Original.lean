import Verif.Model.Original
import Verif.Proofs.Grid
/-! # Embedded original raw file (C26, C27) -/

namespace Verif.Props
open Verif Verif.Orig

/-- What is assumed of the zlib codec: every block can be compressed and comes back. -/
def Lossless (C : Codec) : Prop := ∀ b, ∃ c, C.deflate b = .ok c ∧ C.inflate c = .ok b

theorem readBlocks_flatten (n : Nat) : ∀ (l : List Nat), l.length < n → (readBlocks n l).flatten = l := by
  induction n with
  | zero => intro l h; omega
  | succ n ih =>
    intro l h
    rw [readBlocks]
    split
    · rename_i h0; rw [h0]; rfl
    · rename_i h0
      have : 0 < l.length := List.length_pos_iff.mpr h0
      rw [List.flatten_cons, ih _ (by rw [List.length_drop, blockSize]; omega), List.take_append_drop]

theorem readBlocks_length (n : Nat) : ∀ (l : List Nat), l.length < n → (readBlocks n l).length = (l.length + blockSize - 1) / blockSize := by
  induction n with
  | zero => intro l h; omega
  | succ n ih =>
    intro l h
    rw [readBlocks]
    split
    · rename_i h0; rw [h0]; rfl
    · rename_i h0
      have h1 : 0 < l.length := List.length_pos_iff.mpr h0
      rw [List.length_cons, ih _ (by rw [List.length_drop, blockSize]; omega), List.length_drop]
      unfold blockSize
      omega

/-- the compressed blocks -/
theorem compress_chunks (C : Codec) (hC : Lossless C) (bs : List (List Nat)) :
    (bs.filterMap fun b => (C.deflate b).toOption).length = bs.length ∧
    ∀ out total, ∃ t, decompressLoop C (bs.filterMap fun b => (C.deflate b).toOption) out total = (out ++ bs.flatten, .ok t) := by
  induction bs with
  | nil => exact ⟨rfl, fun out total => ⟨total, by simp [decompressLoop]⟩⟩
  | cons b bs ih =>
    obtain ⟨c, h1, h2⟩ := hC b
    have e : (b :: bs).filterMap (fun b => (C.deflate b).toOption) = c :: bs.filterMap (fun b => (C.deflate b).toOption) := by
      rw [List.filterMap_cons, h1]; rfl
    rw [e]
    refine ⟨by rw [List.length_cons, ih.1, List.length_cons], fun out total => ?_⟩
    rw [decompressLoop, h2]
    simp only []
    obtain ⟨t, ht⟩ := ih.2 (out ++ b) b.length
    exact ⟨t, by rw [ht, List.flatten_cons, List.append_assoc]⟩

/-- size of the container without the trailer -/
def containerSize (o : Original) : Nat := 8 + 4 * o.chunks.length + o.chunks.flatten.length

/-- the end offsets of the chunks -/
def ends : List (List Nat) → Nat → List Nat
  | [], _ => []
  | c :: cs, e => (e + c.length) :: ends cs (e + c.length)

theorem endOffsets_ok (cs : List (List Nat)) : ∀ (e : Nat), e + cs.flatten.length < 2 ^ 32 → endOffsets cs e = .ok (ends cs e) := by
  induction cs with
  | nil => intro e _; rfl
  | cons c cs ih =>
    intro e h
    rw [List.flatten_cons, List.length_append] at h
    rw [endOffsets]
    rw [Nat.mod_eq_of_lt (by omega : c.length < 2 ^ 32), if_pos (by omega), ih _ (by omega)]
    rfl

theorem ends_length (cs : List (List Nat)) : ∀ e, (ends cs e).length = cs.length := by
  induction cs with
  | nil => intro e; rfl
  | cons c cs ih => intro e; rw [ends, List.length_cons, ih, List.length_cons]

theorem ends_lt (cs : List (List Nat)) : ∀ (e : Nat), e + cs.flatten.length < 2 ^ 32 → ∀ x ∈ ends cs e, x < 2 ^ 32 := by
  induction cs with
  | nil => intro e _ x hx; cases hx
  | cons c cs ih =>
    intro e h x hx
    rw [List.flatten_cons, List.length_append] at h
    rw [ends, List.mem_cons] at hx
    rcases hx with rfl | hx
    · omega
    · exact ih _ (by omega) x hx

theorem rdBe32_at (pre post : List Nat) (n : Nat) (hn : n < 2 ^ 32) (pos : Nat) (hp : pos = pre.length) :
    rdBe32 (pre ++ be32 n ++ post) pos = .ok n := by
  have : ((pre ++ be32 n ++ post).drop pos).take 4 = be32 n := by
    rw [hp, List.append_assoc, List.drop_left]
    have : (be32 n).length = 4 := rfl
    rw [List.take_append_of_le_length (by omega), List.take_of_length_le (by omega)]
  rw [rdBe32, this, be32]
  simp only []
  refine congrArg _ ?_
  omega

theorem readIndex (pre : List Nat) (v : List Nat) (hv : ∀ x ∈ v, x < 2 ^ 32) (post : List Nat) (base : Nat) (hb : base = pre.length) :
    (List.range v.length).mapM (fun i => rdBe32 (pre ++ v.flatMap be32 ++ post) (base + 4 * i)) = .ok v := by
  have hg : ∀ i (hi : i < v.length), rdBe32 (pre ++ v.flatMap be32 ++ post) (base + 4 * i) = .ok (v.getD i 0) := by
    intro i hi
    have hsplit : v = v.take i ++ v[i] :: v.drop (i + 1) := by rw [List.getElem_cons_drop, List.take_append_drop]
    have hl : ∀ (l : List Nat), (l.flatMap be32).length = 4 * l.length := by
      intro l
      induction l with
      | nil => rfl
      | cons a l ih => rw [List.flatMap_cons, List.length_append, ih, List.length_cons]; simp [be32]; omega
    have e : pre ++ v.flatMap be32 ++ post = (pre ++ (v.take i).flatMap be32) ++ be32 v[i] ++ ((v.drop (i + 1)).flatMap be32 ++ post) := by
      conv => lhs; rw [hsplit, List.flatMap_append, List.flatMap_cons]
      simp only [List.append_assoc]
    rw [e, rdBe32_at _ _ _ (hv _ (List.getElem_mem hi)), List.getD_eq_getElem?_getD, List.getElem?_eq_getElem hi]
    · rfl
    · rw [List.length_append, hl, List.length_take, hb]; omega
  rw [mapM_ok_of _ (fun i => v.getD i 0) _ (fun i hi => hg i (List.mem_range.mp hi))]
  refine congrArg _ ?_
  apply List.ext_getElem (by simp)
  intro i h1 h2
  rw [List.getElem_map, List.getElem_range, List.getD_eq_getElem?_getD, List.getElem?_eq_getElem h2]; rfl

theorem readChunks_ok (cs : List (List Nat)) : ∀ (pre post : List Nat) (pos e : Nat), pos = pre.length →
    readChunks (pre ++ cs.flatten ++ post) pos e (ends cs e) = .ok cs := by
  induction cs with
  | nil => intro pre post pos e _; rfl
  | cons c cs ih =>
    intro pre post pos e hp
    rw [ends, readChunks, if_neg (by omega), Nat.add_sub_cancel_left, if_neg]
    · have e1 : pre ++ (c :: cs).flatten ++ post = (pre ++ c) ++ cs.flatten ++ post := by simp
      rw [e1, ih (pre ++ c) post (pos + c.length) _ (by rw [hp, List.length_append])]
      simp only [bind, Except.bind]
      have : ((pre ++ c ++ cs.flatten ++ post).drop pos).take c.length = c := by
        rw [hp, List.append_assoc, List.append_assoc, List.drop_left, List.take_left']; rfl
      rw [this]
    · rw [List.flatten_cons]; simp only [List.length_append]; omega

/-- reading a written container -/
theorem open_written (o : Original) (hn : o.chunks.length = (o.size + blockSize - 1) / blockSize) (hs : o.size < 2 ^ 32) (hc : containerSize o < 2 ^ 32) :
    ∃ bytes, writeToStream o = .ok bytes ∧ ∀ pre post d, open' (pre ++ bytes ++ post) pre.length d = .ok ⟨o.size, o.chunks, d⟩ := by
  unfold containerSize at hc
  have hst : 4 + (o.chunks.length + 1) * 4 = 8 + 4 * o.chunks.length := by omega
  refine ⟨be32 o.size ++ be32 (8 + 4 * o.chunks.length) ++ (ends o.chunks (8 + 4 * o.chunks.length)).flatMap be32 ++ o.chunks.flatten ++
    (List.replicate 7 (be32 0)).flatten, ?_, ?_⟩
  rotate_left
  · intro pre post d
    rw [open']
    have e0 : pre ++ (be32 o.size ++ be32 (8 + 4 * o.chunks.length) ++ (ends o.chunks (8 + 4 * o.chunks.length)).flatMap be32 ++ o.chunks.flatten ++
        (List.replicate 7 (be32 0)).flatten) ++ post =
        pre ++ be32 o.size ++ (be32 (8 + 4 * o.chunks.length) ++ (ends o.chunks (8 + 4 * o.chunks.length)).flatMap be32 ++ o.chunks.flatten ++
        (List.replicate 7 (be32 0)).flatten ++ post) := by simp only [List.append_assoc]
    generalize hD : pre ++ (be32 o.size ++ be32 (8 + 4 * o.chunks.length) ++ (ends o.chunks (8 + 4 * o.chunks.length)).flatMap be32 ++ o.chunks.flatten ++
        (List.replicate 7 (be32 0)).flatten) ++ post = D at *
    have r1 : rdBe32 D pre.length = .ok o.size := by rw [e0]; exact rdBe32_at _ _ _ hs _ rfl
    rw [r1]
    simp only [bind, Except.bind]
    have e1 : D = (pre ++ be32 o.size) ++ ((8 + 4 * o.chunks.length) :: ends o.chunks (8 + 4 * o.chunks.length)).flatMap be32 ++
        (o.chunks.flatten ++ (List.replicate 7 (be32 0)).flatten ++ post) := by
      rw [e0, List.flatMap_cons]; simp only [List.append_assoc]
    have r2 := readIndex (pre ++ be32 o.size) ((8 + 4 * o.chunks.length) :: ends o.chunks (8 + 4 * o.chunks.length)) (by
      intro x hx
      rw [List.mem_cons] at hx
      rcases hx with rfl | hx
      · omega
      · exact ends_lt _ _ (by omega) x hx) (o.chunks.flatten ++ (List.replicate 7 (be32 0)).flatten ++ post) (pre.length + 4)
      (by rw [List.length_append]; rfl)
    rw [← e1, List.length_cons, ends_length, hn] at r2
    rw [← hn] at r2 ⊢
    rw [r2]
    simp only []
    have hl : ∀ (l : List Nat), (l.flatMap be32).length = 4 * l.length := by
      intro l
      induction l with
      | nil => rfl
      | cons a l ih => rw [List.flatMap_cons, List.length_append, ih, List.length_cons]; simp [be32]; omega
    have e2 : D = (pre ++ be32 o.size ++ ((8 + 4 * o.chunks.length) :: ends o.chunks (8 + 4 * o.chunks.length)).flatMap be32) ++ o.chunks.flatten ++
        ((List.replicate 7 (be32 0)).flatten ++ post) := by rw [e1]; simp only [List.append_assoc]
    have r3 := readChunks_ok o.chunks (pre ++ be32 o.size ++ ((8 + 4 * o.chunks.length) :: ends o.chunks (8 + 4 * o.chunks.length)).flatMap be32)
      ((List.replicate 7 (be32 0)).flatten ++ post) (pre.length + (8 + 4 * o.chunks.length)) (8 + 4 * o.chunks.length) (by
        rw [List.length_append, hl, List.length_append, List.length_cons, ends_length]; simp only [be32, List.length_cons, List.length_nil]; omega)
    rw [← e2] at r3
    rw [r3]
  · rw [writeToStream, hst, Nat.mod_eq_of_lt (by omega), endOffsets_ok _ _ (by omega)]
    rfl

/-- **C26**: for every file (also from a position inside of it) below 4 GiB, if the compressed container stays below 4 GiB: the container written, put
anywhere in another stream, is read back, and decompressing it writes exactly the bytes of the file, with and without verification. Assumed: zlib is
lossless. -/
theorem C26_restored (C : Codec) (hC : Lossless C) (file : List Nat) (pos : Nat) (hp : pos ≤ file.length) (hs : file.length - pos < 2 ^ 32) :
    ∃ o, compress C file pos = .ok o ∧ (containerSize o < 2 ^ 32 →
      ∃ bytes, writeToStream o = .ok bytes ∧ ∀ pre post verify, ∃ o' total, open' (pre ++ bytes ++ post) pre.length o.digest = .ok o' ∧
        decompress C o' verify = (file.drop pos, .ok total)) := by
  have hl : (file.drop pos).length = file.length - pos := List.length_drop
  have hfl := readBlocks_flatten ((file.drop pos).length + 1) (file.drop pos) (by omega)
  have hbl := readBlocks_length ((file.drop pos).length + 1) (file.drop pos) (by omega)
  obtain ⟨h1, h2⟩ := compress_chunks C hC (readBlocks ((file.drop pos).length + 1) (file.drop pos))
  obtain ⟨t, ht⟩ := h2 [] 0
  refine ⟨_, by rw [compress, if_neg (by omega)]; simp only []; rw [if_neg (by omega)], fun hc => ?_⟩
  obtain ⟨bytes, e1, e2⟩ := open_written _ (by dsimp only; rw [h1, hbl]) (by dsimp only; omega) hc
  refine ⟨bytes, e1, fun pre post verify => ?_⟩
  refine ⟨_, t, e2 pre post _, ?_⟩
  rw [decompress]
  dsimp only
  rw [ht, hfl, List.nil_append]
  simp

theorem readBlocks_get (n : Nat) : ∀ (l : List Nat), l.length < n → ∀ i, i < (readBlocks n l).length →
    (readBlocks n l).getD i [] = (l.drop (65536 * i)).take 65536 := by
  induction n with
  | zero => intro l h; omega
  | succ n ih =>
    intro l h i hi
    rw [readBlocks] at hi ⊢
    split
    · rename_i h0; rw [if_pos h0] at hi; simp at hi
    · rename_i h0
      rw [if_neg h0] at hi
      have h1 : 0 < l.length := List.length_pos_iff.mpr h0
      cases i with
      | zero => rw [Nat.mul_zero, List.drop_zero, List.getD_cons_zero]; rfl
      | succ i =>
        rw [List.length_cons] at hi
        rw [List.getD_cons_succ, ih _ (by rw [List.length_drop, blockSize]; omega) i (by omega), List.drop_drop]
        refine congrArg (fun k => List.take 65536 (List.drop k l)) ?_
        rw [blockSize]; omega

theorem filterMap_lossless (C : Codec) (hC : Lossless C) (bs : List (List Nat)) : ∀ i, i < bs.length →
    C.inflate ((bs.filterMap fun b => (C.deflate b).toOption).getD i []) = .ok (bs.getD i []) := by
  induction bs with
  | nil => intro i h; simp at h
  | cons b bs ih =>
    obtain ⟨c, h1, h2⟩ := hC b
    intro i hi
    rw [List.filterMap_cons, h1]
    cases i with
    | zero => exact h2
    | succ i => rw [List.length_cons] at hi; exact ih i (by omega)

theorem ends_get (cs : List (List Nat)) : ∀ (e i : Nat), i < cs.length → (ends cs e).getD i 0 = e + (cs.take (i + 1)).flatten.length := by
  induction cs with
  | nil => intro e i h; simp at h
  | cons c cs ih =>
    intro e i h
    rw [ends]
    cases i with
    | zero => simp
    | succ i =>
      rw [List.length_cons] at h
      rw [List.getD_cons_succ, ih _ _ (by omega), List.take_succ_cons, List.flatten_cons, List.length_append]
      omega

/-- **C26**, the format: the container is what the DNG specification prescribes for an original raw file, for every file: it holds the size in 4 bytes
(big-endian), one block per 65536 bytes, before the blocks a table with the offset of each block and of the end, and after the blocks seven empty
forks; block number `i` inflates to the bytes from `65536 i` on. -/
theorem C26_dng_format (C : Codec) (hC : Lossless C) (file : List Nat) (hs : file.length < 2 ^ 32) :
    ∃ o, compress C file 0 = .ok o ∧ o.digest = some (C.md5 file) ∧ o.chunks.length = (file.length + 65535) / 65536 ∧
      (∀ i, i < o.chunks.length → C.inflate (o.chunks.getD i []) = .ok ((file.drop (65536 * i)).take 65536)) ∧
      (8 + 4 * o.chunks.length + o.chunks.flatten.length < 2 ^ 32 →
        ∃ offsets : List Nat, offsets.length = o.chunks.length + 1 ∧
          (∀ i, i ≤ o.chunks.length → offsets.getD i 0 = 8 + 4 * o.chunks.length + (o.chunks.take i).flatten.length) ∧
          writeToStream o = .ok (be32 file.length ++ offsets.flatMap be32 ++ o.chunks.flatten ++ List.replicate 28 0)) := by
  have hfl := readBlocks_flatten (file.length + 1) file (by omega)
  have hbl := readBlocks_length (file.length + 1) file (by omega)
  obtain ⟨h1, _⟩ := compress_chunks C hC (readBlocks (file.length + 1) file)
  refine ⟨_, by rw [compress, if_neg (by omega)]; simp only [List.drop_zero]; rw [if_neg (by omega)], ?_⟩
  dsimp only
  refine ⟨by rw [hfl], by rw [h1, hbl]; rfl, ?_, ?_⟩
  · intro i hi
    rw [h1] at hi
    rw [filterMap_lossless C hC _ i hi, readBlocks_get _ _ (by omega) i hi]
  · generalize (readBlocks (file.length + 1) file).filterMap (fun b => (C.deflate b).toOption) = cs
    intro hlt
    refine ⟨(8 + 4 * cs.length) :: ends cs (8 + 4 * cs.length), by rw [List.length_cons, ends_length], ?_, ?_⟩
    · intro i hi
      cases i with
      | zero => simp
      | succ i => rw [List.getD_cons_succ, ends_get _ _ _ (by omega)]
    · rw [writeToStream]
      dsimp only
      rw [show 4 + (cs.length + 1) * 4 = 8 + 4 * cs.length by omega, Nat.mod_eq_of_lt (by omega), endOffsets_ok _ _ hlt]
      simp only [bind, Except.bind, List.flatMap_cons, List.append_assoc]
      rfl

/-- Files of 4 GiB and more are refused. -/
theorem C26_too_large_refused (C : Codec) (file : List Nat) (pos : Nat) (hp : pos ≤ file.length) (hs : 2 ^ 32 ≤ file.length - pos) :
    compress C file pos = fail' := by
  rw [compress, if_neg (by omega)]
  simp only []
  rw [if_pos (by rw [List.length_drop]; exact hs)]

theorem endOffsets_overflow (cs : List (List Nat)) : ∀ (e : Nat), e < 2 ^ 32 → (∀ c ∈ cs, c.length < 2 ^ 32) → 2 ^ 32 ≤ e + cs.flatten.length →
    endOffsets cs e = panic' := by
  induction cs with
  | nil => intro e h _ h2; simp at h2; omega
  | cons c cs ih =>
    intro e h hc h2
    rw [List.flatten_cons, List.length_append] at h2
    rw [endOffsets, Nat.mod_eq_of_lt (hc c (by simp))]
    by_cases hlt : e + c.length < 2 ^ 32
    · rw [if_pos hlt, ih _ hlt (fun c' h' => hc c' (by simp [h'])) (by omega)]; rfl
    · rw [if_neg hlt]

/-- A container that reaches 4 GiB (a file just below the limit that does not compress) panics in a checked build when it is written. -/
theorem C26_container_overflow_panics (o : Original) (hn : o.chunks.length < 2 ^ 20) (hc : ∀ c ∈ o.chunks, c.length < 2 ^ 32)
    (h : 2 ^ 32 ≤ containerSize o) : writeToStream o = panic' := by
  unfold containerSize at h
  rw [writeToStream, show 4 + (o.chunks.length + 1) * 4 = 8 + 4 * o.chunks.length by omega, Nat.mod_eq_of_lt (by omega),
    endOffsets_overflow _ _ (by omega) hc (by omega)]
  rfl

/-- a codec that meets the assumption (it stores) -/
def storeCodec : Codec := ⟨fun b => .ok b, fun b => .ok b, fun b => [b.length % 256, b.foldl (· + ·) 0 % 256]⟩

example : Lossless storeCodec := fun b => ⟨b, rfl, rfl⟩
example : compress storeCodec [9, 1, 2, 3] 1 = .ok ⟨3, [[1, 2, 3]], some [3, 6]⟩ ∧ containerSize ⟨3, [[1, 2, 3]], some [3, 6]⟩ < 2 ^ 32 := by decide

/-- The number returned by `decompress` is the size of the last block, not of the file: two blocks of 2 and 1 bytes report 1. -/
theorem C26_count_is_last_block : decompress storeCodec ⟨3, [[1, 2], [3]], some [3, 6]⟩ true = ([1, 2, 3], .ok 1) := by decide

/-- **C27**: for every container, recorded digest and codec: with verification, decompression succeeds exactly if all blocks can be decompressed and
the digest of the bytes written is the recorded one. -/
theorem C27_verified (C : Codec) (data : List Nat) (start : Nat) (digest : Option (List Nat)) (o : Original) (out : List Nat) (total : Nat)
    (ho : open' data start digest = .ok o) (h : decompress C o true = (out, .ok total)) : digest = some (C.md5 out) := by
  have hd : o.digest = digest := by
    unfold open' at ho
    cases h1 : rdBe32 data start with
    | error e => rw [h1] at ho; cases ho
    | ok size =>
      rw [h1] at ho
      simp only [bind, Except.bind] at ho
      split at ho
      · cases ho
      · split at ho
        · cases ho; rfl
        · split at ho
          · cases ho
          · cases ho; rfl
  rw [← hd]
  unfold decompress at h
  split at h
  · cases h
  · split at h
    · cases h
    · rename_i hn
      cases h
      exact Decidable.of_not_not (fun hne => hn ⟨hne, rfl⟩)

/-- **C27**: a container whose blocks decompress to something with another digest, or that has no recorded digest, is rejected. -/
theorem C27_rejected (C : Codec) (o : Original) (out : List Nat) (total : Nat) (h : decompressLoop C o.chunks [] 0 = (out, .ok total))
    (hd : o.digest ≠ some (C.md5 out)) : (decompress C o true).2 = fail' := by
  rw [decompress, h]
  simp only []
  rw [if_pos ⟨hd, by simp⟩]

/-- **C27**: decompression only ever writes what the blocks decompress to, in order, whether verified or not. -/
theorem C27_written (C : Codec) (o : Original) (verify : Bool) (out : List Nat) (total : Nat) (h : decompress C o verify = (out, .ok total)) :
    ∃ bufs, o.chunks.mapM C.inflate = .ok bufs ∧ out = bufs.flatten := by
  have key : ∀ (cs : List (List Nat)) (acc : List Nat) (n : Nat) (out : List Nat) (total : Nat), decompressLoop C cs acc n = (out, .ok total) →
      ∃ bufs, cs.mapM C.inflate = .ok bufs ∧ out = acc ++ bufs.flatten := by
    intro cs
    induction cs with
    | nil => intro acc n out total h; rw [decompressLoop] at h; cases h; exact ⟨[], rfl, by simp⟩
    | cons c cs ih =>
      intro acc n out total h
      rw [decompressLoop] at h
      cases hi : C.inflate c with
      | error e => rw [hi] at h; cases h
      | ok buf =>
        rw [hi] at h
        obtain ⟨bufs, h1, h2⟩ := ih _ _ _ _ h
        refine ⟨buf :: bufs, by rw [List.mapM_cons, hi, h1]; rfl, by rw [h2, List.flatten_cons, List.append_assoc]⟩
  unfold decompress at h
  split at h
  · cases h
  · rename_i o' t' hl
    obtain ⟨bufs, h1, h2⟩ := key _ _ _ _ _ hl
    refine ⟨bufs, h1, ?_⟩
    split at h
    · cases h
    · cases h; rw [h2, List.nil_append]

/-- flipping a byte of a stored block is noticed -/
example : decompress storeCodec ⟨3, [[1, 2, 4]], some [3, 6]⟩ true = ([1, 2, 4], fail') := by decide
example : decompress storeCodec ⟨3, [[1, 2, 3]], some [3, 6]⟩ true = ([1, 2, 3], .ok 3) := by decide

end Verif.Props
