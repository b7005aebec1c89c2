import Verif.Proofs.Mos
import Verif.Props.Leaf
import Verif.Props.Kodak
/-! # C93: Leaf MOS, Hasselblad 3FR and Kodak DCR files -/

namespace Verif.Props
open Verif Verif.Spec Verif.Packed Verif.Kdc Verif.Small Verif.Mos

/-- **C13, 16 bits, the less significant byte first**, for every width. -/
theorem C13_16le (buf : List Nat) (hb : IsBytes buf) (w h : Nat) (h0 : 0 < w) :
    if w * h * 2 ≤ buf.length then ∃ img, dec16le buf w h = .ok img ∧ Holds img w h fun r c => fieldMSB 16 (swapPairs buf) (r * w + c)
    else dec16le buf w h = fail' := dec16le_holds buf hb w h h0

/-- **C13, 16 bits, the more significant byte first**, for every width. -/
theorem C13_16be (buf : List Nat) (hb : IsBytes buf) (w h : Nat) (h0 : 0 < w) :
    if w * h * 2 ≤ buf.length then ∃ img, dec16be buf w h = .ok img ∧ Holds img w h fun r c => fieldMSB 16 buf (r * w + c)
    else dec16be buf w h = fail' := dec16be_holds buf hb w h h0

example : dec16le [0x34, 0x12, 0x78, 0x56, 1, 0] 3 1 = .ok [0x1234, 0x5678, 1] := by decide +kernel
example : dec16be [0x34, 0x12, 0x78, 0x56, 1, 0] 1 3 = .ok [0x3412, 0x7856, 256] := by decide +kernel

/-- **C93, make and model of Leaf.** The text between the tags is found. -/
theorem C93_name (pre v post tag : List Nat)
    (h1 : Spec.Mos.FirstAt (Spec.Mos.opening tag) (pre ++ Spec.Mos.opening tag ++ v ++ Spec.Mos.closing tag ++ post) pre.length)
    (h2 : Spec.Mos.FirstAt (Spec.Mos.closing tag) (pre ++ Spec.Mos.opening tag ++ v ++ Spec.Mos.closing tag ++ post)
      (pre ++ Spec.Mos.opening tag ++ v).length) :
    xmpTag (some (.bytes (pre ++ Spec.Mos.opening tag ++ v ++ Spec.Mos.closing tag ++ post))) tag = .ok v := by
  rw [xmpTag]
  simp only [fetch, bind, Except.bind, Entry.data]
  rw [open_eq, close_eq, find_first _ _ _ h1, find_first _ _ _ h2]
  simp only [found]
  have hl : (pre ++ Spec.Mos.opening tag).length = pre.length + tag.length + 7 := by rw [List.length_append, opening_length]; omega
  rw [slice, if_pos (by rw [← hl]; simp only [List.length_append]; omega), ← hl, List.append_assoc _ (Spec.Mos.closing tag) post]
  rw [List.append_assoc (pre ++ Spec.Mos.opening tag) v, List.drop_left, List.take_append_of_le_length (by simp only [List.length_append]; omega),
    List.take_of_length_le (by simp only [List.length_append]; omega)]

/-- Without one of the tags there is an error. -/
theorem C93_name_missing (text tag : List Nat) (h : Spec.Mos.Absent (Spec.Mos.opening tag) text ∨ Spec.Mos.Absent (Spec.Mos.closing tag) text) :
    xmpTag (some (.bytes text)) tag = fail' ∧ xmpTag none tag = fail' := by
  refine ⟨?_, rfl⟩
  rw [xmpTag]
  simp only [fetch, bind, Except.bind, Entry.data]
  rw [open_eq, close_eq]
  rcases h with h | h
  · rw [find_none _ _ h]; rfl
  · rw [find_none _ _ h]
    cases find (Spec.Mos.opening tag) text <;> rfl

/-- A closing tag before the opening tag aborts. -/
theorem C93_name_reversed_aborts (text tag : List Nat) (i j : Nat) (h1 : Spec.Mos.FirstAt (Spec.Mos.opening tag) text i)
    (h2 : Spec.Mos.FirstAt (Spec.Mos.closing tag) text j) (h : j < i + tag.length + 7) : xmpTag (some (.bytes text)) tag = panic' := by
  rw [xmpTag]
  simp only [fetch, bind, Except.bind, Entry.data]
  rw [open_eq, close_eq, find_first _ _ _ h1, find_first _ _ _ h2]
  simp only [found]
  rw [slice, if_neg (by omega)]

/-- The model ends before a parenthesis; -/
theorem C93_model (xmp : Option Entry) (make full : List Nat) (h1 : xmpTag xmp ("Make".toList.map Char.toNat) = .ok make)
    (h2 : xmpTag xmp ("Model".toList.map Char.toNat) = .ok full) (hf : full ≠ []) : names xmp = .ok (make, full.takeWhile (· ≠ 40)) := by
  rw [names]
  change ((xmpTag xmp ("Make".toList.map Char.toNat)).bind fun make => (xmpTag xmp ("Model".toList.map Char.toNat)).bind _) = _
  rw [h1, h2]
  simp only [Except.bind]
  rw [splitTerm_head 40 full hf]

/-- an empty model aborts. -/
theorem C93_empty_model_aborts (xmp : Option Entry) (make : List Nat) (h1 : xmpTag xmp ("Make".toList.map Char.toNat) = .ok make)
    (h2 : xmpTag xmp ("Model".toList.map Char.toNat) = .ok []) : names xmp = panic' := by
  rw [names]
  change ((xmpTag xmp ("Make".toList.map Char.toNat)).bind fun make => (xmpTag xmp ("Model".toList.map Char.toNat)).bind _) = _
  rw [h1, h2]
  rfl

/-- Bytes of a text -/
def ascii (s : String) : List Nat := s.toList.map Char.toNat

instance (pat text : List Nat) (i : Nat) : Decidable (Spec.Mos.FirstAt pat text i) := by unfold Spec.Mos.FirstAt; infer_instance

example : Spec.Mos.FirstAt (Spec.Mos.opening (ascii "A")) (ascii "<x>" ++ Spec.Mos.opening (ascii "A") ++ ascii "Leaf" ++ Spec.Mos.closing (ascii "A") ++ [7]) 3 ∧
    Spec.Mos.FirstAt (Spec.Mos.closing (ascii "A")) (ascii "<x>" ++ Spec.Mos.opening (ascii "A") ++ ascii "Leaf" ++ Spec.Mos.closing (ascii "A") ++ [7])
      (ascii "<x>" ++ Spec.Mos.opening (ascii "A") ++ ascii "Leaf").length := by decide +kernel
example : (names (some (.bytes (ascii "<x><tiff:Make>Leaf</tiff:Make><tiff:Model>Aptus 22(LI3)</tiff:Model></x>")))) = .ok (ascii "Leaf", ascii "Aptus 22") := by decide +kernel
example : (names (some (.bytes (ascii "<tiff:Make>Leaf</tiff:Make><tiff:Model></tiff:Model>")))) = panic' := by decide +kernel
example : (names (some (.bytes (ascii "</tiff:Make><tiff:Make>")))) = panic' := by decide +kernel

/-- **C93, white balance of Leaf.** The factors are the first of the four numbers after the heading, divided by each of the others. -/
theorem C93_leaf_white_balance (parse : List Nat → Option Rat) (pre gap l0 l1 l2 l3 post : List Nat) (hg : gap.length = 28)
    (h0 : 0 ∉ l0 ∧ 10 ∉ l0) (h1 : 0 ∉ l1 ∧ 10 ∉ l1) (h2 : 0 ∉ l2 ∧ 10 ∉ l2) (h3 : 0 ∉ l3 ∧ 10 ∉ l3) (hne : l3 ≠ []) (text leaf : List Nat)
    (ht : text = l0 ++ 10 :: (l1 ++ 10 :: (l2 ++ 10 :: l3))) (hm : leaf = pre ++ (Spec.Mos.heading ++ gap ++ (text ++ 0 :: post)))
    (hf : ∀ j, j < pre.length → ¬ Spec.Mos.heading <+: leaf.drop j) (hlen : pre.length + 70 < leaf.length) :
    mosWb parse (some (.bytes leaf)) = .ok (some [(parse l0, parse l1), (parse l0, parse l2), (parse l0, parse l3)]) := by
  have hh : Spec.Mos.heading.length = 16 := rfl
  have hd : leaf.drop pre.length = Spec.Mos.heading ++ gap ++ (text ++ 0 :: post) := by rw [hm, List.drop_left]
  have hfind : ((List.range (leaf.length - 70)).find? fun pos => (leaf.drop pos).take 16 == neutrals) = some pre.length := by
    refine find_eq _ _ _ (by omega) ?_ (fun j hj => ?_)
    · rw [hd, List.append_assoc, List.take_left' hh, heading_eq]; decide
    · refine Bool.eq_false_iff.mpr fun e => hf j hj ?_
      have e : (leaf.drop j).take 16 = neutrals := by simpa using e
      rw [← heading_eq, ← e]
      exact List.take_prefix _ _
  have hdata : leaf.drop (pre.length + 44) = text ++ 0 :: post := by
    rw [← List.drop_drop, hd, List.drop_left' (by rw [List.length_append, hh, hg])]
  have hz : 0 ∉ text := by
    rw [ht]
    simp only [List.mem_append, List.mem_cons, not_or]
    exact ⟨h0.1, by decide, h1.1, by decide, h2.1, by decide, h3.1⟩
  have hs : splitTerm 10 text = [l0, l1, l2, l3] := by
    rw [ht, splitTerm_cons 10 l0 _ h0.2, splitTerm_cons 10 l1 _ h1.2, splitTerm_cons 10 l2 _ h2.2, splitTerm_none 10 l3 hne h3.2]
  rw [mosWb]
  simp only [fetch, bind, Except.bind, Entry.data]
  rw [hfind]
  simp only []
  rw [hdata, factors, findIdx_zero _ _ hz]
  simp only []
  rw [List.take_left, hs]
  rfl

/-- Without the heading there are no factors; a block that is missing is an error, and one that is not of bytes aborts. -/
theorem C93_leaf_no_white_balance (parse : List Nat → Option Rat) (leaf : List Nat) (h : Spec.Mos.Absent Spec.Mos.heading leaf) (n : Nat) :
    mosWb parse (some (.bytes leaf)) = .ok none ∧ mosWb parse none = fail' ∧ mosWb parse (some (.other n)) = panic' := by
  refine ⟨?_, rfl, rfl⟩
  have : ((List.range (leaf.length - 70)).find? fun pos => (leaf.drop pos).take 16 == neutrals) = none := by
    rw [List.find?_eq_none]
    intro j _ e
    have e : (leaf.drop j).take 16 = neutrals := by simpa using e
    apply h j
    rw [← heading_eq, ← e]
    exact List.take_prefix _ _
  rw [mosWb]
  simp only [fetch, bind, Except.bind, Entry.data]
  rw [this]

/-- Leaf metadata with the heading and four numbers -/
def leafMeta (n : Nat) : List Nat := [1] ++ ascii "NeutObj_neutrals" ++ List.replicate 28 7 ++ ascii "8\n4\n2\n1" ++ [0] ++ List.replicate n 9

example : (mosWb (fun l => l.head?.map fun (d : Nat) => (d : Rat)) (some (.bytes (leafMeta 30)))).map (fun x => x.map List.length) = .ok (some 3) := by decide +kernel

/-- Numbers at the end of the metadata, in the last 70 bytes, are not seen. -/
theorem C93_end_of_metadata_missed (parse : List Nat → Option Rat) : mosWb parse (some (.bytes (leafMeta 17))) = .ok none := by
  have : ((List.range ((leafMeta 17).length - 70)).find? fun pos => ((leafMeta 17).drop pos).take 16 == neutrals) = none := by decide +kernel
  rw [mosWb]
  simp only [fetch, bind, Except.bind, Entry.data]
  rw [this]

/-- **C93, Leaf pictures.** Not compressed: each sample is the 16 bits stored for it, in the byte order of the file. -/
theorem C93_leaf_uncompressed (file : List Nat) (hb : IsBytes file) (w h off : Nat) (ws hs os cs : List Nat) (hoff : off ≤ file.length) (h0 : 0 < w) (le il : Bool) :
    if w * h * 2 ≤ file.length - off then
      ∃ img, mosImage file (some ⟨some (w :: ws), some (h :: hs), some (off :: os), some (1 :: cs)⟩) le il = .ok ⟨w, h, img⟩ ∧
        Holds img w h (fun r c => fieldMSB 16 (if le then swapPairs (file.drop off) else file.drop off) (r * w + c))
    else mosImage file (some ⟨some (w :: ws), some (h :: hs), some (off :: os), some (1 :: cs)⟩) le il = fail' := by
  have hb' : IsBytes (file.drop off) := fun b hm => hb b (List.mem_of_mem_drop hm)
  have e : mosImage file (some ⟨some (w :: ws), some (h :: hs), some (off :: os), some (1 :: cs)⟩) le il = (do
      let image ← if le then dec16le (file.drop off) w h else dec16be (file.drop off) w h
      .ok ⟨w, h, image⟩) := by
    rw [mosImage]
    simp only [fetch, bind, Except.bind, Kdc.force, List.getD_cons_zero, untilEof, if_pos hoff, if_true]
    cases le <;> rfl
  rw [e]
  have k1 := C13_16le _ hb' w h h0
  have k2 := C13_16be _ hb' w h h0
  rw [List.length_drop] at k1 k2
  by_cases hl : w * h * 2 ≤ file.length - off
  · rw [if_pos hl] at k1 k2 ⊢
    cases le with
    | true => obtain ⟨img, e1, e2⟩ := k1; exact ⟨img, by simp only [if_true, e1]; rfl, e2⟩
    | false => obtain ⟨img, e1, e2⟩ := k2; exact ⟨img, by simp only [Bool.false_eq_true, if_false, e1]; rfl, e2⟩
  · rw [if_neg hl] at k1 k2 ⊢
    cases le with
    | true => simp only [if_true, k1]; rfl
    | false => simp only [Bool.false_eq_true, if_false, k2]; rfl

/-- Compressed (7 or 99): the data of the file are decoded (C64); other numbers are an error. -/
theorem C93_leaf_compressed (file : List Nat) (w h off c : Nat) (ws hs os cs : List Nat) (hoff : off ≤ file.length) (le il : Bool) (hc : c ≠ 1) :
    mosImage file (some ⟨some (w :: ws), some (h :: hs), some (off :: os), some (c :: cs)⟩) le il =
      if c = 7 ∨ c = 99 then (Leaf.decodeMos (file.drop off) il w h).map fun img => ⟨w, h, img⟩ else fail' := by
  rw [mosImage]
  simp only [fetch, bind, Except.bind, Kdc.force, List.getD_cons_zero, untilEof, if_pos hoff, if_neg hc]
  split
  · cases Leaf.decodeMos (file.drop off) il w h <;> rfl
  · rfl

example : mosImage [9, 1, 2, 3, 4] (some ⟨some [2], some [1], some [1], some [1]⟩) true false = .ok ⟨2, 1, [0x0201, 0x0403]⟩ ∧
    mosImage [9, 1, 2, 3, 4] (some ⟨some [2], some [1], some [1], some [1]⟩) false false = .ok ⟨2, 1, [0x0102, 0x0304]⟩ := by decide +kernel

/-- **C93, Hasselblad, not compressed.** Samples, levels and white balance; the neutral colour must have three numbers. -/
theorem C93_hasselblad_uncompressed (file : List Nat) (hb : IsBytes file) (w h off : Nat) (ws hs os : List Nat) (hoff : off ≤ file.length) (h0 : 0 < w)
    (white black : Option (List Nat)) (r g b : Rat) :
    if w * h * 2 ≤ file.length - off then
      ∃ img, tfrImage file (some ⟨⟨some (w :: ws), some (h :: hs), some (off :: os)⟩, white, black⟩) true (some [r, g, b]) =
          .ok (⟨w, h, img⟩, white.map (·.getD 0 0), black.map (·.getD 0 0), (recip r, recip g, recip b)) ∧
        Holds img w h (fun r c => fieldMSB 16 (swapPairs (file.drop off)) (r * w + c))
    else tfrImage file (some ⟨⟨some (w :: ws), some (h :: hs), some (off :: os)⟩, white, black⟩) true (some [r, g, b]) = fail' := by
  have hb' : IsBytes (file.drop off) := fun b hm => hb b (List.mem_of_mem_drop hm)
  have e : tfrImage file (some ⟨⟨some (w :: ws), some (h :: hs), some (off :: os)⟩, white, black⟩) true (some [r, g, b]) = (do
      let image ← dec16le (file.drop off) w h
      .ok (⟨w, h, image⟩, white.map (·.getD 0 0), black.map (·.getD 0 0), (recip r, recip g, recip b))) := by
    rw [tfrImage]
    simp only [fetch, bind, Except.bind, Kdc.force, List.getD_cons_zero, untilEof, if_pos hoff, if_true]
    rfl
  rw [e]
  have k1 := C13_16le _ hb' w h h0
  rw [List.length_drop] at k1
  by_cases hl : w * h * 2 ≤ file.length - off
  · rw [if_pos hl] at k1 ⊢
    obtain ⟨img, e1, e2⟩ := k1
    exact ⟨img, by rw [e1]; rfl, e2⟩
  · rw [if_neg hl] at k1 ⊢
    rw [k1]; rfl

/-- Compressed: the data of the file are decoded (C64). -/
theorem C93_hasselblad_compressed (file : List Nat) (w h off : Nat) (ws hs os : List Nat) (hoff : off ≤ file.length) (white black : Option (List Nat))
    (r g b : Rat) (img : List Nat) (hd : Leaf.decodeTfr (file.drop off) w h = .ok img) :
    tfrImage file (some ⟨⟨some (w :: ws), some (h :: hs), some (off :: os)⟩, white, black⟩) false (some [r, g, b]) =
      .ok (⟨w, h, img⟩, white.map (·.getD 0 0), black.map (·.getD 0 0), (recip r, recip g, recip b)) := by
  rw [tfrImage]
  simp only [fetch, bind, Except.bind, Kdc.force, List.getD_cons_zero, untilEof, if_pos hoff, Bool.false_eq_true, if_false, hd]
  rfl

/-- The white balance: each factor is the inverse of its number (infinite for 0). A file without it gives an error, one with another count aborts. -/
theorem C93_hasselblad_white_balance (r g b : Rat) (l : List Rat) (hl : l.length ≠ 3) (hr : r ≠ 0) (hg : g ≠ 0) (hb : b ≠ 0) :
    tfrWb (some [r, g, b]) = .ok (some (1 / r), some (1 / g), some (1 / b)) ∧ tfrWb none = fail' ∧ tfrWb (some l) = panic' := by
  refine ⟨?_, rfl, ?_⟩
  · change Except.ok (recip r, recip g, recip b) = _
    rw [recip, recip, recip, if_neg hr, if_neg hg, if_neg hb]
  · rw [tfrWb]
    simp only [fetch, bind, Except.bind]
    rw [decide_eq_false hl]; rfl

open Verif.Spec.Kodak in
/-- **C93, Kodak DCR.** The data of the file give the samples through the curve of the file (C74). -/
theorem C93_kodak (file : List Nat) (w h off : Nat) (ws hs os lin bytes tail : List Nat) (hoff : off < file.length) (hd : file.drop off = bytes ++ tail)
    (hg : Gentle (lin.map (· % 65536))) (hl : lin.length ≤ 65536) (px : Nat → Nat → Nat) (hp : ∀ r, r < h → ∀ c, c < w → px r c < lin.length)
    (hf : ∀ r, r < h → ∀ k, Spec.Kodak.Fits (part px r k) (size w k)) (hs' : File bytes px w h) :
    ∃ img, dcrImage file (some ⟨some (w :: ws), some (h :: hs), some (off :: os)⟩) (some lin) = .ok ⟨w, h, img⟩ ∧ img.length = w * h ∧
      ∀ r, r < h → ∀ c, c < w → ∃ q, img[r * w + c]? = some q ∧ Near (lin.map (· % 65536)) (px r c) q := by
  obtain ⟨last, hlast⟩ : ∃ last, (lin.map (· % 65536)).getLast? = some last := by
    cases h : (lin.map (· % 65536)).getLast? with
    | none => exact absurd (List.getLast?_eq_none_iff.mp h) hg.1
    | some x => exact ⟨x, rfl⟩
  have hnew := new_ok _ hg 0 last hlast
  rw [List.replicate_zero, List.append_nil] at hnew
  obtain ⟨curve, hnew⟩ : ∃ curve, Linearize.new (lin.map (· % 65536)) = .ok curve := ⟨_, hnew⟩
  obtain ⟨img, h1, h2, h3⟩ := C74_kodak65000 _ hg (by rw [List.length_map]; exact hl) curve hnew px w h
    (fun r hr c hc => by rw [List.length_map]; exact hp r hr c hc) hf bytes (tail ++ List.replicate 16 0) hs'
  refine ⟨img, ?_, h2, h3⟩
  rw [dcrImage]
  simp only [fetch, bind, Except.bind, Kdc.force, List.getD_cons_zero, untilEofPadded, if_pos hoff]
  rw [hnew]
  simp only []
  rw [hd, List.append_assoc, h1]

/-- The picture of the example of C74 after a byte that is skipped -/
example : (Gentle [0, 4, 8, 12]) ∧ dcrImage [9, 0x02, 0, 2, 0, 0] (some ⟨some [1], some [1], some [1]⟩) (some [0, 4, 8, 12]) = .ok ⟨1, 1, [6]⟩ :=
  ⟨gentle_of_check _ (by decide) (by decide) (by decide +kernel), by decide +kernel⟩

/-- **C93, white balance of Kodak DCR**: 2048 divided by the numbers at bytes 40, 42 and 44. Shorter blocks give no factors, a missing block an error,
and one that is not of bytes aborts. -/
theorem C93_kodak_white_balance (d : List Nat) (n : Nat) (hn : 46 ≤ n) (q : Nat → Option ℚ) (hq : ∀ k, q k = if k = 0 then none else some ((2048 : ℚ) / k)) :
    dcrWb (some (.bytes d)) = (if 46 ≤ d.length then .ok (some (q (d.getD 40 0 * 256 + d.getD 41 0), q (d.getD 42 0 * 256 + d.getD 43 0),
      q (d.getD 44 0 * 256 + d.getD 45 0))) else .ok none) ∧ dcrWb none = fail' ∧ dcrWb (some (.other n)) = panic' := by
  obtain rfl : q = part2048 := funext fun k => (hq k).trans rfl
  refine ⟨?_, rfl, ?_⟩
  · rw [dcrWb]
    simp only [fetch, bind, Except.bind, Entry.count, Entry.data, ge_iff_le]
    split
    · rw [Kdc.be16, Kdc.be16, Kdc.be16, idx_getD d 40 (by omega), idx_getD d (40 + 1) (by omega), idx_getD d 42 (by omega), idx_getD d (42 + 1) (by omega),
        idx_getD d 44 (by omega), idx_getD d (44 + 1) (by omega)]
      rfl
    · rfl
  · rw [dcrWb]
    simp only [fetch, bind, Except.bind, Entry.count, Entry.data, ge_iff_le]
    rw [if_pos hn]

end Verif.Props
