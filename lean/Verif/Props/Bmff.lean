import Verif.Proofs.BmffStop
import Verif.Proofs.BmffFind
import Verif.Proofs.BmffDec
/-!
# C68: a well-formed CR3 container is read as the boxes it consists of
-/

namespace Verif.Props
open Verif.Bmff Verif.BmffSpec

/-- Sixteen unrelated bytes. -/
private def foreign : Nat := 0x0102030405060708090a0b0c0d0e0f10

/-- An XMP packet box with a 64 bit size. -/
def exXmp : Tree := .mk .xpacket (four 'u' 'u' 'i' 'd') (some xmpId) true .opaque [] [60, 120, 47, 62]
def exFtyp : Tree := .mk .ftyp (four 'f' 't' 'y' 'p') none false (.ftyp (four 'c' 'r' 'x' ' ') 1 [four 'c' 'r' 'x' ' ', four 'i' 's' 'o' 'm']) [] []
def exMvhd : Tree := .mk .mvhd (four 'm' 'v' 'h' 'd') none false (.times 0 7 8 1000 5 true none) [] [1, 2, 3]
def exMdat : Tree := .mk .mdat (four 'm' 'd' 'a' 't') none false .opaque [] [9, 8, 7]
def exCmp1 : Tree := .mk .cmp1 (four 'C' 'M' 'P' '1') none false
  (.cmp1 65535 48 256 0 6888 4546 3444 4546 14 4 0 0 3 1 0 440 0 none) [] []
def exIad1 : Tree := .mk .iad1 (four 'I' 'A' 'D' '1') none false
  (.iad1 0 0 6888 4546 1 true 0 1 [0, 1, 2, 3, 4, 5, 6, 7, 8, 9, 10, 11, 12, 13, 14, 15]) [] []
def exCraw : Tree := .mk .craw (four 'C' 'R' 'A' 'W') none false
  (.plain [(6, 0), (2, 1), (16, 0), (2, 6888), (2, 4546), (2, 72), (2, 0), (2, 72), (2, 0), (4, 0), (2, 1), (32, 0), (2, 24),
    (2, 0), (2, 3), (2, 0)])
  [exCmp1, .mk .cdi1 (four 'C' 'D' 'I' '1') none false (.plain [(1, 0), (3, 0)]) [exIad1] []] []
def exStbl : Tree := .mk .stbl (four 's' 't' 'b' 'l') none false .opaque
  [.mk .stsd (four 's' 't' 's' 'd') none false (.plain [(1, 0), (3, 0), (4, 1)]) [exCraw] [],
   .mk .stts (four 's' 't' 't' 's') none false (.stts 0 0 [(1, 1)]) [] [],
   .mk .stsc (four 's' 't' 's' 'c') none false (.stsc 0 0 [(1, 1, 1), (2, 3, 1)]) [] [],
   .mk .stsz (four 's' 't' 's' 'z') none false (.sizes 0 0 [100, 200, 300]) [] [],
   .mk .co64 (four 'c' 'o' '6' '4') none false (.co64 0 0 [1000, 5000000000]) [] []] []
def exTrak : Tree := .mk .trak (four 't' 'r' 'a' 'k') none false .opaque
  [.mk .tkhd (four 't' 'k' 'h' 'd') none false (.plain [(1, 0), (3, 7)]) [] [0, 0],
   .mk .mdia (four 'm' 'd' 'i' 'a') none false .opaque
    [.mk .mdhd (four 'm' 'd' 'h' 'd') none false (.times 0 1 2 3 4 false (some 5)) [] [0, 0],
     .mk .hdlr (four 'h' 'd' 'l' 'r') none false (.plain [(1, 0), (3, 0)]) [] [],
     .mk .minf (four 'm' 'i' 'n' 'f') none false .opaque
      [.mk .dinf (four 'd' 'i' 'n' 'f') none false .opaque [] [1], exStbl] []] []] []
/-- Canon's description: image type 1 is track 1. -/
def exDesc : Tree := .mk .cr3desc (four 'u' 'u' 'i' 'd') (some canonId) false .opaque
  [.mk .cncv (four 'C' 'N' 'C' 'V') none false (.plain [(30, 5)]) [] [],
   .mk .cctp (four 'C' 'C' 'T' 'P') none false (.plain [(1, 0), (3, 0), (4, 1), (4, 2)])
    [.mk .ccdt (four 'C' 'C' 'D' 'T') none false (.plain [(8, 16), (4, 0), (4, 4)]) [] [],
     .mk .ccdt (four 'C' 'C' 'D' 'T') none false (.plain [(8, 1), (4, 0), (4, 1)]) [] []] [],
   .mk .ctbo (four 'C' 'T' 'B' 'O') none false .opaque [] [0, 0],
   .mk .cmt1 (four 'C' 'M' 'T' '1') none false (.data [73, 73, 42, 0]) [] [],
   .mk .cmt2 (four 'C' 'M' 'T' '2') none true (.data [73, 73]) [] [],
   .mk .cmt3 (four 'C' 'M' 'T' '3') none false (.data []) [] [],
   .mk .cmt4 (four 'C' 'M' 'T' '4') none false (.data [1]) [] [],
   .mk .thmb (four 'T' 'H' 'M' 'B') none false .opaque [] [255, 216]] []
/-- A small file: brands, a movie with Canon's description and one image track, an XMP packet, a box of unknown type and the data. -/
def exFile : List Tree :=
  [exFtyp, .mk .moov (four 'm' 'o' 'o' 'v') none false .opaque [exMvhd, exDesc, exTrak] [], exXmp,
   .mk .vendor (four 'P' 'R' 'V' 'W') none false .opaque [] [1, 2], exMdat]

theorem exFile_good : GoodFile (fun _ => True) exFile := by decide +kernel

/-! ## Reading -/

/-- **C68 (reading).** For every well-formed container - any nesting of boxes, any number of tracks, 32 and 64 bit box
sizes, boxes of unknown type wherever the format allows them, any bytes behind the known fields - reading its bytes
comes to an end and gives exactly its boxes: type, UUID, offset, size and header length of each, the numbers in it and
its child boxes, in file order. `tiff` stands for the reader of the EXIF boxes, which accepts what `tOk` describes;
`n` is the number of loop iterations allowed, and more never changes the result. -/
theorem C68_container {tiff : List Nat → R Unit} {tOk : List Nat → Prop} (hT : ∀ l, tOk l → tiff l = .ok ())
    {ts : List Tree} (h : GoodFile tOk ts) {n : Nat} (hn : (bytesAll ts).length < n) :
    parseFile tiff n (bytesAll ts) = some (.ok (seenAll 0 ts)) := by
  obtain ⟨h1, h2, h3⟩ := h
  have hs := scan_all hT (buf := bytesAll ts) ts .file 0 n [] h1 (List.prefix_refl _) (by omega) hn (by intro h; cases h)
  rw [Nat.zero_add, List.nil_append] at hs
  have hr : ((required .file).all fun r => has r (seenAll 0 ts)) = true := by
    rw [List.all_eq_true]
    intro r hr
    rw [needed_required] at hr
    exact has_seen (h2 r hr) 0
  rw [parseFile, hs]
  simp only [hr, if_true]

example : parseFile (fun _ => .ok ()) 2000 (bytesAll exFile) = some (.ok (seenAll 0 exFile)) :=
  C68_container (fun _ _ => rfl) exFile_good (by decide +kernel)

/-! ## Lookups -/

/-- **C68 (image parameters).** In every well-formed container, for every track: the image coding parameters and the
image area looked up by track number are those of the `CMP1` and `IAD1` boxes of that track, and absent if the track
has none. -/
theorem C68_image_boxes (ts : List Tree) {i : Nat} {t : Tree} (ht : (tracks ts)[i]? = some t) :
    (∃ b, cmp1Box (seenAll 0 ts) i = .ok b ∧ b.map PBox.vals
      = (follow [.mdia, .minf, .stbl, .stsd, .craw, .cmp1] t.kids).map (fun t => t.content.vals)) ∧
    (∃ b, iad1Box (seenAll 0 ts) i = .ok b ∧ b.map PBox.vals
      = (follow [.mdia, .minf, .stbl, .stsd, .craw, .cdi1, .iad1] t.kids).map (fun t => t.content.vals)) := by
  obtain ⟨b, hb, hs⟩ := rel_get (traks_rel ts 0) i t ht
  have hc := craw_rel hs
  refine ⟨⟨_, by rw [cmp1Box, hb]; rfl, ?_⟩, ⟨_, by rw [iad1Box, hb]; rfl, ?_⟩⟩
  · rw [rel_vals (bind_rel hc .cmp1)]
    simp only [follow, Option.bind_assoc]
  · rw [rel_vals (bind_rel (bind_rel hc .cdi1) .iad1)]
    simp only [follow, Option.bind_assoc]

example : (cmp1Box (seenAll 0 exFile) 0).toOption.bind (fun b => b.map PBox.vals)
    = some [65535, 48, 256, 0, 6888, 4546, 3444, 4546, 14, 4, 0, 0, 3, 1, 0, 440, 0, 14] := by decide +kernel

/-- **C68 (tracks).** The movie has as many tracks as the file says, and a track number behind the last one panics. -/
theorem C68_track_count (ts : List Tree) :
    (traks (seenAll 0 ts)).length = (tracks ts).length ∧
    ∀ i, (tracks ts).length ≤ i → cmp1Box (seenAll 0 ts) i = panic' := by
  have hl : (traks (seenAll 0 ts)).length = (tracks ts).length := rel_length (traks_rel ts 0)
  refine ⟨hl, ?_⟩
  intro i hi
  have : idx (traks (seenAll 0 ts)) i = panic' := by
    unfold idx
    rw [List.getElem?_eq_none (by omega)]
  rw [cmp1Box, this]
  rfl

/-- **C68 (brands).** A file is taken for a CR3 exactly if the brand is among those of its `ftyp` box. -/
theorem C68_brand (ts : List Tree) {k : Kind} {typ : Nat} {u : Option Nat} {w : Bool} {a b : Nat} {brands : List Nat}
    {kids : List Tree} {tl : List Nat} (h : lastOf .ftyp ts = some (.mk k typ u w (.ftyp a b brands) kids tl)) (x : Nat) :
    compatibleBrand (seenAll 0 ts) x = true ↔ x ∈ brands := by
  have hr := slot_rel .ftyp ts 0
  rw [h] at hr
  unfold compatibleBrand
  cases hs : slot .ftyp (seenAll 0 ts) with
  | none => rw [hs] at hr; cases hr
  | some b =>
    rw [hs] at hr
    cases hr with
    | some hr =>
      simp only [sees_vals hr]
      exact List.contains_iff_mem

example : compatibleBrand (seenAll 0 exFile) 0x63727820 = true := by decide +kernel

/-- **C68 (track of an image type).** The track an image type belongs to is given by the first record of Canon's
description with that type, and there is none without such a record. -/
theorem C68_track_index (ts : List Tree) (ty : Nat) :
    (∀ r i, (trackRecords ts).find? (fun v => v.getD 0 0 = ty) = some r → r.getD 2 0 = i + 1 →
      trakIndex (seenAll 0 ts) ty = .ok (some i)) ∧
    ((trackRecords ts).find? (fun v => v.getD 0 0 = ty) = none → trakIndex (seenAll 0 ts) ty = .ok none) := by
  have h0 := bind_rel (slot_rel .moov ts 0) .cr3desc
  have h1 := bind_rel h0 .cctp
  have e : follow [.moov, .cr3desc, .cctp] ts
      = ((lastOf .moov ts).bind fun t => lastOf .cr3desc t.kids).bind fun t => lastOf .cctp t.kids := by
    simp only [follow, Option.bind_assoc]
  unfold trackRecords trakIndex
  rw [e]
  cases ha : (slot .moov (seenAll 0 ts)).bind (fun m => slot .cr3desc m.kids) with
  | none =>
    rw [ha] at h0
    cases hb : (lastOf .moov ts).bind (fun t => lastOf .cr3desc t.kids) with
    | some x => rw [hb] at h0; cases h0
    | none => exact ⟨fun r i h => (by cases h), fun _ => rfl⟩
  | some d =>
    rw [ha] at h0 h1
    cases hb : (lastOf .moov ts).bind (fun t => lastOf .cr3desc t.kids) with
    | none => rw [hb] at h0; cases h0
    | some x =>
      rw [hb] at h0 h1
      simp only [Option.bind_some] at h1 ⊢
      cases hc : slot .cctp d.kids with
      | none =>
        rw [hc] at h1
        cases hd : lastOf .cctp x.kids with
        | some y => rw [hd] at h1; cases h1
        | none => exact ⟨fun r i h => (by cases h), fun _ => rfl⟩
      | some cc =>
        rw [hc] at h1
        cases hd : lastOf .cctp x.kids with
        | none => rw [hd] at h1; cases h1
        | some y =>
          rw [hd] at h1
          cases h1 with
          | some h1 =>
            obtain ⟨o, ho⟩ := sees_kids h1
            have hf := find_rel (filter_seen .ccdt y.kids o) (fun v => decide (v.getD 0 0 = ty))
            rw [← ho] at hf
            simp only
            rw [List.find?_map]
            cases hg : (cc.kids.filter (fun b => b.kind = .ccdt)).find? (fun b => b.vals.getD 0 0 = ty) with
            | none =>
              rw [hg] at hf
              cases hh : (y.kids.filter (fun b => b.kind = .ccdt)).find? (fun b => b.content.vals.getD 0 0 = ty) with
              | some z => rw [hh] at hf; cases hf
              | none =>
                have hh' : (y.kids.filter (fun b => b.kind = .ccdt)).find?
                  ((fun v => decide (v.getD 0 0 = ty)) ∘ fun t : Tree => t.content.vals) = none := hh
                rw [hh']
                exact ⟨fun r i h => (by cases h), fun _ => rfl⟩
            | some q =>
              rw [hg] at hf
              cases hh : (y.kids.filter (fun b => b.kind = .ccdt)).find? (fun b => b.content.vals.getD 0 0 = ty) with
              | none => rw [hh] at hf; cases hf
              | some z =>
                rw [hh] at hf
                have hh' : (y.kids.filter (fun b => b.kind = .ccdt)).find?
                  ((fun v => decide (v.getD 0 0 = ty)) ∘ fun t : Tree => t.content.vals) = some z := hh
                rw [hh']
                cases hf with
                | some hf =>
                  refine ⟨?_, fun h => by cases h⟩
                  intro r i h hi
                  cases h
                  simp only [sees_vals hf]
                  rw [hi, usub, if_pos (by omega)]
                  rfl

example : trackRecords exFile = [[16, 0, 4], [1, 0, 1]] ∧ trakIndex (seenAll 0 exFile) 1 = .ok (some 0) ∧
    trakIndex (seenAll 0 exFile) 16 = .ok (some 3) ∧ trakIndex (seenAll 0 exFile) 2 = .ok none := by decide +kernel

/-- **C68 (XMP).** The XMP packet of a well-formed container is the payload of its XMP box, byte for byte; without such
a box there is none. -/
theorem C68_xmp {tOk : List Nat → Prop} {ts : List Tree} (h : GoodFile tOk ts) :
    (∀ t, lastOf .xpacket ts = some t → xpacket (bytesAll ts) (seenAll 0 ts) = .ok (some t.tail)) ∧
    (lastOf .xpacket ts = none → xpacket (bytesAll ts) (seenAll 0 ts) = .ok none) := by
  constructor
  · intro t ht
    obtain ⟨o, hs, hat⟩ := slot_at (buf := bytesAll ts) .xpacket ts 0 (List.prefix_refl _) t ht
    obtain ⟨hm, hk⟩ := lastOf_mem ht
    have hg := goodAll_mem h.1 t hm
    cases t with
    | mk k typ uuid wide ct kids tl =>
      have hk' : k = .xpacket := hk
      subst hk'
      rw [Good] at hg
      obtain ⟨-, g2, -, g4, -⟩ := hg
      have g4' : kids = [] := g4
      subst g4'
      have hct : ct = .opaque := by
        cases ct <;> first | rfl | (exfalso; revert g2; unfold Suits; simp [widths])
      subst hct
      have hb : (Tree.mk .xpacket typ uuid wide .opaque [] tl).bytes
          = headBytes typ uuid wide (headLen uuid wide + tl.length) ++ tl := by
        rw [Tree.bytes]
        simp only [Content.nums, beAll, bytesAll, List.flatMap_nil, List.nil_append]
      have hlen : (Tree.mk .xpacket typ uuid wide .opaque [] tl).bytes.length = headLen uuid wide + tl.length := by
        rw [hb, List.length_append, length_headBytes]
      rw [hb] at hat
      have h2 := hat.right
      rw [length_headBytes] at h2
      have hle := h2.le
      have hle0 := hat.le
      rw [List.length_append, length_headBytes] at hle0
      have h8 := headLen_ge uuid wide
      unfold xpacket
      rw [hs]
      simp only [Tree.seen, PBox.hdr, hlen, usub]
      rw [if_pos (by omega)]
      simp only [bind, Except.bind]
      rw [show headLen uuid wide + tl.length - headLen uuid wide = tl.length from by omega, if_pos (by omega), h2.take]
      rfl
  · intro hn
    have hr := slot_rel .xpacket ts 0
    rw [hn] at hr
    unfold xpacket
    cases hs : slot .xpacket (seenAll 0 ts) with
    | none => rfl
    | some b => rw [hs] at hr; cases hr

example : xpacket (bytesAll exFile) (seenAll 0 exFile) = .ok (some [60, 120, 47, 62]) := by decide +kernel

/-! ## Every file -/

/-- **C68 (arbitrary files, partial).** For every byte string: the reader comes to an end after at most as many loop
iterations as the file has bytes, unless on its way it meets a box with size zero. Missing: it ends for all files (see
`C68_endless`). -/
theorem C68_ends_partial (tiff : List Nat → R Unit) (buf : List Nat) :
    (∃ r, ∀ n, buf.length < n → parseFile tiff n buf = some r) ∨
    ∃ o h p, Visits buf .file buf.length 0 o ∧ parseHdr buf o = .ok (h, p) ∧ h.size = 0 := by
  cases hs : scan buf tiff (buf.length + 1) .file buf.length 0 [] with
  | none => exact .inr (scan_none _ _ _ _ _ hs (by omega))
  | some r =>
    left
    cases hp : parseFile tiff (buf.length + 1) buf with
    | none =>
      exfalso
      rw [parseFile, hs] at hp
      cases r with
      | error e => cases hp
      | ok x =>
        simp only at hp
        split at hp <;> cases hp
    | some y =>
      refine ⟨y, ?_⟩
      intro n hn
      rw [← hp, parseFile, parseFile, scan_mono (by omega) hs, hs]

/-- A file of 16 bytes: a `moov` box with a `free` box of size zero in it. -/
def endlessFile : List Nat := be 4 16 ++ be 4 (four 'm' 'o' 'o' 'v') ++ be 4 0 ++ be 4 (four 'f' 'r' 'e' 'e')

/-- **C68 fails: reading may never end.** However many iterations are allowed, the reader of this file of 16 bytes is
not done (and keeps one more box in memory for each). -/
theorem C68_endless (tiff : List Nat → R Unit) (n : Nat) : parseFile tiff n endlessFile = none := by
  have step : ∀ n acc, scan endlessFile tiff n .moov 16 8 acc = none := by
    intro n
    induction n with
    | zero => intro acc; rfl
    | succ n ih =>
      intro acc
      rw [scan, if_pos (by omega)]
      have h1 : parseHdr endlessFile 8 = .ok (⟨0, 0x66726565, none, 8, 8⟩, 16) := by decide
      have h2 : act .moov ⟨0, 0x66726565, none, 8, 8⟩ = .read .vendor := by decide
      simp only [h1, h2]
      rw [if_neg (by rintro ⟨h, -⟩; cases h)]
      have h3 : readWith endlessFile tiff (fun c e q => scan endlessFile tiff n c e q []) .vendor ⟨0, 0x66726565, none, 8, 8⟩ 16
          = some (.ok (.mk ⟨0, 0x66726565, none, 8, 8⟩ .vendor [] [], 8)) := rfl
      simp only [h3]
      rw [if_neg (by rintro ⟨h, -⟩; cases h)]
      exact ih _
  cases n with
  | zero => rfl
  | succ n =>
    rw [parseFile]
    have hl : endlessFile.length = 16 := by decide
    have h1 : parseHdr endlessFile 0 = .ok (⟨16, 0x6d6f6f76, none, 0, 8⟩, 8) := by decide
    have h2 : act .file ⟨16, 0x6d6f6f76, none, 0, 8⟩ = .read .moov := by decide
    rw [hl, scan, if_pos (by omega)]
    simp only [h1, h2]
    rw [if_neg (by rintro ⟨h, -⟩; cases h)]
    have h3 : readWith endlessFile tiff (fun c e q => scan endlessFile tiff n c e q []) .moov ⟨16, 0x6d6f6f76, none, 0, 8⟩ 8
        = none := by
      have h4 : fields endlessFile .moov ⟨16, 0x6d6f6f76, none, 0, 8⟩ 8 = .ok ([], 8) := rfl
      have h5 : endOff ⟨16, 0x6d6f6f76, none, 0, 8⟩ = .ok 16 := by decide
      have h6 : container .moov = true := rfl
      unfold readWith
      simp only [h4, h5, h6, if_true, step]
    simp only [h3]

/-- **C68 fails: reading may panic.** A file of 16 bytes whose `ftyp` box says it is 12 bytes long. -/
theorem C68_ftyp_panics (tiff : List Nat → R Unit) (n : Nat) :
    parseFile tiff (n + 1) (be 4 12 ++ be 4 (four 'f' 't' 'y' 'p') ++ be 8 0) = some panic' := by
  have hl : (be 4 12 ++ be 4 (four 'f' 't' 'y' 'p') ++ be 8 0).length = 16 := by decide
  have h1 : parseHdr (be 4 12 ++ be 4 (four 'f' 't' 'y' 'p') ++ be 8 0) 0 = .ok (⟨12, 0x66747970, none, 0, 8⟩, 8) := by decide
  have h2 : act .file ⟨12, 0x66747970, none, 0, 8⟩ = .read .ftyp := by decide
  have h3 : fields (be 4 12 ++ be 4 (four 'f' 't' 'y' 'p') ++ be 8 0) .ftyp ⟨12, 0x66747970, none, 0, 8⟩ 8 = panic' := by decide
  rw [parseFile, hl, scan, if_pos (by omega)]
  simp only [h1, h2]
  rw [if_neg (by rintro ⟨h, -⟩; cases h)]
  unfold readWith
  simp only [h3]

/-- `exFile` with a foreign `uuid` box in front of the track. -/
def foreignFile : List Tree :=
  [exFtyp, .mk .moov (four 'm' 'o' 'o' 'v') none false .opaque
    [exMvhd, .mk .vendor (four 'u' 'u' 'i' 'd') (some 7) false .opaque [] [255, 255, 255, 255, 0, 0, 0, 0], exTrak] [], exMdat]

/-- **C68 fails for foreign `uuid` boxes in the movie box.** The box is not skipped: its payload is read as boxes. In this
file, well-formed but for the foreign box, the track behind it is lost without an error. -/
theorem C68_foreign_uuid :
    (tracks foreignFile).length = 1 ∧
    ((parseFile (fun _ => .ok ()) 2000 (bytesAll foreignFile)).map fun r => r.map fun fb => (traks fb).length) = some (.ok 0) ∧
    (match foreignFile with
      | [a, .mk k t u w c [x, _, y] tl, d] => GoodFile (fun _ => True) [a, .mk k t u w c [x, y] tl, d]
      | _ => False) := by
  refine ⟨by decide +kernel, by decide +kernel, ?_⟩
  show GoodFile _ [exFtyp, .mk .moov (four 'm' 'o' 'o' 'v') none false .opaque [exMvhd, exTrak] [], exMdat]
  decide +kernel

/-- **C68 fails for `ftyp` boxes with a 64 bit size.** Two words behind the box are taken for brands: here the file says it is
compatible with `mdat`. -/
theorem C68_wide_ftyp :
    ((parseFile (fun _ => .ok ()) 2000 (bytesAll
      [.mk .ftyp (four 'f' 't' 'y' 'p') none true (.ftyp 1 2 [3]) [] [], exMdat,
       .mk .moov (four 'm' 'o' 'o' 'v') none false .opaque [exMvhd] []])).map fun r => r.map fun fb =>
        compatibleBrand fb (four 'm' 'd' 'a' 't')) = some (.ok true) := by decide +kernel

/-- **C68 fails for data boxes that extend to the end of the file** (size 0, allowed for the last box): an error. -/
theorem C68_open_mdat :
    parseFile (fun _ => .ok ()) 2000 (bytesAll
      [exFtyp, .mk .moov (four 'm' 'o' 'o' 'v') none false .opaque [exMvhd] []]
      ++ be 4 0 ++ be 4 (four 'm' 'd' 'a' 't') ++ [1, 2, 3]) matches some (.error .fail) := by decide +kernel

end Verif.Props
