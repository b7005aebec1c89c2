import Verif.Model.Bmff
/-!
# What a CR3 container is

Boxes as ISO/IEC 14496-12 lays them out: a 32 bit size that counts the whole box, a four letter type, a 64 bit size if
the first one is 1, sixteen more bytes if the type is `uuid`, then the contents. `Kind` and `PBox` (the vocabulary of
box kinds and of read boxes) are shared with the model; the codes, the layouts and the nesting below are not.
-/

namespace Verif.BmffSpec
open Verif.Bmff (Kind Hdr PBox)

/-- `n` bytes, most significant first. -/
def be : Nat → Nat → List Nat
  | 0, _ => []
  | n + 1, v => v / 256 ^ n % 256 :: be n v

/-- Numbers one after another, each with its width in bytes. -/
def beAll (l : List (Nat × Nat)) : List Nat := l.flatMap (fun x => be x.1 x.2)

/-- Every number fits its width. -/
def Fit (l : List (Nat × Nat)) : Prop := ∀ x ∈ l, x.2 < 256 ^ x.1

/-- The four letters of a box type. -/
def four (a b c d : Char) : Nat := ((a.toNat * 256 + b.toNat) * 256 + c.toNat) * 256 + d.toNat

/-- Type of the boxes with a fixed one. -/
def code : Kind → Nat
  | .ftyp => four 'f' 't' 'y' 'p' | .moov => four 'm' 'o' 'o' 'v' | .mdat => four 'm' 'd' 'a' 't'
  | .mvhd => four 'm' 'v' 'h' 'd' | .trak => four 't' 'r' 'a' 'k' | .tkhd => four 't' 'k' 'h' 'd'
  | .mdia => four 'm' 'd' 'i' 'a' | .mdhd => four 'm' 'd' 'h' 'd' | .hdlr => four 'h' 'd' 'l' 'r'
  | .minf => four 'm' 'i' 'n' 'f' | .vmhd => four 'v' 'm' 'h' 'd' | .dinf => four 'd' 'i' 'n' 'f'
  | .stbl => four 's' 't' 'b' 'l' | .stsd => four 's' 't' 's' 'd' | .stts => four 's' 't' 't' 's'
  | .stsc => four 's' 't' 's' 'c' | .stsz => four 's' 't' 's' 'z' | .co64 => four 'c' 'o' '6' '4'
  | .craw => four 'C' 'R' 'A' 'W' | .ctmd => four 'C' 'T' 'M' 'D' | .jpeg => four 'J' 'P' 'E' 'G'
  | .hevc => four 'H' 'E' 'V' 'C' | .cmp1 => four 'C' 'M' 'P' '1' | .cdi1 => four 'C' 'D' 'I' '1'
  | .iad1 => four 'I' 'A' 'D' '1' | .free => four 'f' 'r' 'e' 'e' | .skip => four 's' 'k' 'i' 'p'
  | .cncv => four 'C' 'N' 'C' 'V' | .cctp => four 'C' 'C' 'T' 'P' | .ctbo => four 'C' 'T' 'B' 'O'
  | .cmt1 => four 'C' 'M' 'T' '1' | .cmt2 => four 'C' 'M' 'T' '2' | .cmt3 => four 'C' 'M' 'T' '3'
  | .cmt4 => four 'C' 'M' 'T' '4' | .cnop => four 'C' 'N' 'O' 'P' | .thmb => four 'T' 'H' 'M' 'B'
  | .ccdt => four 'C' 'C' 'D' 'T'
  | .file => 0 | .vendor => 0
  | .xpacket => four 'u' 'u' 'i' 'd' | .cr3desc => four 'u' 'u' 'i' 'd'

/-- UUID be7acfcb-97a9-42e8-9c71-999491e3afac, the XMP packet. -/
def xmpId : Nat := 0xbe7acfcb97a942e89c71999491e3afac
/-- UUID 85c0b687-820f-11e0-8111-f4ce462b6a48, Canon's description of the file. -/
def canonId : Nat := 0x85c0b687820f11e08111f4ce462b6a48

/-- What the boxes of this file format contain, in front of child boxes. -/
inductive Content where
  /-- nothing that is read -/
  | opaque
  /-- numbers of fixed widths: (width in bytes, value) -/
  | plain (l : List (Nat × Nat))
  | ftyp (major minor : Nat) (brands : List Nat)
  /-- movie or media header; `language` for the latter -/
  | times (flags creation modification timescale duration : Nat) (wide : Bool) (language : Option Nat)
  /-- time to sample: (count, delta) -/
  | stts (version flags : Nat) (runs : List (Nat × Nat))
  /-- sample to chunk: (first chunk, samples per chunk, description) -/
  | stsc (version flags : Nat) (runs : List (Nat × Nat × Nat))
  /-- all samples have one size -/
  | sizeOne (version flags size count : Nat)
  /-- sample sizes -/
  | sizes (version flags : Nat) (l : List Nat)
  | co64 (version flags : Nat) (offsets : List Nat)
  /-- record list of a metadata track: (a, b, type, size) -/
  | ctmd (reserved dataRef : Nat) (recs : List (Nat × Nat × Nat × Nat))
  /-- image coding parameters. `movie`: the extended header (five words, flag word, then, if its bit 30 is set, six
  words and the median precision) -/
  | cmp1 (unknown headerSize version sub width height tileW tileH nBits planes layout enc levels : Nat) (tc tr : Nat)
      (hdrSize ext : Nat) (movie : Option (List Nat × Nat × Option (List Nat × Nat)))
  /-- image area: version, flags, width, height, unknown, (type), two unknown, then 8 (type 0) or 16 (type 2) margins -/
  | iad1 (version flags width height u1 : Nat) (big : Bool) (u2 u3 : Nat) (margins : List Nat)
  /-- plain bytes -/
  | data (bytes : List Nat)

/-- Six words and the median precision. -/
def medianNums : Option (List Nat × Nat) → List (Nat × Nat)
  | none => []
  | some (b, m) => b.map (fun x => (4, x)) ++ [(1, m)]

/-- The extended header of the image coding parameters. -/
def movieNums : Option (List Nat × Nat × Option (List Nat × Nat)) → List (Nat × Nat)
  | none => []
  | some (a, flag, med) => a.map (fun x => (4, x)) ++ (4, flag) :: medianNums med

/-- The language code of a media header. -/
def langNums : Option Nat → List (Nat × Nat)
  | some l => [(2, l)]
  | none => []

/-- The numbers of a content with their widths, in file order. -/
def Content.nums : Content → List (Nat × Nat)
  | .opaque => []
  | .plain l => l
  | .ftyp a b brands => (4, a) :: (4, b) :: brands.map (fun x => (4, x))
  | .times f c m t d wide lang =>
    (1, if wide then 1 else 0) :: (3, f) ::
      ((if wide then [(8, c), (8, m), (4, t), (8, d)] else [(4, c), (4, m), (4, t), (4, d)]) ++ langNums lang)
  | .stts v f runs => (1, v) :: (3, f) :: (4, runs.length) :: runs.flatMap (fun r => [(4, r.1), (4, r.2)])
  | .stsc v f runs => (1, v) :: (3, f) :: (4, runs.length) :: runs.flatMap (fun r => [(4, r.1), (4, r.2.1), (4, r.2.2)])
  | .sizeOne v f s n => [(1, v), (3, f), (4, s), (4, n)]
  | .sizes v f l => (1, v) :: (3, f) :: (4, 0) :: (4, l.length) :: l.map (fun x => (4, x))
  | .co64 v f l => (1, v) :: (3, f) :: (4, l.length) :: l.map (fun x => (8, x))
  | .ctmd r d recs => (6, r) :: (2, d) :: (4, recs.length) ::
      recs.flatMap (fun x => [(1, x.1), (1, x.2.1), (2, x.2.2.1), (4, x.2.2.2)])
  | .cmp1 u hs v s w h tw th nb pl la en le tc tr hd ex movie =>
    [(2, u), (2, hs), (2, v), (2, s), (4, w), (4, h), (4, tw), (4, th), (1, nb), (1, pl * 16 + la), (1, en * 16 + le),
      (1, tc * 128 + tr), (4, hd), (4, ex)] ++
    movieNums movie
  | .iad1 v f w h u1 big u2 u3 ms =>
    [(1, v), (3, f), (2, w), (2, h), (2, u1), (2, if big then 2 else 0), (2, u2), (2, u3)] ++ ms.map (fun x => (2, x))
  | .data bs => bs.map (fun x => (1, x))

/-- A sample-to-chunk table with the number of the first sample of every run: a run of chunks `c, …, c' - 1` with `n`
samples each takes `(c' - c) * n` numbers. -/
def numbered : Nat → List (Nat × Nat × Nat) → List (Nat × Nat × Nat × Nat)
  | _, [] => []
  | f, [(c, n, d)] => [(c, n, d, f)]
  | f, (c, n, d) :: (c', n', d') :: rest => (c, n, d, f) :: numbered (f + (c' - c) * n) ((c', n', d') :: rest)

/-- Chunk numbers go up and the sample numbers stay below 2^32. -/
def Rising : Nat → List (Nat × Nat × Nat) → Prop
  | _, [] => True
  | _, [_] => True
  | f, (c, n, _) :: (c', n', d') :: rest =>
    c < c' ∧ f + (c' - c) * n < 2 ^ 32 ∧ Rising (f + (c' - c) * n) ((c', n', d') :: rest)

/-- A sample-to-chunk table the reader gets right: chunk numbers start at 1 and go up, and all runs but the last two
have one sample per chunk (see C69 for what happens otherwise). -/
def RunsOk (runs : List (Nat × Nat × Nat)) : Prop :=
  (∀ r ∈ runs.head?, r.1 = 1) ∧ Rising 1 runs ∧ ∀ r ∈ runs.dropLast.dropLast, r.2.1 = 1

/-- The numbers the reader must report for a content. -/
def Content.vals : Content → List Nat
  | .opaque => []
  | .plain l => l.map (·.2)
  | .ftyp a b brands => a :: b :: brands
  | .times f c m t d wide _ => [if wide then 1 else 0, f, c, m, t, d]
  | .stts v f runs => v :: f :: runs.flatMap (fun r => [r.1, r.2])
  | .stsc v f runs => v :: f :: (numbered 1 runs).flatMap (fun r => [r.1, r.2.1, r.2.2.1, r.2.2.2])
  | .sizeOne v f s n => [v, f, s, n, s]
  | .sizes v f l => v :: f :: 0 :: l.length :: l
  | .co64 v f l => v :: f :: l
  | .ctmd r d recs => r :: d :: recs.length :: recs.flatMap (fun x => [x.1, x.2.1, x.2.2.1, x.2.2.2])
  | .cmp1 u hs v s w h tw th nb pl la en le tc tr hd ex movie =>
    [u, hs, v, s, w, h, tw, th, nb, pl, la, en, le, tc, tr, hd, ex,
      match movie with
      | some (_, _, some (_, m)) => m
      | _ => nb]
  | .iad1 v f w h u1 big u2 u3 ms => [v, f, w, h, u1, if big then 2 else 0, u2, u3] ++ ms
  | .data bs => bs

/-- Widths of the plain contents. -/
def widths : Kind → Option (List Nat)
  | .tkhd | .hdlr | .jpeg | .cdi1 => some [1, 3]
  | .vmhd => some [1, 3, 2, 2, 2, 2]
  | .stsd => some [1, 3, 4]
  | .craw => some [6, 2, 16, 2, 2, 2, 2, 2, 2, 4, 2, 32, 2, 2, 2, 2]
  | .cncv => some [30]
  | .cctp => some [1, 3, 4, 4]
  | .ccdt => some [8, 4, 4]
  | _ => none

/-- A box: kind, type, UUID (of `uuid` boxes), whether its size is written with 64 bits, contents, child boxes and
bytes after them. -/
inductive Tree where
  | mk (kind : Kind) (typ : Nat) (uuid : Option Nat) (wide : Bool) (content : Content) (kids : List Tree)
      (tail : List Nat)

def Tree.kind : Tree → Kind | .mk k _ _ _ _ _ _ => k

/-- Length of a box header. -/
def headLen (uuid : Option Nat) (wide : Bool) : Nat := 8 + (if wide then 8 else 0) + (if uuid.isSome then 16 else 0)

/-- Bytes of a box header for a box of `total` bytes. -/
def headBytes (typ : Nat) (uuid : Option Nat) (wide : Bool) (total : Nat) : List Nat :=
  be 4 (if wide then 1 else total) ++ be 4 typ ++ (if wide then be 8 total else [])
    ++ (match uuid with | some u => be 16 u | none => [])

mutual
/-- The bytes of a box. -/
def Tree.bytes : Tree → List Nat
  | .mk _ typ uuid wide content kids tail =>
    let body := beAll content.nums ++ (bytesAll kids ++ tail)
    headBytes typ uuid wide (headLen uuid wide + body.length) ++ body
/-- The bytes of boxes in a row. -/
def bytesAll : List Tree → List Nat
  | [] => []
  | t :: ts => t.bytes ++ bytesAll ts
end

mutual
/-- What must be read of a box that stands at offset `off`. -/
def Tree.seen (off : Nat) : Tree → PBox
  | .mk k typ uuid wide content kids tail =>
    .mk ⟨(Tree.mk k typ uuid wide content kids tail).bytes.length, typ, uuid, off, headLen uuid wide⟩ k content.vals
      (seenAll (off + headLen uuid wide + (beAll content.nums).length) kids)
/-- What must be read of boxes in a row, the first of which stands at `off`. -/
def seenAll (off : Nat) : List Tree → List PBox
  | [] => []
  | t :: ts => t.seen off :: seenAll (off + t.bytes.length) ts
end

/-- Which boxes stand in which. -/
def inside : Kind → List Kind
  | .file => [.ftyp, .moov, .mdat]
  | .moov => [.mvhd, .trak]
  | .trak => [.tkhd, .mdia]
  | .mdia => [.mdhd, .hdlr, .minf]
  | .minf => [.vmhd, .dinf, .stbl]
  | .stbl => [.stsd, .stts, .stsc, .stsz, .co64]
  | .stsd => [.craw, .ctmd]
  | .craw => [.jpeg, .hevc, .cmp1, .cdi1, .free]
  | .cdi1 => [.iad1]
  | .cctp => [.ccdt]
  | .cr3desc => [.cncv, .cctp, .ctbo, .cmt1, .cmt2, .cmt3, .cmt4, .cnop, .thmb, .skip, .free]
  | _ => []

/-- Boxes that must be there. -/
def needed : Kind → List Kind
  | .file => [.ftyp, .moov, .mdat]
  | .moov => [.mvhd]
  | .trak => [.tkhd, .mdia]
  | .mdia => [.mdhd, .hdlr, .minf]
  | .minf => [.dinf, .stbl]
  | .stbl => [.stsd, .stts, .stsc, .stsz]
  | .cdi1 => [.iad1]
  | .cr3desc => [.cncv, .cctp, .ctbo, .cmt1, .cmt2, .cmt3, .cmt4, .thmb]
  | _ => []

/-- Where boxes of unknown type may stand. -/
def openTo : Kind → Bool
  | .file | .moov | .trak | .mdia | .minf | .stbl | .stsd => true
  | _ => false

/-- The box may stand in a box of kind `c` (`file`: at file level), with that type and UUID. -/
def Place (c : Kind) : Tree → Prop
  | .mk k typ uuid _ _ _ _ =>
    typ < 2 ^ 32 ∧ (uuid.isSome ↔ typ = four 'u' 'u' 'i' 'd') ∧ (∀ u ∈ uuid, u < 2 ^ 128) ∧
    match k with
    | .vendor => openTo c = true ∧ typ ∉ (inside c).map code ∧ (c = .file → uuid ≠ some xmpId) ∧ (c = .moov → uuid = none)
    | .xpacket => c = .file ∧ uuid = some xmpId
    | .cr3desc => c = .moov ∧ uuid = some canonId
    | k => k ∈ inside c ∧ typ = code k

/-- The contents suit the kind. `size` is the size of the whole box, `tail` what follows the contents. -/
def Suits (k : Kind) (uuid : Option Nat) (wide : Bool) (size : Nat) (tail : List Nat) : Content → Prop
  | .opaque => k ∈ [.mdat, .vendor, .xpacket, .moov, .trak, .mdia, .minf, .stbl, .cr3desc, .dinf, .hevc, .free, .skip,
      .ctbo, .thmb]
  | .plain l => widths k = some (l.map (·.1))
  | .ftyp _ _ _ => k = .ftyp ∧ wide = false ∧ uuid = none ∧ tail = []
  | .times _ _ _ _ _ _ lang => (k = .mvhd ∧ lang = none) ∨ (k = .mdhd ∧ lang.isSome)
  | .stts _ _ _ => k = .stts
  | .stsc _ _ runs => k = .stsc ∧ RunsOk runs
  | .sizeOne _ _ s _ => k = .stsz ∧ s ≠ 0
  | .sizes _ _ _ => k = .stsz
  | .co64 _ _ _ => k = .co64
  | .ctmd _ _ _ => k = .ctmd ∧ tail = []
  | .cmp1 _ _ _ _ _ _ _ _ _ pl la en le tc tr _ ex movie =>
    k = .cmp1 ∧ pl < 16 ∧ la < 16 ∧ en < 16 ∧ le < 16 ∧ tc < 2 ∧ tr < 2 ∧
    match movie with
    | none => ¬ (ex.testBit 31 = true ∧ pl = 4 ∧ 56 ≤ size)
    | some (a, flag, med) => ex.testBit 31 = true ∧ pl = 4 ∧ 56 ≤ size ∧ a.length = 5 ∧
      match med with
      | none => ¬ (flag.testBit 30 = true ∧ 84 < size)
      | some (b, _) => flag.testBit 30 = true ∧ 84 < size ∧ b.length = 6
  | .iad1 _ _ _ _ _ big _ _ ms => k = .iad1 ∧ ms.length = if big then 16 else 8
  | .data _ => k ∈ [.cmt1, .cmt2, .cmt3, .cmt4, .cnop] ∧ tail = []

/-- Kinds that have child boxes. -/
def parent : Kind → Bool
  | .moov | .trak | .mdia | .minf | .stbl | .stsd | .craw | .cdi1 | .cctp | .cr3desc => true
  | _ => false

/-- At most one image and one metadata description in a sample description box. -/
def Single (k : Kind) (kids : List Tree) : Prop :=
  k = .stsd → ∀ j, j = .craw ∨ j = .ctmd → (kids.filter (fun t => t.kind = j)).length ≤ 1

mutual
/-- A well-formed box in a box of kind `c`. `tiff` accepts the bytes of the CMT boxes. -/
def Good (tiff : List Nat → Prop) (c : Kind) : Tree → Prop
  | .mk k typ uuid wide content kids tail =>
    Place c (.mk k typ uuid wide content kids tail) ∧
    Suits k uuid wide (Tree.mk k typ uuid wide content kids tail).bytes.length tail content ∧
    Fit content.nums ∧
    (if parent k then tail = [] else kids = []) ∧
    (∀ r ∈ needed k, ∃ t ∈ kids, t.kind = r) ∧
    Single k kids ∧
    (k ∈ [.cmt1, .cmt2, .cmt3, .cmt4] → tiff content.vals) ∧
    (wide = false → (Tree.mk k typ uuid wide content kids tail).bytes.length < 2 ^ 32) ∧
    GoodAll tiff k kids
/-- Well-formed boxes in a row. -/
def GoodAll (tiff : List Nat → Prop) (c : Kind) : List Tree → Prop
  | [] => True
  | t :: ts => Good tiff c t ∧ GoodAll tiff c ts
end

/-- A well-formed file. -/
def GoodFile (tiff : List Nat → Prop) (ts : List Tree) : Prop :=
  GoodAll tiff .file ts ∧ (∀ r ∈ needed .file, ∃ t ∈ ts, t.kind = r) ∧ (bytesAll ts).length < 2 ^ 64

end Verif.BmffSpec
