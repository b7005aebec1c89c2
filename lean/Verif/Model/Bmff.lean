import Verif.Base
/-!
# The box container of CR3 and CRM files (ISO base media file format)

Models `rawler/src/formats/bmff/` and the lookups of `rawler/src/decoders/cr3.rs` into the parsed container.

The reader of the code is a `Cursor` over the whole file: here the file is the list `buf` and every function takes and
returns a position in it. `seek` beyond the end is allowed, reading there is an `Err`. Every box reader of the code has
the same shape (fixed fields, then for containers a `while current < header.end_offset()` loop over children, then a
seek to `header.end_offset()` and a check that the required children were found); it is modelled by one function driven
by the tables `known`, `act`, `fields` and `required`, one row per box reader. A parsed container keeps its children in
reading order; the slot of the code's struct (`Option<XBox>` overwritten at each occurrence) is the last child of that kind.

Not modelled: running out of memory (`Vec::with_capacity(entry_count)`, `vec![0; data_len]` with a large count in the
file), the text conversions (`String::from_utf8_lossy`), and the TIFF reader called on the CMT boxes, which is the
parameter `tiff` (C19 to C22 and C40 are about it).
-/

namespace Verif.Bmff

/-- The box readers of `formats/bmff` and `formats/bmff/ext_cr3`; `file` is the file level of `FileBox::parse`
(mod.rs:139-200) and `vendor` is `VendorBox` (vendor.rs), the reader of every box of unknown type. -/
inductive Kind where
  | file | ftyp | moov | mdat | vendor | xpacket | mvhd | trak | cr3desc | tkhd | mdia | mdhd | hdlr | minf | vmhd
  | dinf | stbl | stsd | stts | stsc | stsz | co64 | craw | ctmd | jpeg | hevc | cmp1 | cdi1 | iad1 | free | skip
  | cncv | cctp | ctbo | cmt1 | cmt2 | cmt3 | cmt4 | cnop | thmb | ccdt
  deriving DecidableEq, Repr, Inhabited

/-- `struct BoxHeader`, mod.rs:57-67. FourCC codes and UUIDs are big-endian numbers. -/
structure Hdr where
  size : Nat
  typ : Nat
  uuid : Option Nat
  offset : Nat
  headerLen : Nat
  deriving DecidableEq, Repr, Inhabited

/-- A parsed box: header, reader that read it, the numbers it stored (in the order of the struct's fields) and, for
containers, the child boxes in reading order. -/
inductive PBox where
  | mk (hdr : Hdr) (kind : Kind) (vals : List Nat) (kids : List PBox)
  deriving Repr, Inhabited

def PBox.hdr : PBox → Hdr | .mk h _ _ _ => h
def PBox.kind : PBox → Kind | .mk _ k _ _ => k
def PBox.vals : PBox → List Nat | .mk _ _ v _ => v
def PBox.kids : PBox → List PBox | .mk _ _ _ ks => ks

/-- Big-endian value of a byte string (`u32::from_be_bytes` and the like). -/
def beNum (l : List Nat) : Nat := l.foldl (fun a b => a * 256 + b) 0

/-- `reader.read_uN::<BigEndian>()` / `read_exact` of an `n` byte array: `Err` when fewer than `n` bytes are left. -/
def rd (buf : List Nat) (pos n : Nat) : R (Nat × Nat) :=
  if n ≤ buf.length - pos then .ok (beNum ((buf.drop pos).take n), pos + n) else fail'

/-- Several reads in a row, with the given widths in bytes. -/
def rds (buf : List Nat) : List Nat → Nat → R (List Nat × Nat)
  | [], p => .ok ([], p)
  | w :: ws, p => do
    let (v, p) ← rd buf p w
    let (vs, p) ← rds buf ws p
    .ok (v :: vs, p)

/-- The FourCC `uuid`, mod.rs:49. -/
def uuidTyp : Nat := 0x75756964

/-- `BoxHeader::parse`, mod.rs:70-92; also returns the position after the header. -/
def parseHdr (buf : List Nat) (pos : Nat) : R (Hdr × Nat) := do
  let (size, p) ← rd buf pos 4
  let (typ, p) ← rd buf p 4
  let (size, p) ← if size = 1 then rd buf p 8 else .ok (size, p)
  let (uuid, p) ← if typ = uuidTyp then do
      let (u, p) ← rd buf p 16
      .ok (some u, p)
    else .ok (none, p)
  .ok (⟨size, typ, uuid, pos, p - pos⟩, p)

/-- `BoxHeader::end_offset`, mod.rs:94-96: 64 bit addition. -/
def endOff (h : Hdr) : R Nat := if h.offset + h.size < 2 ^ 64 then .ok (h.offset + h.size) else panic'

/-- `Cr3DescBox::UUID`, ext_cr3/cr3desc.rs. -/
def cr3Uuid : Nat := 0x85c0b687820f11e08111f4ce462b6a48
/-- `Cr3XpacketBox::UUID`, ext_cr3/cr3xpacket.rs. -/
def xpUuid : Nat := 0xbe7acfcb97a942e89c71999491e3afac

/-- The `XBox::TYP => …` arms of the container readers: mod.rs:156-168 (file), moov.rs:47-55, trak.rs:41-47,
mdia.rs:40-50, minf.rs:42-51, stbl.rs:72-88, stsd.rs:49-57, craw.rs:84-99, cdi1.rs:37-41, cctp.rs:43-48,
cr3desc.rs:56-90. -/
def known : Kind → List (Nat × Kind)
  | .file => [(0x66747970, .ftyp), (0x6d6f6f76, .moov), (0x6d646174, .mdat)]
  | .moov => [(0x6d766864, .mvhd), (0x7472616b, .trak)]
  | .trak => [(0x746b6864, .tkhd), (0x6d646961, .mdia)]
  | .mdia => [(0x6d646864, .mdhd), (0x68646c72, .hdlr), (0x6d696e66, .minf)]
  | .minf => [(0x766d6864, .vmhd), (0x64696e66, .dinf), (0x7374626c, .stbl)]
  | .stbl => [(0x73747364, .stsd), (0x73747473, .stts), (0x73747363, .stsc), (0x7374737a, .stsz), (0x636f3634, .co64)]
  | .stsd => [(0x43524157, .craw), (0x43544d44, .ctmd)]
  | .craw => [(0x4a504547, .jpeg), (0x48455643, .hevc), (0x434d5031, .cmp1), (0x43444931, .cdi1), (0x66726565, .free)]
  | .cdi1 => [(0x49414431, .iad1)]
  | .cctp => [(0x43434454, .ccdt)]
  | .cr3desc => [(0x434e4356, .cncv), (0x43435450, .cctp), (0x4354424f, .ctbo), (0x434d5431, .cmt1), (0x434d5432, .cmt2),
      (0x434d5433, .cmt3), (0x434d5434, .cmt4), (0x434e4f50, .cnop), (0x54484d42, .thmb), (0x736b6970, .skip),
      (0x66726565, .free)]
  | _ => []

/-- What a container does with a child: hand it to a reader, return `Err`, or nothing at all (the position stays behind
the child's header). -/
inductive Act where
  | read (k : Kind)
  | reject
  | over
  deriving DecidableEq, Repr

/-- The `match header.typ` of a container, including its `_` arm: mod.rs:169-184 (file), moov.rs:56-66 (moov: a `uuid`
box that is not the CR3 description is not read and not skipped), trak/mdia/minf/stbl/stsd (`VendorBox`),
craw.rs:100-103, cdi1.rs:42-45, cctp.rs:49-52, cr3desc.rs:91 (`Err`). -/
def act (c : Kind) (h : Hdr) : Act :=
  match (known c).lookup h.typ with
  | some k => .read k
  | none =>
    match c with
    | .file => if h.uuid = some xpUuid then .read .xpacket else .read .vendor
    | .moov =>
      match h.uuid with
      | some u => if u = cr3Uuid then .read .cr3desc else .over
      | none => .read .vendor
    | .trak | .mdia | .minf | .stbl | .stsd => .read .vendor
    | _ => .reject

/-- The readers with a child loop. -/
def container : Kind → Bool
  | .moov | .trak | .mdia | .minf | .stbl | .stsd | .craw | .cdi1 | .cctp | .cr3desc => true
  | _ => false

/-- The `ok_or_else(|| … "box not found")` checks: mod.rs:194-196, moov.rs:76, trak.rs:63-64, mdia.rs:65-67,
minf.rs:67-68, stbl.rs:103-106, cdi1.rs:57, cr3desc.rs:101-108. -/
def required : Kind → List Kind
  | .file => [.ftyp, .moov, .mdat]
  | .moov => [.mvhd]
  | .trak => [.tkhd, .mdia]
  | .mdia => [.mdhd, .hdlr, .minf]
  | .minf => [.dinf, .stbl]
  | .stbl => [.stsd, .stts, .stsc, .stsz]
  | .cdi1 => [.iad1]
  | .cr3desc => [.cncv, .cctp, .ctbo, .cmt1, .cmt2, .cmt3, .cmt4, .thmb]
  | _ => []

/-- 32 bit arithmetic result of a checked build. -/
def chkU32 (n : Nat) : R Nat := if n < 2 ^ 32 then .ok n else panic'

/-- `struct StscEntry`, stsc.rs:18-24. -/
structure Run where
  firstChunk : Nat
  perChunk : Nat
  descIdx : Nat
  firstSample : Nat
  deriving DecidableEq, Repr, Inhabited

/-- The loop of `StscBox::read_box`, stsc.rs:61-67: `n` more entries after `hold`. The first sample of an entry is
computed from the entry held back as the code does (`entry.first_chunk - holdback.first_sample`). -/
def stscLoop (buf : List Nat) : Nat → Run → Nat → R (List Run × Nat)
  | 0, hold, p => .ok ([hold], p)
  | n + 1, hold, p => do
    let (fc, p) ← rd buf p 4
    let (spc, p) ← rd buf p 4
    let (di, p) ← rd buf p 4
    let d ← usub fc hold.firstSample
    let m ← chkU32 (d * hold.perChunk)
    let f ← chkU32 (hold.firstSample + m)
    let (es, p) ← stscLoop buf n ⟨fc, spc, di, f⟩ p
    .ok (hold :: es, p)

/-- The entries of an stsc box, stsc.rs:44-71. -/
def stscEntries (buf : List Nat) (n p : Nat) : R (List Run × Nat) :=
  match n with
  | 0 => .ok ([], p)
  | n + 1 => do
    let (fc, p) ← rd buf p 4
    let (spc, p) ← rd buf p 4
    let (di, p) ← rd buf p 4
    stscLoop buf n ⟨fc, spc, di, 1⟩ p

/-- The times of mvhd.rs:30-46 and mdhd.rs:29-45, after version and flags. -/
def times (buf : List Nat) (version p : Nat) : R (List Nat × Nat) :=
  if version = 1 then rds buf [8, 8, 4, 8] p
  else do
    assert' (version == 0)
    rds buf [4, 4, 4, 4] p

/-- The fields a box reader reads before its children (or before the final seek): values and position reached.
Byte arrays are given as one number; for `CMT1`…`CMT4` and `CNOP` the values are the bytes themselves.
ftyp.rs:24-35, mvhd.rs:29-47, tkhd.rs:22, mdhd.rs:28-48, hdlr.rs:22, vmhd.rs:32-39, stsd.rs:32-40, stts.rs:30-40,
stsc.rs:42-71, stsz.rs:34-47, co64.rs:25-32, ext_cr3: craw.rs:48-76, ctmd.rs:34-62, jpeg.rs:21, cmp1.rs:39-88,
cdi1.rs:26, iad1.rs:67-108, cncv.rs:20-21, cctp.rs:30-33, ccdt.rs:23-25, cmt1.rs:23-26, cnop.rs:20-23.
Simplification: `Cmp1Box::unknown1` is read as unsigned. -/
def fields (buf : List Nat) (k : Kind) (h : Hdr) (pos : Nat) : R (List Nat × Nat) :=
  match k with
  | .ftyp => do
    let (a, p) ← rds buf [4, 4] pos
    if h.size % 4 ≠ 0 then fail' else do
    let n ← usub h.size 16
    let (b, p) ← rds buf (List.replicate (n / 4) 4) p
    .ok (a ++ b, p)
  | .mvhd => do
    let (v, p) ← rd buf pos 1
    let (f, p) ← rd buf p 3
    let (t, p) ← times buf v p
    .ok (v :: f :: t, p)
  | .mdhd => do
    let (v, p) ← rd buf pos 1
    let (f, p) ← rd buf p 3
    let (t, p) ← times buf v p
    let (_, p) ← rd buf p 2
    .ok (v :: f :: t, p)
  | .tkhd | .hdlr | .jpeg | .cdi1 => rds buf [1, 3] pos
  | .vmhd => rds buf [1, 3, 2, 2, 2, 2] pos
  | .stsd => rds buf [1, 3, 4] pos
  | .stts => do
    let (v, p) ← rd buf pos 1
    let (f, p) ← rd buf p 3
    let (n, p) ← rd buf p 4
    let (es, p) ← rds buf (List.replicate n [4, 4]).flatten p
    .ok (v :: f :: es, p)
  | .stsc => do
    let (v, p) ← rd buf pos 1
    let (f, p) ← rd buf p 3
    let (n, p) ← rd buf p 4
    let (es, p) ← stscEntries buf n p
    .ok (v :: f :: es.flatMap (fun e => [e.firstChunk, e.perChunk, e.descIdx, e.firstSample]), p)
  | .stsz => do
    let (v, p) ← rd buf pos 1
    let (f, p) ← rd buf p 3
    let (s, p) ← rd buf p 4
    let (n, p) ← rd buf p 4
    if s = 0 then do
      let (es, p) ← rds buf (List.replicate n 4) p
      .ok (v :: f :: s :: n :: es, p)
    else .ok ([v, f, s, n, s], p)
  | .co64 => do
    let (v, p) ← rd buf pos 1
    let (f, p) ← rd buf p 3
    let (n, p) ← rd buf p 4
    let (es, p) ← rds buf (List.replicate n 8) p
    .ok (v :: f :: es, p)
  | .craw => rds buf [6, 2, 16, 2, 2, 2, 2, 2, 2, 4, 2, 32, 2, 2, 2, 2] pos
  | .ctmd => do
    let (a, p) ← rds buf [6, 2] pos
    let (n, p) ← rd buf p 4
    let (es, p) ← rds buf (List.replicate n [1, 1, 2, 4]).flatten p
    let e ← endOff h
    assert' (p == e)
    .ok (a ++ n :: es, p)
  | .cmp1 => do
    let (a, p) ← rds buf [2, 2, 2, 2, 4, 4, 4, 4] pos
    let (nBits, p) ← rd buf p 1
    let (pl, p) ← rd buf p 1
    let (et, p) ← rd buf p 1
    let (tl, p) ← rd buf p 1
    let (mh, p) ← rd buf p 4
    let (ext, p) ← rd buf p 4
    let (median, p) ←
      if ext / 2 ^ 31 % 2 ≠ 0 ∧ pl / 16 = 4 ∧ 56 ≤ h.size then do
        let (_, p) ← rds buf [4, 4, 4, 4, 4] p
        let (u, p) ← rd buf p 4
        if u / 2 ^ 30 % 2 ≠ 0 ∧ 84 < h.size then do
          let (_, p) ← rds buf [4, 4, 4, 4, 4, 4] p
          rd buf p 1
        else .ok (nBits, p)
      else .ok (nBits, p)
    .ok (a ++ [nBits, pl / 16, pl % 16, et / 16, et % 16, tl / 128, tl % 2, mh, ext, median], p)
  | .iad1 => do
    let (a, p) ← rds buf [1, 3, 2, 2, 2] pos
    let (ty, p) ← rd buf p 2
    let (b, p) ← rds buf [2, 2] p
    if ty = 0 then do
      let (c, p) ← rds buf (List.replicate 8 2) p
      .ok (a ++ ty :: b ++ c, p)
    else if ty = 2 then do
      let (c, p) ← rds buf (List.replicate 16 2) p
      .ok (a ++ ty :: b ++ c, p)
    else panic'
  | .cncv => rds buf [30] pos
  | .cctp => rds buf [1, 3, 4, 4] pos
  | .ccdt => rds buf [8, 4, 4] pos
  | .cmt1 | .cmt2 | .cmt3 | .cmt4 | .cnop => do
    let e ← endOff h
    let n ← usub e pos
    rds buf (List.replicate n 1) pos
  | _ => .ok ([], pos)

/-- The boxes whose data is handed to the TIFF reader, cmt1.rs:29 (and cmt2.rs, cmt3.rs, cmt4.rs). -/
def isCmt : Kind → Bool
  | .cmt1 | .cmt2 | .cmt3 | .cmt4 => true
  | _ => false

/-- Is a child of kind `k` among the boxes read so far? -/
def has (k : Kind) (bs : List PBox) : Bool := bs.any (fun b => b.kind = k)

/-- `XBox::read_box` of any kind; `loop c e q` is the child loop of a container of kind `c` that ends at `e`, started
at `q`. The position returned is the one after the final `seek(header.end_offset())`. `none`: the child loop has not
come to an end. -/
def readWith (buf : List Nat) (tiff : List Nat → R Unit) (loop : Kind → Nat → Nat → Option (R (List PBox × Nat)))
    (k : Kind) (h : Hdr) (p : Nat) : Option (R (PBox × Nat)) :=
  match fields buf k h p with
  | .error e => some (.error e)
  | .ok (vals, q) =>
    match endOff h with
    | .error e => some (.error e)
    | .ok e =>
      match (if container k then loop k e q else some (.ok ([], q))) with
      | none => none
      | some (.error x) => some (.error x)
      | some (.ok (kids, _)) =>
        if (required k).all (fun r => has r kids) then
          match (if isCmt k then tiff vals else .ok ()) with
          | .error x => some (.error x)
          | .ok () => some (.ok (.mk h k vals kids, e))
        else some fail'

/-- The child loop of a container (`while current < header.end_offset()`), and of the file (mod.rs:149-191: there the
loop ends at the file length and a box that does not move the position is an `Err`). `n` counts the iterations that may
still be made; `none` means that the loop was cut off there. In `stsd` a second `CRAW` or `CTMD` box is a failed
assertion (stsd.rs:51,55). -/
def scan (buf : List Nat) (tiff : List Nat → R Unit) : Nat → Kind → Nat → Nat → List PBox → Option (R (List PBox × Nat))
  | 0, _, _, _, _ => none
  | n + 1, c, stop, pos, acc =>
    if pos < stop then
      match parseHdr buf pos with
      | .error e => some (.error e)
      | .ok (h, p) =>
        match act c h with
        | .reject => some fail'
        | .over => scan buf tiff n c stop p acc
        | .read k =>
          if c = .stsd ∧ k ≠ .vendor ∧ has k acc then some panic'
          else
            match readWith buf tiff (fun c e q => scan buf tiff n c e q []) k h p with
            | none => none
            | some (.error e) => some (.error e)
            | some (.ok (b, q)) =>
              if c = .file ∧ q = pos then some fail' else scan buf tiff n c stop q (acc ++ [b])
    else some (.ok (acc, pos))

/-- `FileBox::parse` (mod.rs:139-200) with at most `n` iterations of nested loops: the boxes of the file level. -/
def parseFile (tiff : List Nat → R Unit) (n : Nat) (buf : List Nat) : Option (R (List PBox)) :=
  match scan buf tiff n .file buf.length 0 [] with
  | none => none
  | some (.error e) => some (.error e)
  | some (.ok (kids, _)) => if (required .file).all (fun r => has r kids) then some (.ok kids) else some fail'

/-! ## Lookups of the decoder -/

/-- The slot of a struct for a child kind: the last one read. -/
def slot (k : Kind) (bs : List PBox) : Option PBox := (bs.filter (fun b => b.kind = k)).getLast?

/-- `Bmff::compatible_brand`, mod.rs:324-326, on the FourCC. -/
def compatibleBrand (fb : List PBox) (brand : Nat) : Bool :=
  match slot .ftyp fb with
  | some b => (b.vals.drop 2).contains brand
  | none => false

/-- `filebox.moov.traks`, moov.rs:51-54. -/
def traks (fb : List PBox) : List PBox :=
  match slot .moov fb with
  | some m => m.kids.filter (fun b => b.kind = .trak)
  | none => []

/-- `Cr3Decoder::get_trak_index`, cr3.rs:593-602: the first CCDT record with that image type. -/
def trakIndex (fb : List PBox) (imageType : Nat) : R (Option Nat) :=
  match (slot .moov fb).bind (fun m => slot .cr3desc m.kids) with
  | none => .ok none
  | some d =>
    match slot .cctp d.kids with
    | none => .ok none
    | some cc =>
      match (cc.kids.filter (fun b => b.kind = .ccdt)).find? (fun b => b.vals.getD 0 0 = imageType) with
      | none => .ok none
      | some r => do
        let i ← usub (r.vals.getD 2 0) 1
        .ok (some i)

/-- `trak.mdia.minf.stbl`. -/
def stblOf (t : PBox) : Option PBox :=
  ((slot .mdia t.kids).bind fun b => slot .minf b.kids).bind fun b => slot .stbl b.kids

/-- `trak.mdia.minf.stbl.stsd.craw`. -/
def crawOf (t : PBox) : Option PBox :=
  ((stblOf t).bind fun b => slot .stsd b.kids).bind fun b => slot .craw b.kids

/-- `Cr3Decoder::cmp1_box`, cr3.rs:135-139 (index out of range panics). -/
def cmp1Box (fb : List PBox) (i : Nat) : R (Option PBox) := do
  let t ← idx (traks fb) i
  .ok ((crawOf t).bind fun b => slot .cmp1 b.kids)

/-- `Cr3Decoder::iad1_box`, cr3.rs:128-132. -/
def iad1Box (fb : List PBox) (i : Nat) : R (Option PBox) := do
  let t ← idx (traks fb) i
  .ok (((crawOf t).bind fun b => slot .cdi1 b.kids).bind fun b => slot .iad1 b.kids)

/-- The XMP packet of a CR3, cr3.rs:525-532: the part of the file covered by the box without its header. -/
def xpacket (buf : List Nat) (fb : List PBox) : R (Option (List Nat)) :=
  match slot .xpacket fb with
  | none => .ok none
  | some b => do
    let o := b.hdr.offset + b.hdr.headerLen
    let s ← usub b.hdr.size b.hdr.headerLen
    if o + s ≤ buf.length then .ok (some ((buf.drop o).take s)) else fail'

/-! ## Sample table -/

/-- `StszBox::sample_size`, stsz.rs:23-29. `sizes` is `sample_sizes`. -/
def sampleSize (uniform : Nat) (sizes : List Nat) (sample : Nat) : R Nat :=
  if uniform > 0 then .ok uniform else do
    let i ← usub sample 1
    idx sizes i

/-- `entries.binary_search_by(|e| e.first_sample.cmp(&sample))` of the standard library on an ordered list, as used in
stsc.rs:29-37: the entry with that first sample or, if there is none, the one before the insertion point. The
insertion point of an ordered list is the number of smaller keys. -/
def entryFor (es : List Run) (sample : Nat) : R Run := do
  assert' (decide (sample > 0))
  assert' (!es.isEmpty)
  let e0 ← idx es 0
  assert' (e0.firstSample == 1)
  match es.find? (fun e => e.firstSample = sample) with
  | some e => .ok e
  | none => do
    let i ← usub (es.filter (fun e => e.firstSample < sample)).length 1
    idx es i

/-- `StblBox::get_sample_offset`, stbl.rs:25-47. `co` is `co64.entries`. -/
def sampleOffset (es : List Run) (uniform : Nat) (sizes co : List Nat) (sample : Nat) : R (Nat × Nat) := do
  assert' (decide (sample > 0))
  let d ← entryFor es sample
  let a ← usub sample 1
  let b ← usub d.firstSample 1
  let k ← usub a b
  if d.perChunk = 0 then panic' else do
  let chunk ← chkU32 (d.firstChunk + k / d.perChunk)
  let within := (sample - d.firstSample) % d.perChunk
  let ci ← usub chunk 1
  let base ← idx co ci
  let off ← forN within (fun i acc => do
    let s ← usub sample within
    let z ← sampleSize uniform sizes (s + i)
    chkU32 (acc + z)) 0
  let z ← sampleSize uniform sizes sample
  if base + off < 2 ^ 64 then .ok (base + off, z) else panic'

/-- `StscBox::entries` out of the stored numbers. -/
def quads : List Nat → List Run
  | a :: b :: c :: d :: rest => ⟨a, b, c, d⟩ :: quads rest
  | _ => []

/-- Offset and size of a sample of a track, cr3.rs:279-285 (and 156-162): `moov_trak`, then
`stbl.get_sample_offset(sample_idx as u32 + 1)`; a missing track or co64 box is an `Err`. -/
def trackSample (fb : List PBox) (i sampleIdx : Nat) : R (Nat × Nat) :=
  match (traks fb)[i]? with
  | none => fail'
  | some t =>
    match stblOf t with
    | none => fail'
    | some b =>
      match slot .co64 b.kids with
      | none => fail'
      | some co =>
        match slot .stsc b.kids, slot .stsz b.kids with
        | some sc, some sz => do
          let s ← chkU32 (sampleIdx % 2 ^ 32 + 1)
          sampleOffset (quads (sc.vals.drop 2)) (sz.vals.getD 2 0) (sz.vals.drop 4) (co.vals.drop 2) s
        | _, _ => fail'

end Verif.Bmff
