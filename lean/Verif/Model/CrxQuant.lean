import Verif.Model.CrxWavelet
import Verif.Model.CrxImage

/-!
# Model of the inverse quantization and of the band layout of wavelet compressed CR3 planes

`rawler/src/decompressors/crx/iquant.rs`, `mod.rs` (`process_subbands`), `mdat.rs` (`get_subband_row`, `setup_idx`) and `decoder.rs`
(`PlaneLineIter` with levels).
-/

namespace Verif.Crx

/-- iquant.rs:18-20 `Q_STEP_TBL` -/
def qStepTbl : List Nat := [0x28, 0x2d, 0x33, 0x39, 0x40, 0x48]

/-- The fields of mdat.rs:194-243 `Subband` that the inverse quantization uses -/
structure BandInfo where
  width : Nat
  height : Nat
  dataSize : Nat
  supportPartial : Bool
  /-- `q_param` (8 bits) -/
  qParam : Nat
  /-- `q_step_base` (`i32`) -/
  base : Int
  /-- `q_step_multi` (`u16`) -/
  multi : Nat
  rowStart : Nat
  rowEnd : Nat
  colStart : Nat
  colEnd : Nat
  /-- `level_shift` -/
  shift : Nat
  deriving DecidableEq, Repr

/-- iquant.rs:22-30 `QStep`; the height is only used in assertions about its own construction -/
structure QStep where
  tbl : List Nat
  width : Nat
  deriving DecidableEq, Repr

/-- mdat.rs:330-338 `get_subband_row`; line 334 subtracts `row_end_addon` -/
def subbandRow (b : BandInfo) (row : Nat) : R Nat :=
  if row < b.rowStart then .ok 0
  else do
    let e ← usub b.height b.rowEnd
    if row < e then usub row b.rowEnd
    else do
      let n ← usub e b.rowStart
      usub n 1

/-- iquant.rs:82, 89, 96, 111: `param.decoded_buf_mut()[i] *= f` -/
def mulAt (p : Band) (i : Nat) (f : Int) : R Band := do
  assert' (i < p.width)
  let v ← idx p.line1 (1 + i)
  let v ← i32 (v * f)
  let l ← upd p.line1 (1 + i) v
  .ok { p with line1 := l }

/-- iquant.rs:81-82, 87-89, 95-96: the factor for an entry of the table -/
def quantVal (b : BandInfo) (t : Nat) : R Int := do
  assert' (t * b.multi < 4294967296)
  let q ← i32 (b.base + ((t * b.multi) >>> 3 : Nat))
  .ok (constrain q 1 0x168000)

/-- iquant.rs:80-83, 85-90 and 94-97: `n` columns from column `a`; `col i` is the column of the table -/
def scaleCols (b : BandInfo) (tbl : List Nat) (col : Nat → R Nat) (a n : Nat) (p : Band) : R Band :=
  forN n (fun j p => do
    let c ← col (a + j)
    let t ← idx tbl c
    let q ← quantVal b t
    mulAt p (a + j) q) p

/-- iquant.rs:76-98: scale the line by the table of the tile -/
def scaleTable (b : BandInfo) (q : QStep) (p : Band) : R Band := do
  let cur ← usub p.curLine 1
  let row ← subbandRow b cur
  assert' (q.width * row ≤ q.tbl.length)
  let tbl := q.tbl.drop (q.width * row)
  let p ← scaleCols b tbl (fun _ => .ok 0) 0 b.colStart p
  let e ← usub b.width b.colEnd
  let p ← scaleCols b tbl (fun i => do
    let d ← usub i b.colStart
    .ok (d >>> b.shift)) b.colStart (e - b.colStart) p
  let n ← usub e b.colStart
  let n ← usub n 1
  scaleCols b tbl (fun _ => .ok (n >>> b.shift)) e (b.width - e) p

/-- iquant.rs:102-106. `1 << (q / 6 + 26)` overflows in the first branch, whatever `q` is. -/
def qScale (q : Nat) : R Nat :=
  if 6 ≤ q / 6 then panic'
  else do
    let t ← idx qStepTbl (q % 6)
    .ok (t >>> (6 - q / 6))

/-- iquant.rs:99-114: scale the line by the parameter of the band -/
def scaleParam (b : BandInfo) (p : Band) : R Band := do
  let s ← qScale b.qParam
  if s ≠ 1 then forN b.width (fun i p => mulAt p i s) p else .ok p

/-- iquant.rs:75-115 -/
def scaleLine (b : BandInfo) (q : Option QStep) (p : Band) : R Band :=
  match q with
  | some q => scaleTable b q p
  | none => scaleParam b p

/-- A band with what is known about it: the arguments `band`, `q_step`, `param` of iquant.rs:60 -/
abbrev Src := BandInfo × Option QStep × Band

/-- iquant.rs:60-117 `decode_line_with_iquantization`. `debug_assert_eq!(1, 2)` is a panic. -/
def nextLine (s : Src) : R (List Int × Src) :=
  if s.1.dataSize = 0 then .ok ([], s)
  else if s.1.supportPartial ∧ s.2.1 = none then panic'
  else do
    let p ← decodeLine s.2.2
    let p ← scaleLine s.1 s.2.1 p
    let l ← decodedBuf p
    .ok (l, (s.1, s.2.1, p))

/-! ## The table of quantization parameters of a tile -/

/-- rice.rs:58-71 `rice_decode(23, 8)` -/
def riceQp (k : Nat) (bits : List Bool) : R (Nat × List Bool) := do
  let (pre, bits) ← unary bits
  if 23 ≤ pre then getBits 8 bits
  else if 0 < k then do
    assert' (k < 32)
    let (low, bits) ← getBits k bits
    .ok ((pre <<< k) % 4294967296 ||| low, bits)
  else .ok (pre, bits)

/-- iquant.rs:124-130 `predict_qp_symbol` -/
def predictQp (left top dh dv : Int) : R Int :=
  if xor (decide (dv < 0)) (decide (dh < 0)) then
    if xor (decide (left < top)) (decide (dh < 0)) then .ok top else .ok left
  else i32 (left + dh)

/-- The state of iquant.rs:251-295: Golomb-Rice parameter, unread bits, `line_buf[0]`, `line_buf[1]` -/
structure QpState where
  k : Nat
  bits : List Bool
  line0 : List Int
  line1 : List Int
  deriving DecidableEq, Repr

/-- iquant.rs:260-265: column `j` (from 0) of the first row -/
def qpTop (j : Nat) (s : QpState) : R QpState := do
  let x ← idx s.line1 j
  let (c, bits) ← riceQp s.k s.bits
  let k ← predictK s.k c 7
  let v ← i32 (x + errSigned c)
  let l ← upd s.line1 (j + 1) v
  .ok { s with k, bits, line1 := l }

/-- iquant.rs:280-285: the next `delta_h` and the adapted parameter -/
def qpAdapt (last : Bool) (k c : Nat) (b d dh : Int) : R (Int × Nat) :=
  if !last then do
    let dh ← i32 (d - b)
    assert' (2 * dh.natAbs < 4294967296)
    assert' (c + 2 * dh.natAbs < 4294967296)
    let k ← predictK k ((c + 2 * dh.natAbs) >>> 1) 7
    .ok (dh, k)
  else do
    let k ← predictK k c 7
    .ok (dh, k)

/-- iquant.rs:272-287: column `j` of any other row; `n` is the number of columns, the first component of the state `delta_h` -/
def qpStep (n j : Nat) (s : Int × QpState) : R (Int × QpState) := do
  let a ← idx s.2.line1 j
  let b ← idx s.2.line0 (j + 1)
  let c ← idx s.2.line0 j
  let d ← idx s.2.line0 (j + 2)
  let dv ← i32 (c - a)
  let x ← predictQp a b s.1 dv
  let (q, bits) ← riceQp s.2.k s.2.bits
  let v ← i32 (x + errSigned q)
  let l ← upd s.2.line1 (j + 1) v
  let (dh, k) ← qpAdapt (decide (j + 1 = n)) s.2.k q b d s.1
  .ok (dh, { s.2 with k, bits, line1 := l })

/-- iquant.rs:266, 288: the sample behind the row -/
def qpClose (n : Nat) (s : QpState) : R QpState := do
  let a ← idx s.line1 n
  let v ← i32 (a + 1)
  let l ← upd s.line1 (n + 1) v
  .ok { s with line1 := l }

/-- iquant.rs:256-289: one row -/
def qpRow (n row : Nat) (s : QpState) : R QpState :=
  if row = 0 then do
    let l ← upd s.line1 0 0
    let s ← forN n qpTop { s with line1 := l }
    qpClose n s
  else do
    let b ← idx s.line0 1
    let l ← upd s.line1 0 b
    let c ← idx s.line0 0
    let dh ← i32 (b - c)
    let (_, s) ← forN n (qpStep n) (dh, { s with line1 := l })
    qpClose n s

/-- iquant.rs:291-293: the row as it goes to the table (the addition is on `i32`) -/
def qpOut (n : Nat) (s : QpState) : R (List Int) :=
  (List.range n).mapM fun c => do
    let v ← idx s.line1 (c + 1)
    i32 (v + 4)

/-- iquant.rs:255-295: the rows of the table from row `row` on -/
def qpRows (n : Nat) : Nat → Nat → QpState → R (List (List Int))
  | 0, _, _ => .ok []
  | m + 1, row, s => do
    let s ← qpRow n row s
    let out ← qpOut n s
    let rest ← qpRows n m (row + 1) { s with line0 := s.line1, line1 := s.line0 }
    .ok (out :: rest)

/-- iquant.rs:142-162 `q_lookup`: `/` on `i32` rounds to 0, `as usize` of a negative number adds `2^64`, `wrapping_shl` takes the count
modulo 32; `>>` by 32 or more panics. -/
def qLookup (v : Int) : R Nat :=
  if 6 ≤ v.tdiv 6 then do
    let t ← idx qStepTbl (v.toNat % 6)
    .ok ((t <<< ((v.toNat / 6 + 26) % 32)) % 4294967296)
  else do
    let t ← idx qStepTbl ((v % 18446744073709551616).toNat % 6)
    assert' ((6 - v.tdiv 6) < 32)
    .ok (t >>> (6 - v.tdiv 6).toNat)

/-- One entry of the table of quantization parameters: `qp_table[qp_width * row + col]`. The table is kept as a list of rows. -/
def qpAt (tbl : List (List Int)) (row col : Nat) : R Int := do
  let r ← idx tbl row
  idx r col

/-- iquant.rs:216-223: the table of level 1 -/
def qEntry1 (tbl : List (List Int)) (row col : Nat) : R Nat := do
  let v ← qpAt tbl row col
  qLookup v

/-- iquant.rs:197-208: the table of level 2; `h` is `qp_height` -/
def qEntry2 (tbl : List (List Int)) (h row col : Nat) : R Nat := do
  let a ← qpAt tbl (min (2 * row) (h - 1)) col
  let b ← qpAt tbl (min (2 * row + 1) (h - 1)) col
  let s ← i32 (a + b)
  qLookup (s.tdiv 2)

/-- iquant.rs:169-190: the table of level 3 -/
def qEntry3 (tbl : List (List Int)) (h row col : Nat) : R Nat := do
  let a ← qpAt tbl (min (4 * row) (h - 1)) col
  let b ← qpAt tbl (min (4 * row + 1) (h - 1)) col
  let c ← qpAt tbl (min (4 * row + 2) (h - 1)) col
  let d ← qpAt tbl (min (4 * row + 3) (h - 1)) col
  let s ← i32 (a + b)
  let s ← i32 (s + c)
  let s ← i32 (s + d)
  qLookup (if s < 0 then (s + 3).tdiv 4 else s.tdiv 4)

/-- iquant.rs:168-174, 196-200, 215-217: a table of `h` rows and `w` columns, row by row -/
def qTable (w h : Nat) (f : Nat → Nat → R Nat) : R QStep := do
  let rows ← (List.range h).mapM fun r => (List.range w).mapM fun c => f r c
  .ok { tbl := rows.flatten, width := w }

/-- iquant.rs:165-230: the table of a level -/
def qLevel (pw ph : Nat) (tbl : List (List Int)) (level : Nat) : R QStep :=
  if level = 3 then qTable ((pw + 7) / 8) ((ph + 7) / 8) (qEntry3 tbl ((ph + 1) / 2))
  else if level = 2 then qTable ((pw + 7) / 8) ((ph + 3) / 4) (qEntry2 tbl ((ph + 1) / 2))
  else if level = 1 then qTable ((pw + 7) / 8) ((ph + 1) / 2) (qEntry1 tbl)
  else fail'

/-- iquant.rs:133-233 `make_qstep`: one table per level, the lowest level of the transform first. `(x >> 3) + (x & 7 != 0)` is written
`(x + 7) / 8`, and so on. `debug_assert!(levels <= 3 && levels > 0)`. -/
def makeQstep (levels pw ph : Nat) (tbl : List (List Int)) : R (List QStep) := do
  assert' (levels ≤ 3 ∧ 0 < levels)
  (List.range levels).mapM fun i => qLevel pw ph tbl (levels - i)

/-- iquant.rs:235-307 `generate_qstep_table` for a tile with quantization data; `data` is the part of the tile that holds it -/
def qpTables (levels pw ph : Nat) (data : List Nat) : R (List QStep) := do
  let n := (pw + 7) / 8
  let tbl ← qpRows n ((ph + 1) / 2) 0
    { k := 0, bits := bytesMSB data, line0 := List.replicate (n + 2) 0, line1 := List.replicate (n + 2) 0 }
  makeQstep levels pw ph tbl

/-! ## The sizes of the bands -/

/-- mod.rs:46-59 `EX_COEF_NUM_TBL` -/
def exCoef : List Nat :=
  [1, 1, 0, 0, 0, 0, 1, 0, 0, 0, 0, 0, 1, 1, 0, 0, 0, 0, 1, 0, 0, 0, 0, 0,
   1, 1, 0, 0, 0, 0, 1, 0, 0, 0, 0, 0, 1, 1, 0, 0, 0, 0, 1, 0, 0, 0, 0, 0,
   1, 1, 1, 1, 0, 0, 1, 0, 1, 0, 0, 0, 1, 2, 2, 1, 0, 0, 1, 1, 1, 1, 0, 0,
   1, 1, 1, 1, 0, 0, 1, 0, 1, 0, 0, 0, 1, 2, 2, 1, 0, 0, 1, 1, 1, 1, 0, 0,
   1, 1, 1, 1, 1, 1, 1, 0, 1, 0, 1, 0, 1, 2, 2, 2, 2, 1, 1, 1, 1, 2, 2, 1,
   1, 1, 1, 2, 2, 1, 1, 0, 1, 1, 1, 1, 1, 2, 2, 1, 1, 1, 1, 1, 1, 1, 1, 1]

/-- mod.rs:276-316: sizes of the bands of one level: width of HL and HH, width of LH, height of LH and HH, height of HL; the extra
coefficients `w_ex_coef0`, `w_ex_coef1`, `h_ex_coef0`, `h_ex_coef1` -/
structure LevelSize where
  wHigh : Nat
  wLow : Nat
  hHigh : Nat
  hLow : Nat
  w0 : Nat
  w1 : Nat
  h0 : Nat
  h1 : Nat
  deriving DecidableEq, Repr

/-- mod.rs:266-267: an entry of the part of the table for a size; `size` is the width or height of the plane of the tile -/
def exAt (levels size i : Nat) : R Nat := idx exCoef (0x30 * (levels - 1) + 6 * (size % 8) + i)

/-- mod.rs:276-297, for one direction: the extra coefficients of the high and the low bands. `before`, `after`: there is a tile on that
side. -/
def exPair (before after : Bool) (levels size lev : Nat) : R (Nat × Nat) :=
  if after then do
    let e0 ← exAt levels size (2 * lev)
    let e1 ← exAt levels size (2 * lev + 1)
    .ok (e0 + before.toNat, e1)
  else .ok (before.toNat, 0)

/-- mod.rs:269-318: the levels from `lev` on, with what is left of width and height. `levels - lev` is the number of steps. -/
def levelSizes (f : Flags) (levels pw ph : Nat) : Nat → Nat → Nat → Nat → R (List LevelSize × Nat × Nat)
  | 0, _, bw, bh => .ok ([], bw, bh)
  | n + 1, lev, bw, bh => do
    let w := (bw % 2 + bw) >>> 1
    let h := (bh % 2 + bh) >>> 1
    let (w0, w1) ← exPair f.left f.right levels pw lev
    let (h0, h1) ← exPair f.top f.bottom levels ph lev
    let wHigh ← usub (w + w0) (bw % 2)
    let hHigh ← usub (h + h0) (bh % 2)
    let (ls, r) ← levelSizes f levels pw ph n (lev + 1) w h
    .ok (⟨wHigh, w + w1, hHigh, h + h1, w0, w1, h0, h1⟩ :: ls, r)

/-- mod.rs:319-326: extra coefficients of LL -/
def exLast (after : Bool) (levels size : Nat) : R Nat := if after then exAt levels size (2 * levels - 1) else .ok 0

/-- The sizes of the bands of all levels, highest level (the full image) first, and those of LL: width, height, extra coefficients -/
structure PlaneSize where
  levels : List LevelSize
  width : Nat
  height : Nat
  exW : Nat
  exH : Nat
  deriving DecidableEq, Repr

/-- mod.rs:259-336 `process_subbands` with levels -/
def subbandSizes (f : Flags) (levels pw ph : Nat) : R PlaneSize := do
  assert' (0x30 * (levels - 1) + 6 * (pw % 8) ≤ exCoef.length ∧ 0x30 * (levels - 1) + 6 * (ph % 8) ≤ exCoef.length)
  let (ls, bw, bh) ← levelSizes f levels pw ph levels 0 pw ph
  let ew ← exLast f.right levels pw
  let eh ← exLast f.bottom levels ph
  .ok ⟨ls, ew + bw, eh + bh, ew, eh⟩

/-! ## A plane with its bands -/

/-- The fields of mdat.rs:199-230 `Subband` that come from the header and are used by the decoder -/
structure BandHdr where
  dataSize : Nat
  supportPartial : Bool
  qParam : Nat
  base : Int
  multi : Nat
  deriving DecidableEq, Repr

/-- mdat.rs:340-363 `setup_idx` with mod.rs:307-317: what is known of a band. `level` counts from 1, the full image. -/
def bandInfo (version level : Nat) (w h colStart colEnd rowStart rowEnd : Nat) (b : BandHdr) : BandInfo :=
  { width := w, height := h, dataSize := b.dataSize, supportPartial := b.supportPartial, qParam := b.qParam, base := b.base, multi := b.multi,
    rowStart := if version = 0x200 then rowStart else 0, rowEnd := if version = 0x200 then rowEnd else 0,
    colStart := if version = 0x200 then colStart else 0, colEnd := if version = 0x200 then colEnd else 0,
    shift := if version = 0x200 then 3 - level else 0 }

/-- decoder.rs:49-73: a band with its data, the bytes of the band; `llPartial` and `mask` are only used for band 0 -/
def source (info : BandInfo) (q : Option QStep) (llPartial : Bool) (mask : Int) (bytes : List Nat) : Src :=
  (info, q, { newBand info.width info.height llPartial (bytesMSB bytes) with mask := if llPartial then mask else 0 })

/-- idwt.rs:130, 245: the table of a level, 0 the lowest -/
def levelTable (qs : Option (List QStep)) (level : Nat) : R (Option QStep) :=
  match qs with
  | none => .ok none
  | some l => do
    let q ← idx l level
    .ok (some q)

/-- mod.rs:306-317 and decoder.rs:49-73: the bands HL, LH, HH of level `lev` (0 the full image) -/
def levelSources (f : Flags) (version levels : Nat) (qs : Option (List QStep)) (bands : List (BandHdr × List Nat)) (lev : Nat) (s : LevelSize) :
    R (Src × Src × Src) := do
  let hl ← idx bands ((levels - lev) * 3 - 2)
  let lh ← idx bands ((levels - lev) * 3 - 1)
  let hh ← idx bands ((levels - lev) * 3)
  let q ← levelTable qs (levels - 1 - lev)
  .ok (source (bandInfo version (lev + 1) s.wHigh s.hLow f.left.toNat (s.w0 - f.left.toNat) 0 s.h1 hl.1) q false 0 hl.2,
    source (bandInfo version (lev + 1) s.wLow s.hHigh 0 s.w1 f.top.toNat (s.h0 - f.top.toNat) lh.1) q false 0 lh.2,
    source (bandInfo version (lev + 1) s.wHigh s.hHigh f.left.toNat (s.w0 - f.left.toNat) f.top.toNat (s.h0 - f.top.toNat) hh.1) q false 0 hh.2)

/-- The bands of the levels from `lev` on -/
def allSources (f : Flags) (version levels : Nat) (qs : Option (List QStep)) (bands : List (BandHdr × List Nat)) :
    Nat → List LevelSize → R (List (Src × Src × Src))
  | _, [] => .ok []
  | lev, s :: ls => do
    let a ← levelSources f version levels qs bands lev s
    let r ← allSources f version levels qs bands (lev + 1) ls
    .ok (a :: r)

/-- decoder.rs:79-85: heights and widths of the transforms, highest level first: that of the plane; for the others the height of HL and
the width of LH of the level above -/
def transformSizes (pw ph : Nat) (ls : List LevelSize) : List (Nat × Nat) := (ph, pw) :: ls.dropLast.map fun s => (s.hLow, s.wLow)

/-- decoder.rs:36-159: all lines of a plane with levels. `bands` are the headers and the data of the bands, LL first; `llPartial`, `mask`
belong to the plane, `qs` are the tables of the tile. -/
def decodeWavePlane (f : Flags) (version levels pw ph : Nat) (llPartial : Bool) (mask : Int) (qs : Option (List QStep))
    (bands : List (BandHdr × List Nat)) : R (List (List Int)) := do
  assert' (0 < ph ∧ 0 < pw)
  let z ← subbandSizes f levels pw ph
  let ll ← idx bands 0
  let q ← levelTable qs 0
  let src ← allSources f version levels qs bands 0 z.levels
  wavePlane nextLine f ph pw (newLevels (transformSizes pw ph z.levels) src)
    (source (bandInfo version levels z.width z.height 0 z.exW 0 z.exH ll.1) q llPartial mask ll.2)

end Verif.Crx
