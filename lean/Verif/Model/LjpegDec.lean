import Verif.Model.LjpegHuff
import Verif.Model.I32
/-!
# Lossless JPEG decoder (`rawler/src/decompressors/ljpeg/{mod,decompressors}.rs`)

The `ByteStream` (pumps.rs:321-433) is modelled by its unread suffix.
-/

namespace Verif.Ljpeg
open Verif Verif.Pumps

/-- `ByteStream::get_u8`, pumps.rs:345-353. -/
def getU8 : List Nat → R (Nat × List Nat)
  | [] => panic'
  | b :: r => .ok (b, r)

/-- `ByteStream::get_u16` with `Endian::Big`, pumps.rs:366-375. -/
def getU16 : List Nat → R (Nat × List Nat)
  | a :: b :: r => .ok (a * 256 + b, r)
  | _ => panic'

/-- `ByteStream::skip_to_marker`, pumps.rs:421-433. -/
def skipToMarker : List Nat → R (List Nat)
  | [] => panic'                                            -- buffer[pos]
  | b :: r =>
    if b = 0xff then
      match r with
      | [] => panic'                                        -- buffer[pos + 1]
      | c :: r' =>
        if c ≠ 0 ∧ c ≠ 0xff then .ok (c :: r') else skipToMarker (c :: r')
    else if r = [] then fail' else skipToMarker r

/-- `get_next_marker(_, false)`, mod.rs:252-266. -/
def firstMarker (s : List Nat) : R (Nat × List Nat) := do
  let (fill, s) ← getU8 s
  if fill ≠ 0xff then fail' else do
  let (mark, s) ← getU8 s
  if mark = 0 ∨ mark = 0xff then fail' else .ok (mark, s)

/-- `get_next_marker(_, true)`, mod.rs:267-269. -/
def nextMarker (s : List Nat) : R (Nat × List Nat) := do
  let s ← skipToMarker s
  getU8 s

/-- `struct JpegComponentInfo`, mod.rs:66-78 (the unused `index` is left out). -/
structure CompInfo where
  id : Nat
  dcTbl : Nat
  superH : Nat
  superV : Nat
  deriving DecidableEq, Repr

/-- `struct SOFInfo`, mod.rs:80-88. -/
structure SofInfo where
  width : Nat
  height : Nat
  cps : Nat
  precision : Nat
  components : List CompInfo
  csfix : Bool
  deriving DecidableEq, Repr

/-- `SOFInfo::empty`, mod.rs:91-100. -/
def SofInfo.empty (csfix : Bool) : SofInfo := ⟨0, 0, 0, 0, [], csfix⟩

/-- The component loop of `parse_sof`, mod.rs:119-131. -/
def sofComponents : Nat → List Nat → List CompInfo → R (List CompInfo × List Nat)
  | 0, s, acc => .ok (acc, s)
  | n + 1, s, acc => do
    let (id, s) ← getU8 s
    let (subs, s) ← getU8 s
    let (_, s) ← getU8 s
    sofComponents n s (acc ++ [⟨id, 0, subs >>> 4, subs &&& 0xf⟩])

/-- `parse_sof`, mod.rs:102-133. -/
def parseSof (sof : SofInfo) (s : List Nat) : R (SofInfo × List Nat) := do
  let (hlen, s) ← getU16 s
  let (precision, s) ← getU8 s
  let (height, s) ← getU16 s
  let (width, s) ← getU16 s
  let (cps, s) ← getU8 s
  if precision > 16 then fail' else
  if cps > 4 ∨ cps < 1 then fail' else
  if hlen ≠ 8 + cps * 3 then fail' else do
  let (comps, s) ← sofComponents cps s sof.components
  .ok ({ sof with precision := precision, height := height, width := width, cps := cps, components := comps }, s)

/-- `components.iter_mut().find(|c| c.id == cs)` followed by `dc_tbl_num = td` (mod.rs:148-156). -/
def setTable (comps : List CompInfo) (cs td : Nat) : R (List CompInfo) :=
  match comps.findIdx? (fun c => c.id = cs) with
  | none => fail'
  | some i => if td > 3 then fail' else .ok (comps.modify i fun c => { c with dcTbl := td })

/-- The component loop of `parse_sos`, mod.rs:144-157: `n` components left, the current one is number `k`. The code
looks up the component before it reads and checks `td`. -/
def sosComponents : Nat → Nat → Bool → List Nat → List CompInfo → R (List CompInfo × List Nat)
  | 0, _, _, s, comps => .ok (comps, s)
  | n + 1, k, csfix, s, comps => do
    let (readcs, s) ← getU8 s
    let cs := if csfix then k else readcs
    if comps.findIdx? (fun c => c.id = cs) = none then fail' else do
    let (b, s) ← getU8 s
    let comps ← setTable comps cs (b >>> 4)
    sosComponents n (k + 1) csfix s comps

/-- `parse_sos`, mod.rs:135-163: predictor and point transform. -/
def parseSos (sof : SofInfo) (s : List Nat) : R ((SofInfo × Nat × Nat) × List Nat) := do
  if sof.width = 0 then fail' else do
  let (_, s) ← getU16 s
  let (soscps, s) ← getU8 s
  if sof.cps ≠ soscps then fail' else do
  let (comps, s) ← sosComponents sof.cps 0 sof.csfix s sof.components
  let (pred, s) ← getU8 s
  let (_, s) ← getU8 s
  let (pt, s) ← getU8 s
  .ok (({ sof with components := comps }, pred, pt &&& 0xf), s)

/-- The tables read so far (`dht_init`, `dht_bits`, `dht_huffval`, mod.rs:188-190). -/
structure Dhts where
  init : List Bool
  bits : List (List Nat)
  huffval : List (List Nat)
  deriving DecidableEq, Repr

/-- Initial value of the tables. -/
def Dhts.empty : Dhts :=
  ⟨List.replicate 4 false, List.replicate 4 (List.replicate 17 0), List.replicate 4 (List.replicate 256 0)⟩

/-- `n` calls of `get_u8`. -/
def getBytes : Nat → List Nat → R (List Nat × List Nat)
  | 0, s => .ok ([], s)
  | n + 1, s => do
    let (b, s) ← getU8 s
    let (bs, s) ← getBytes n s
    .ok (b :: bs, s)

/-- The `while length > 0` loop of `parse_dht`, mod.rs:275-307; every iteration takes at least 17 from `length`. -/
def dhtLoop : Nat → Nat → List Nat → Dhts → R (Dhts × List Nat)
  | fuel, length, s, d =>
    if length = 0 then .ok (d, s) else
    match fuel with
    | 0 => panic'
    | fuel + 1 => do
      let (b, s) ← getU8 s
      if b >>> 4 ≠ 0 then fail' else
      let th := b &&& 0xf
      if th > 3 then fail' else do
      let (counts, s) ← getBytes 16 s
      let acc := counts.sum
      if acc > 256 then fail' else
      if length < 1 + 16 + acc then fail' else do
      let (vals, s) ← getBytes acc s
      let d : Dhts :=
        { init := d.init.set th true
          bits := d.bits.set th (0 :: counts)
          huffval := d.huffval.set th (vals ++ (d.huffval.getD th []).drop acc) }
      dhtLoop fuel (length - (1 + 16 + acc)) s d

/-- `parse_dht`, mod.rs:272-310. -/
def parseDht (s : List Nat) (d : Dhts) : R (Dhts × List Nat) := do
  let (l, s) ← getU16 s
  let length ← usub l 2
  dhtLoop (length + 1) length s d

/-- The marker loop of `new_full`, mod.rs:193-220. The bound is the number of unread bytes: every iteration consumes a
marker byte. -/
def markerLoop : Nat → List Nat → SofInfo → Dhts → R ((SofInfo × Nat × Nat) × Dhts × List Nat)
  | 0, _, _, _ => panic'
  | fuel + 1, s, sof, d => do
    let (marker, s) ← nextMarker s
    if marker = 0xc3 then do
      let (sof, s) ← parseSof sof s
      if sof.precision > 16 ∨ sof.precision < 10 then fail' else markerLoop fuel s sof d
    else if marker = 0xc4 then do
      let (d, s) ← parseDht s d
      markerLoop fuel s sof d
    else if marker = 0xda then do
      let (r, s) ← parseSos sof s
      .ok (r, d, s)
    else if marker = 0xd9 then fail'
    else if marker = 0xdb then fail'
    else markerLoop fuel s sof d

/-- `struct LjpegDecompressor`, mod.rs:166-173. -/
structure Dec where
  buffer : List Nat
  sof : SofInfo
  predictor : Nat
  pt : Nat
  dhts : List HuffTable

/-- `LjpegDecompressor::new_full`, mod.rs:180-250. -/
def Dec.newFull (src : List Nat) (dngBug csfix : Bool) : R Dec := do
  let (m, s) ← firstMarker src
  if m ≠ 0xd8 then fail' else do
  let ((sof, pred, pt), d, s) ← markerLoop (s.length + 1) s (SofInfo.empty csfix) Dhts.empty
  let dhts ← (List.range 4).mapM fun i =>
    if d.init.getD i false then HuffTable.new (d.bits.getD i []) (d.huffval.getD i []) (List.replicate 256 0) dngBug
    else .ok HuffTable.empty
  if sof.components = [] then panic' else                    -- `sof.components[0]` in the log statement
  .ok ⟨s, sof, pred, pt, dhts⟩

/-- The prediction of `decode_ljpeg`, decompressors.rs:32-78. `row`, `col`, `c` as in the code; `x` is the first column. -/
def decPredict (pred ncomp x stripwidth : Nat) (out : List Nat) (row col c : Nat) : R Int :=
  let at' := fun (r k : Nat) => do
    let v ← idx out (r * stripwidth + k)
    (.ok (v : Int) : R Int)
  if col = x then
    if row = 0 then panic' else at' (row - 1) (x + c)
  else
    if col < ncomp then panic' else
    if row = 0 ∨ pred = 1 then at' row (col - ncomp + c)
    else if pred = 2 then at' (row - 1) (col + c)
    else if pred = 3 then at' (row - 1) (col - ncomp + c)
    else if pred = 4 then do
      let a ← at' row (col - ncomp + c); let b ← at' (row - 1) (col + c); let cc ← at' (row - 1) (col - ncomp + c)
      .ok (a + b - cc)
    else if pred = 5 then do
      let a ← at' row (col - ncomp + c); let b ← at' (row - 1) (col + c); let cc ← at' (row - 1) (col - ncomp + c)
      .ok (a + (b - cc) / 2)
    else if pred = 6 then do
      let a ← at' row (col - ncomp + c); let b ← at' (row - 1) (col + c); let cc ← at' (row - 1) (col - ncomp + c)
      .ok (b + (a - cc) / 2)
    else if pred = 7 then do
      let a ← at' row (col - ncomp + c); let b ← at' (row - 1) (col + c)
      .ok ((a + b) / 2)
    else panic'

/-- `htable(index)`, decompressors.rs:20. -/
def Dec.htable (d : Dec) (c : Nat) : R HuffTable := do
  let ci ← idx d.sof.components c
  idx d.dhts ci.dcTbl

/-- One sample of the main loop, decompressors.rs:31-82. -/
def decSample (d : Dec) (x stripwidth row col c : Nat) (st : List Nat × PumpJPEG) : R (List Nat × PumpJPEG) := do
  let (out, pump) := st
  let p ← decPredict d.predictor d.sof.components.length x stripwidth out row col c
  let t ← d.htable c
  let (diff, pump) ← huffDecode t pump
  let out ← upd out (row * stripwidth + col + c) (asU16 (p + diff))
  .ok (out, pump)

/-- One skipped difference, decompressors.rs:85-90. -/
def decSkip (d : Dec) (c : Nat) (st : List Nat × PumpJPEG) : R (List Nat × PumpJPEG) := do
  let (out, pump) := st
  let t ← d.htable c
  let (_, pump) ← huffDecode t pump
  .ok (out, pump)

/-- One row of the main loop, decompressors.rs:28-91. The column range is
`(startcol..(width + x)).step_by(ncomp)`. -/
def decRow (d : Dec) (x stripwidth width row : Nat) (st : List Nat × PumpJPEG) : R (List Nat × PumpJPEG) := do
  let ncomp := d.sof.components.length
  let startcol := if row = 0 then x + ncomp else x
  let ncols := (width + x - startcol + (ncomp - 1)) / ncomp
  let st ← forN ncols (fun k st =>
    forN ncomp (fun c st => decSample d x stripwidth row (startcol + k * ncomp) c st) st) st
  let skip ← usub d.sof.width (width / ncomp)
  forN skip (fun _ st => forN ncomp (fun c st => decSkip d c st) st) st

/-- `decode_ljpeg`, decompressors.rs:11-95. Values in `out` are written in place. -/
def decodeLjpeg (d : Dec) (out : List Nat) (x stripwidth width height : Nat) : R (List Nat) := do
  let ncomp := d.sof.components.length
  if ncomp = 0 then panic' else
  if d.sof.width * ncomp < width ∨ d.sof.height < height then fail' else
  if d.sof.precision < d.pt + 1 then panic' else do
  let base : Int := ((1 <<< (d.sof.precision - d.pt - 1) : Nat) : Int)
  let st ← forN ncomp (fun c st => do
    let (out, pump) := st
    let t ← d.htable c
    let (diff, pump) ← huffDecode t pump
    let out ← upd out (x + c) (asU16 (base + diff))
    (.ok (out, pump) : R (List Nat × PumpJPEG))) (out, PumpJPEG.new d.buffer)
  let (out, _) ← forN height (fun row st => decRow d x stripwidth width row st) st
  .ok out

/-- The prior sample plus a decoded difference, an `i32` sum. -/
def addHuff (t : HuffTable) (prior : Int) (pump : PumpJPEG) : R (Int × PumpJPEG) := do
  let (diff, pump) ← huffDecode t pump
  let y ← chkI32 (prior + diff)
  .ok (y, pump)

/-- The writes of `set_yuv_420` and `set_yuv_422` for one pixel: `debug_assert!(!v.is_negative())` for each value, then three
samples. -/
def setPix (out : List Nat) (pos : Nat) (y cb cr : Int) : R (List Nat) := do
  assert' (decide (0 ≤ y ∧ 0 ≤ cb ∧ 0 ≤ cr))
  let out ← upd out pos (asU16 y)
  let out ← upd out (pos + 1) (asU16 cb)
  upd out (pos + 2) (asU16 cr)

/-- `set_yuv_420`, decompressors.rs:97-122. The model checks the assertions of a pixel before its writes, not all at first; the
result is the same, a panic. -/
def setYuv420 (out : List Nat) (row col width : Nat) (y1 y2 y3 y4 cb cr : Int) : R (List Nat) := do
  let out ← setPix out (row * width + col) y1 cb cr
  let out ← setPix out (row * width + col + 3) y2 cb cr
  let out ← setPix out ((row + 1) * width + col) y3 cb cr
  setPix out ((row + 1) * width + col + 3) y4 cb cr

/-- `set_yuv_422`, decompressors.rs:250-265. -/
def setYuv422 (out : List Nat) (row col width : Nat) (y1 y2 cb cr : Int) : R (List Nat) := do
  let out ← setPix out (row * width + col) y1 cb cr
  setPix out (row * width + col + 3) y2 cb cr

/-- The three tables, decompressors.rs:139-141, 211-213, 277-279. -/
def Dec.tables3 (d : Dec) : R (HuffTable × HuffTable × HuffTable) := do
  let t1 ← d.htable 0
  let t2 ← d.htable 1
  let t3 ← d.htable 2
  .ok (t1, t2, t3)

/-- `(startcol..width).step_by(6)`: the number of columns. -/
def steps6 (startcol width : Nat) : Nat := (width - startcol + 5) / 6

/-- One block of `decode_ljpeg_420`: four luma samples, each coded as the difference to the one before it, and the chroma
samples (decompressors.rs:217-223, 237-243). -/
def block420 (t1 t2 t3 : HuffTable) (row col width : Nat) (py pcb pcr : Int) (st : List Nat × PumpJPEG) :
    R (List Nat × PumpJPEG) := do
  let (out, pump) := st
  let (y1, pump) ← addHuff t1 py pump
  let (y2, pump) ← addHuff t1 y1 pump
  let (y3, pump) ← addHuff t1 y2 pump
  let (y4, pump) ← addHuff t1 y3 pump
  let (cb, pump) ← addHuff t2 pcb pump
  let (cr, pump) ← addHuff t3 pcr pump
  let out ← setYuv420 out row col width y1 y2 y3 y4 cb cr
  .ok (out, pump)

/-- The sample triple at `pos`. -/
def triple (out : List Nat) (pos : Nat) : R (Int × Int × Int) := do
  let a ← idx out pos
  let b ← idx out (pos + 1)
  let c ← idx out (pos + 2)
  .ok ((a : Int), (b : Int), (c : Int))

/-- The reference position of `decode_ljpeg_420`, decompressors.rs:228-234. -/
def pos420 (row col width : Nat) : R Nat :=
  if col = 0 then do
    let r ← usub row 2
    .ok (r * width)
  else usub ((row + 1) * width + col) 3

/-- `decode_ljpeg_420`, decompressors.rs:196-248. -/
def decode420 (d : Dec) (out : List Nat) (width height : Nat) : R (List Nat) := do
  if d.sof.width * 3 ≠ width ∨ d.sof.height ≠ height then fail' else do
  assert' (decide (width % 2 = 0 ∧ width % 6 = 0 ∧ height % 2 = 0))
  let (t1, t2, t3) ← d.tables3
  if d.sof.precision < d.pt + 1 then panic' else do
  let base : Int := ((1 <<< (d.sof.precision - d.pt - 1) : Nat) : Int)
  let st ← block420 t1 t2 t3 0 0 width base base base (out, PumpJPEG.new d.buffer)
  let (out, _) ← forN ((height + 1) / 2) (fun r st => do
    let row := 2 * r
    let startcol := if row = 0 then 6 else 0
    forN (steps6 startcol width) (fun k st => do
      let col := startcol + 6 * k
      let pos ← pos420 row col width
      let (py, pcb, pcr) ← triple st.1 pos
      block420 t1 t2 t3 row col width py pcb pcr st) st) st
  .ok out

/-- One block of `decode_sony_ljpeg_420` (decompressors.rs:146-154, 175-189): `py3` is the prior sample of the second row, or none
for the first column, where that is the first sample of this block. -/
def blockSony (t1 t2 t3 : HuffTable) (row col width : Nat) (py1 : Int) (py3 : Option Int) (pcb pcr : Int)
    (st : List Nat × PumpJPEG) : R (List Nat × PumpJPEG) := do
  let (out, pump) := st
  let (y1, pump) ← addHuff t1 py1 pump
  let (y2, pump) ← addHuff t1 y1 pump
  let (y3, pump) ← addHuff t1 (py3.getD y1) pump
  let (y4, pump) ← addHuff t1 y3 pump
  let (cb, pump) ← addHuff t2 pcb pump
  let (cr, pump) ← addHuff t3 pcr pump
  let out ← setYuv420 out row col width y1 y2 y3 y4 cb cr
  .ok (out, pump)

/-- The prior samples of `decode_sony_ljpeg_420`, decompressors.rs:163-173. -/
def priorSony (out : List Nat) (row col width : Nat) : R (Int × Option Int × Int × Int) :=
  if col = 0 then do
    let r ← usub row 2
    let (a, b, c) ← triple out (r * width)
    .ok (a, none, b, c)
  else do
    let pos1 ← usub (row * width + col) 3
    let pos3 ← usub ((row + 1) * width + col) 3
    let (a, b, c) ← triple out pos1
    let a3 ← idx out pos3
    .ok (a, some (a3 : Int), b, c)

/-- `decode_sony_ljpeg_420`, decompressors.rs:124-194. -/
def decodeSony420 (d : Dec) (out : List Nat) (width height : Nat) : R (List Nat) := do
  if d.sof.width * 3 ≠ width ∨ d.sof.height ≠ height then fail' else do
  assert' (decide (width % 2 = 0 ∧ width % 6 = 0 ∧ height % 2 = 0))
  let (t1, t2, t3) ← d.tables3
  if d.sof.precision < d.pt + 1 then panic' else do
  let base : Int := ((1 <<< (d.sof.precision - d.pt - 1) : Nat) : Int)
  let st ← blockSony t1 t2 t3 0 0 width base none base base (out, PumpJPEG.new d.buffer)
  let (out, _) ← forN ((height + 1) / 2) (fun r st => do
    let row := 2 * r
    let startcol := if row = 0 then 6 else 0
    forN (steps6 startcol width) (fun k st => do
      let col := startcol + 6 * k
      let (py1, py3, pcb, pcr) ← priorSony st.1 row col width
      blockSony t1 t2 t3 row col width py1 py3 pcb pcr st) st) st
  .ok out

/-- One block of `decode_ljpeg_422` (decompressors.rs:283-287, 301-306). -/
def block422 (t1 t2 t3 : HuffTable) (row col width : Nat) (py pcb pcr : Int) (st : List Nat × PumpJPEG) :
    R (List Nat × PumpJPEG) := do
  let (out, pump) := st
  let (y1, pump) ← addHuff t1 py pump
  let (y2, pump) ← addHuff t1 y1 pump
  let (cb, pump) ← addHuff t2 pcb pump
  let (cr, pump) ← addHuff t3 pcr pump
  let out ← setYuv422 out row col width y1 y2 cb cr
  .ok (out, pump)

/-- The reference position of `decode_ljpeg_422`, decompressors.rs:292-298. -/
def pos422 (row col width : Nat) : R Nat :=
  if col = 0 then do
    let r ← usub row 1
    .ok (r * width)
  else usub (row * width + col) 3

/-- `decode_ljpeg_422`, decompressors.rs:267-311. -/
def decode422 (d : Dec) (out : List Nat) (width height : Nat) : R (List Nat) := do
  if d.sof.width * 3 ≠ width ∨ d.sof.height ≠ height then fail' else do
  let (t1, t2, t3) ← d.tables3
  if d.sof.precision < d.pt + 1 then panic' else do
  let base : Int := ((1 <<< (d.sof.precision - d.pt - 1) : Nat) : Int)
  let st ← block422 t1 t2 t3 0 0 width base base base (out, PumpJPEG.new d.buffer)
  let (out, _) ← forN height (fun row st => do
    let startcol := if row = 0 then 6 else 0
    forN (steps6 startcol width) (fun k st => do
      let col := startcol + 6 * k
      let pos ← pos422 row col width
      let (py, pcb, pcr) ← triple st.1 pos
      block422 t1 t2 t3 row col width py pcb pcr st) st) st
  .ok out

/-- Two pixels of `decode_hasselblad`, decompressors.rs:322-329. State: image, reader, the two prior values. -/
def hasselPair (t : HuffTable) (pos : Nat) (st : List Nat × PumpMSB32 × Int × Int) : R (List Nat × PumpMSB32 × Int × Int) := do
  let (out, pump, p1, p2) := st
  let (e1, pump) ← huffLen t pump
  let (e2, pump) ← huffLen t pump
  let (d1, pump) ← huffDiff t pump e1
  let p1 ← chkI32 (p1 + d1)
  let (d2, pump) ← huffDiff t pump e2
  let p2 ← chkI32 (p2 + d2)
  let out ← upd out pos (asU16 p1)
  let out ← upd out (pos + 1) (asU16 p2)
  .ok (out, pump, p1, p2)

/-- `decode_hasselblad`, decompressors.rs:313-333. -/
def decodeHasselblad (d : Dec) (out : List Nat) (width : Nat) : R (List Nat) := do
  let t ← d.htable 0
  if width = 0 then panic' else do
  let (out, _) ← forN (out.length / width) (fun row (st : List Nat × PumpMSB32) => do
    let (out, pump, _, _) ← forN (width / 2) (fun k st => hasselPair t (row * width + 2 * k) st) (st.1, st.2, 0x8000, 0x8000)
    (.ok (out, pump) : R (List Nat × PumpMSB32))) (out, PumpMSB32.new d.buffer)
  .ok out

/-- The part of `decode` and `decode_sony` that both share: one component layout (mod.rs:324-328, 347-351). -/
def Dec.decodePlain (d : Dec) (out : List Nat) (x stripwidth width height : Nat) : R (List Nat) :=
  if 1 ≤ d.predictor ∧ d.predictor ≤ 7 then decodeLjpeg d out x stripwidth width height
  else if d.predictor = 8 then decodeHasselblad d out width
  else fail'

/-- `LjpegDecompressor::decode`, mod.rs:337-358 (`dummy` is false). -/
def Dec.decode (d : Dec) (out : List Nat) (x stripwidth width height : Nat) : R (List Nat) :=
  match d.sof.components with
  | [] => panic'
  | c :: _ =>
    if c.superH = 2 ∧ c.superV = 2 then decode420 d out width height
    else if c.superH = 2 ∧ c.superV = 1 then decode422 d out width height
    else if c.superH = 1 ∧ c.superV = 1 then d.decodePlain out x stripwidth width height
    else fail'

/-- `LjpegDecompressor::decode_sony`, mod.rs:314-335 (`dummy` is false). -/
def Dec.decodeSony (d : Dec) (out : List Nat) (x stripwidth width height : Nat) : R (List Nat) :=
  match d.sof.components with
  | [] => panic'
  | c :: _ =>
    if c.superH = 2 ∧ c.superV = 2 then decodeSony420 d out width height
    else if c.superH = 2 ∧ c.superV = 1 then decode422 d out width height
    else if c.superH = 1 ∧ c.superV = 1 then d.decodePlain out x stripwidth width height
    else fail'

/-- `LjpegDecompressor::width`, mod.rs:392-394. -/
def Dec.width (d : Dec) : Nat := d.sof.width * d.sof.cps

/-- `LJpegDecompressor::decompress` up to the copy into the caller's lines (mod.rs:36-40): the decoded sample buffer.
`PixU16::new(w, h)` is a zero-filled buffer. -/
def decodeAll (src : List Nat) : R (List Nat) := do
  let d ← Dec.newFull src false false
  d.decode (List.replicate (d.width * d.sof.height) 0) 0 d.width d.width d.sof.height

/-- `LJpegDecompressor::decompress`, mod.rs:35-47: `lines` is the list of destination rows, each of `lineWidth` samples.
`copy_from_slice` panics when a destination row has another length; `chunks_exact(0)` panics. -/
def decompress (src : List Nat) (skipRows : Nat) (lines : List (List Nat)) (lineWidth : Nat) : R (List (List Nat)) := do
  let px ← decodeAll src
  if lineWidth = 0 then panic' else
  let chunks := (List.range (px.length / lineWidth)).map fun i => (px.drop (i * lineWidth)).take lineWidth
  let src := chunks.drop skipRows
  if ∀ p ∈ lines.zip src, p.1.length = p.2.length then
    .ok ((lines.zip src).map (·.2) ++ lines.drop src.length)
  else panic'

end Verif.Ljpeg
