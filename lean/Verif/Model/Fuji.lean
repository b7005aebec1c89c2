import Verif.Model.I32
import Verif.Model.Slice
import Verif.Model.LjpegDec
/-! # Fuji compressed RAF data (rawler/src/decoders/raf/fuji_decompressor.rs)

Colours of the filter array are 0 (red), 1 (green), 2 (blue). A `GradientList` (:68-73) is the list of its four vectors,
`lossless_grads` first, so that table `i` of `Params::qtables` uses vector `i`. The `i32` values other than `gradient.0` stay far
inside their type (every sample is a `u16`, `q_base` is a byte, codes are below 65537) and are not checked. -/

namespace Verif.Fuji
open Verif Verif.Pumps

/-- `Gradient`, :24. -/
abbrev Grad := Int × Int

/-- `QTable`, :37-44. -/
structure QTable where
  qBase : Int
  table : List Int
  maxGrad : Int
  multi : Int
  rawBits : Nat
  total : Int

/-- `Params`, :47-54. -/
structure Params where
  qtables : List QTable
  maxBits : Nat
  minValue : Int
  maxValue : Int
  width : Nat

/-- `Header`, :120-131. -/
structure Header where
  signature : Nat
  lossless : Nat
  rawType : Nat
  rawBits : Nat
  rawHeight : Nat
  roundedWidth : Nat
  rawWidth : Nat
  blockSize : Nat
  blocksInRow : Nat
  totalLines : Nat

/-- `Header::is_valid`, :138-161. The tests are made in order; `raw_rounded_width - raw_width` is an unsigned subtraction. -/
def Header.isValid (h : Header) : R Bool := do
  if h.signature ≠ 0x4953 ∨ h.rawHeight > 0x3000 ∨ h.rawHeight < 6 ∨ h.rawHeight % 6 ≠ 0 ∨ h.rawWidth > 0x3000 ∨ h.rawWidth < 0x300 ∨
      h.rawWidth % 24 ≠ 0 ∨ h.roundedWidth > 0x3000 ∨ h.blockSize ≠ 0x300 ∨ h.roundedWidth < h.blockSize ∨ h.roundedWidth % h.blockSize ≠ 0 then
    .ok false
  else do
    let gap ← usub h.roundedWidth h.rawWidth
    .ok (!(gap ≥ h.blockSize ∨ h.blocksInRow > 0x10 ∨ h.blocksInRow = 0 ∨ h.blocksInRow ≠ h.roundedWidth / h.blockSize ∨
      h.blocksInRow ≠ (h.rawWidth + h.blockSize - 1) / h.blockSize ∨ h.totalLines > 0x800 ∨ h.totalLines = 0 ∨
      h.totalLines ≠ h.rawHeight / 6 ∨ (h.rawBits ≠ 12 ∧ h.rawBits ≠ 14 ∧ h.rawBits ≠ 16) ∨ (h.rawType ≠ 16 ∧ h.rawType ≠ 0) : Bool))

/-- `log2ceil`, bits.rs:40-53: the loop counts the binary digits of `states - 1`, at least one. -/
def log2ceil (states : Nat) : Nat := if states = 0 then 0 else if states ≤ 2 then 1 else Nat.log2 (states - 1) + 1

/-- One entry of `QTable::build_table`, :741-754. -/
def quantOf (qp0 qp1 qp2 qp3 qp4 x : Int) : Int :=
  if x > qp4 then 0 else if x ≤ -qp3 then -4 else if x ≤ -qp2 then -3 else if x ≤ -qp1 then -2 else if x < -qp0 then -1
  else if x ≤ qp0 then 0 else if x < qp1 then 1 else if x < qp2 then 2 else if x < qp3 then 3 else 4

/-- `QTable::build_table`, :736-758; entries after the `break` keep their 0. -/
def buildTable (rawBits : Nat) (qp0 qp1 qp2 qp3 qp4 : Int) : List Int :=
  (List.range (2 * 2 ^ rawBits)).map fun j : Nat => quantOf qp0 qp1 qp2 qp3 qp4 (-qp4 + (j : Int))

/-- `Params::new_main_qtable`, :763-794. -/
def mainQTable (rawBits : Nat) (maxValue qBase : Int) : QTable :=
  let qp1 := 3 * qBase + 0x12
  let qp2 := 5 * qBase + 0x43
  let qp3 := 7 * qBase + 0x114
  let qp4 := maxValue
  let maxVal := maxValue + 1
  let qp1 := if qp1 ≥ maxVal ∨ qp1 < qBase + 1 then qBase + 1 else qp1
  let qp2 := if qp2 < qp1 ∨ qp2 ≥ maxVal then qp1 else qp2
  let qp3 := if qp3 < qp2 ∨ qp3 ≥ maxVal then qp2 else qp3
  let total := (qp4 + 2 * qBase) / (2 * qBase + 1) + 1
  { qBase := qBase, table := buildTable rawBits qBase qp1 qp2 qp3 qp4, multi := 9, maxGrad := 0, rawBits := log2ceil total.toNat, total := total }

/-- The static tables of lossy files, :829-863. -/
def lossyQTable (rawBits : Nat) (qp4 : Int) (qBase maxGrad total t1 t2 t3 : Int) : QTable :=
  let qp1 := if qp4 ≥ t1 then t1 else qBase + 1
  let qp2 := if qp4 ≥ t2 then t2 else qp1
  let qp3 := if qp4 ≥ t3 then t3 else qp2
  { qBase := qBase, table := buildTable rawBits qBase qp1 qp2 qp3 qp4, multi := 3, maxGrad := maxGrad, rawBits := log2ceil total.toNat, total := total }

/-- `Params::new`, :797-875. -/
def Params.new (h : Header) : R Params := do
  if (h.blockSize % 3 ≠ 0 ∧ h.rawType = 16) ∨ (h.blockSize % 2 ≠ 0 ∧ h.rawType = 0) then fail' else do
  let maxValue : Int := 2 ^ h.rawBits - 1
  let qtables :=
    if h.lossless = 1 then [mainQTable h.rawBits maxValue 0]
    else [{ qBase := -1, table := [], maxGrad := 0, multi := 0, rawBits := 0, total := 0 },
      lossyQTable h.rawBits maxValue 0 5 (maxValue + 1) 0x12 0x43 0x114,
      lossyQTable h.rawBits maxValue 1 6 ((maxValue + 2) / 3 + 1) 0x15 0x48 0x11B,
      lossyQTable h.rawBits maxValue 2 7 ((maxValue + 4) / 5 + 1) 0x18 0x4D 0x122]
  .ok { qtables := qtables, maxBits := 4 * log2ceil (maxValue.toNat + 1), minValue := 0x40, maxValue := maxValue,
        width := if h.rawType = 16 then h.blockSize * 2 / 3 else h.blockSize / 2 }

/-- `bit_diff`, :889-902. -/
def bitDiff (v1 v2 : Int) : Nat :=
  if v2 ≥ v1 then 0 else ((List.range 15).find? (fun d => decide (v2 * 2 ^ (d + 1) ≥ v1))).elim 15 (· + 1)

/-- `fuji_zerobits`, :881-886. Every round of `consume_zerobits` that goes on takes 31 bits, so the fuel is enough. -/
def zerobits (p : PumpMSB) : R (Nat × PumpMSB) := do
  let (count, p) ← consumeZerobits (p.rest.length + 3) p 0
  let (b, p) ← BitPump.peek p 1
  assert' (b == 1)
  let p ← BitPump.consume p 1
  .ok (count, p)

/-- `read_code`, :908-935. -/
def readCode (pr : Params) (p : PumpMSB) (g : Grad) (qt : QTable) : R (Int × Grad × PumpMSB) := do
  let (sample, p) ← zerobits p
  let thr ← usub pr.maxBits qt.rawBits
  let thr ← usub thr 1
  let (code, p) ←
    (if sample < thr then do
      let (x, p) ← getBits p (bitDiff g.1 g.2)
      .ok (sample * 2 ^ bitDiff g.1 g.2 + x, p)
    else do
      let (x, p) ← getBits p qt.rawBits
      .ok (1 + x, p) : R (Nat × PumpMSB))
  if (code : Int) ≥ qt.total then panic' else do
  let c : Int := if code % 2 ≠ 0 then -1 - (code / 2 : Nat) else (code / 2 : Nat)
  let g0 ← chkI32 (g.1 + c.natAbs)
  let g : Grad := if g.2 = pr.minValue then (g0 / 2, g.2 / 2 + 1) else (g0, g.2 + 1)
  .ok (c, g, p)

/-- Indexing with an `i32` cast to `usize`: a negative index is out of range. -/
def idxI {α : Type} (l : List α) (i : Int) : R α := if i < 0 then panic' else idx l i.toNat

/-- `QTable::lookup_gradient`, :731-733. -/
def lookupGradient (qt : QTable) (maxValue v1 v2 : Int) : R Int := do
  let a ← idxI qt.table (maxValue + v1)
  let b ← idxI qt.table (maxValue + v2)
  .ok (qt.multi * a + b)

/-- The choice of table, :951-962, 1013-1024: the loop over 1, 2, 3. -/
def pickFrom (qts : List QTable) (d : Int) : Nat → Nat → R Nat
  | 0, _ => .ok 0
  | n + 1, i => do
    let q0 ← idx qts 0
    if q0.qBase < (i : Int) then .ok 0 else do
    let qi ← idx qts i
    if d ≤ qi.maxGrad then .ok i else pickFrom qts d n (i + 1)

/-- The value stored, :976-994, 1036-1054. -/
def recon (qt : QTable) (maxValue pred grad code : Int) : Nat :=
  let v := if grad < 0 then pred - code * (2 * qt.qBase + 1) else pred + code * (2 * qt.qBase + 1)
  let v := if v < -qt.qBase then v + qt.total * (2 * qt.qBase + 1)
    else if v > qt.qBase + maxValue then v - qt.total * (2 * qt.qBase + 1) else v
  if v ≥ 0 then (min v maxValue).toNat else 0

/-- State of a block: `linebuf`, `grad_even`, `grad_odd` (:394-399) and the pump. -/
structure St where
  lb : List (List Nat)
  ge : List (List (List Grad))
  go : List (List (List Grad))
  p : PumpMSB

/-- `linebuf[line][i] as i32` -/
def at' (lb : List (List Nat)) (line i : Nat) : R Int := do
  let row ← idx lb line
  let v ← idx row i
  .ok (v : Int)

/-- `linebuf[line][i] = v` -/
def put (lb : List (List Nat)) (line i v : Nat) : R (List (List Nat)) := do
  let row ← idx lb line
  let row ← upd row i v
  upd lb line row

/-- From the gradients around a sample to its value, :951-994 and 1013-1054: `d` is the activity that selects the table, `v1` and
`v2` the two differences that select the context, `pred` the prediction. -/
def sample (pr : Params) (gs : List (List (List Grad))) (grp : Nat) (p : PumpMSB) (d v1 v2 pred : Int) :
    R (Nat × List (List (List Grad)) × PumpMSB) := do
  let t ← pickFrom pr.qtables d 3 1
  let qt ← idx pr.qtables t
  let grad ← lookupGradient qt pr.maxValue v1 v2
  let gl ← idx gs grp
  let gt ← idx gl t
  let g ← idx gt grad.natAbs
  let (code, g, p) ← readCode pr p g qt
  let gs ← upd gs grp (gl.set t (gt.set grad.natAbs g))
  .ok (recon qt pr.maxValue pred grad code, gs, p)

/-- The prediction at even positions before the division, :966-972 and 1075-1081. -/
def evenSum (rb rc rd rf : Int) : Int :=
  let diffRcRb : Int := (rc - rb).natAbs
  let diffRfRb : Int := (rf - rb).natAbs
  let diffRdRb : Int := (rd - rb).natAbs
  if diffRcRb > diffRfRb ∧ diffRcRb > diffRdRb then rf + rd + 2 * rb
  else if diffRdRb > diffRcRb ∧ diffRdRb > diffRfRb then rf + rc + 2 * rb
  else rd + rc + 2 * rb

/-- `fuji_decode_sample_even`, :938-997. -/
def decodeEven (pr : Params) (line pos grp : Nat) (st : St) : R St := do
  let l1 ← usub line 1
  let l2 ← usub line 2
  let rb ← at' st.lb l1 (1 + pos)
  let rc ← at' st.lb l1 (1 + pos - 1)
  let rd ← at' st.lb l1 (1 + pos + 1)
  let rf ← at' st.lb l2 (1 + pos)
  let (x, gs, p) ← sample pr st.ge grp st.p ((rf - rb).natAbs + (rc - rb).natAbs) (rb - rf) (rc - rb) (evenSum rb rc rd rf / 4)
  let lb ← put st.lb line (1 + pos) x
  .ok { st with lb := lb, ge := gs, p := p }

/-- `fuji_decode_sample_odd`, :1000-1057. -/
def decodeOdd (pr : Params) (line pos grp : Nat) (st : St) : R St := do
  let l1 ← usub line 1
  let ra ← at' st.lb line (1 + pos - 1)
  let rb ← at' st.lb l1 (1 + pos)
  let rc ← at' st.lb l1 (1 + pos - 1)
  let rd ← at' st.lb l1 (1 + pos + 1)
  let rg ← at' st.lb line (1 + pos + 1)
  let pred := if (rb > rc ∧ rb > rd) ∨ (rb < rc ∧ rb < rd) then (rg + ra + 2 * rb) / 4 else (ra + rg) / 2
  let (x, gs, p) ← sample pr st.go grp st.p ((rb - rc).natAbs + (rc - ra).natAbs) (rb - rc) (rc - ra) pred
  let lb ← put st.lb line (1 + pos) x
  .ok { st with lb := lb, go := gs, p := p }

/-- `fuji_decode_interpolation_even`, :1060-1084. -/
def interpolateEven (line pos : Nat) (st : St) : R St := do
  let l1 ← usub line 1
  let l2 ← usub line 2
  let rb ← at' st.lb l1 (1 + pos)
  let rc ← at' st.lb l1 (1 + pos - 1)
  let rd ← at' st.lb l1 (1 + pos + 1)
  let rf ← at' st.lb l2 (1 + pos)
  let lb ← put st.lb line (1 + pos) (asU16 (evenSum rb rc rd rf / 4))
  .ok { st with lb := lb }

/-- Either of them, as the closures of the X-Trans passes choose. -/
def evenStep (pr : Params) (line pos grp : Nat) (interp : Bool) (st : St) : R St :=
  if interp then interpolateEven line pos st else decodeEven pr line pos grp st

/-- The loop of a pass, :488-497, 503-512, 553-565. `i0` and `i1` tell which even positions of lines `c0` and `c1` are interpolated.
The code keeps a pair of positions per colour; the two colours of a pass are both reset before it and advance together, so one
pair `e`, `o` is kept here. Every round advances `e` or `o`, so `width` rounds of fuel are enough. -/
def passLoop (pr : Params) (c0 c1 grp : Nat) (i0 i1 : Nat → Bool) : Nat → Nat → Nat → St → R St
  | 0, _, _, _ => panic'
  | fuel + 1, e, o, st =>
    if e < pr.width ∨ o < pr.width then do
      let (e, st) ←
        (if e < pr.width then do
          let st ← evenStep pr c0 e grp (i0 e) st
          let st ← evenStep pr c1 e grp (i1 e) st
          .ok (e + 2, st)
        else .ok (e, st) : R (Nat × St))
      if e > 8 then do
        let st ← decodeOdd pr c0 o grp st
        let st ← decodeOdd pr c1 o grp st
        passLoop pr c0 c1 grp i0 i1 fuel e (o + 2) st
      else passLoop pr c0 c1 grp i0 i1 fuel e o st
    else .ok st

/-- `fuji_extend_generic`, :698-704. -/
def extend (width start end' : Nat) (lb : List (List Nat)) : R (List (List Nat)) := do
  assert' (start > 0)
  forN (end' + 1 - start) (fun k lb => do
    let a ← at' lb (start + k - 1) 1
    let lb ← put lb (start + k) 0 a.toNat
    let b ← at' lb (start + k - 1) width
    put lb (start + k) (width + 1) b.toNat) lb

/-- A pass and the extension of the lines of its two colours, e.g. :517 with 498-499 and 574-587. -/
structure Pass where
  c0 : Nat
  c1 : Nat
  grp : Nat
  i0 : Nat → Bool
  i1 : Nat → Bool
  ext0 : Nat × Nat
  ext1 : Nat × Nat

/-- `fuji_extend_red`, `fuji_extend_green`, `fuji_extend_blue`, :706-716. -/
def extR : Nat × Nat := (2, 4)
def extG : Nat × Nat := (7, 12)
def extB : Nat × Nat := (15, 17)

/-- `fuji_bayer_decode_block`, :517-536. -/
def bayerPasses : List Pass :=
  [⟨2, 7, 0, fun _ => false, fun _ => false, extR, extG⟩, ⟨8, 15, 1, fun _ => false, fun _ => false, extG, extB⟩,
   ⟨3, 9, 2, fun _ => false, fun _ => false, extR, extG⟩, ⟨10, 16, 0, fun _ => false, fun _ => false, extG, extB⟩,
   ⟨4, 11, 1, fun _ => false, fun _ => false, extR, extG⟩, ⟨12, 17, 2, fun _ => false, fun _ => false, extG, extB⟩]

/-- `fuji_xtrans_decode_block`, :569-696. -/
def xtransPasses : List Pass :=
  [⟨2, 7, 0, fun _ => true, fun _ => false, extR, extG⟩, ⟨8, 15, 1, fun _ => false, fun _ => true, extG, extB⟩,
   ⟨3, 9, 2, fun e => !(e % 4 != 0), fun _ => true, extR, extG⟩, ⟨10, 16, 0, fun _ => false, fun e => e % 4 == 2, extG, extB⟩,
   ⟨4, 11, 1, fun e => e % 4 == 2, fun _ => false, extR, extG⟩, ⟨12, 17, 2, fun _ => true, fun e => !(e % 4 != 0), extG, extB⟩]

/-- One pass. -/
def runPass (pr : Params) (st : St) (q : Pass) : R St := do
  let st ← passLoop pr q.c0 q.c1 q.grp q.i0 q.i1 (pr.width + 9) 0 1 st
  let lb ← extend pr.width q.ext0.1 q.ext0.2 st.lb
  let lb ← extend pr.width q.ext1.1 q.ext1.2 lb
  .ok { st with lb := lb }

/-- The six passes of a block, :216-220. -/
def decodeBlock (pr : Params) (xtrans : Bool) (st : St) : R St :=
  (if xtrans then xtransPasses else bayerPasses).foldlM (runPass pr) st

/-- `2.max((total_values + 0x20) >> 6)` -/
def maxDiff (total : Int) : Int := max 2 ((total + 0x20) / 64)

/-- `grad_even` and `grad_odd` of `CompressedBlock::new`, :406-435. -/
def grads0 (lossless : Bool) (pr : Params) : R (List (List (List Grad))) := do
  if lossless then do
    let q ← idx pr.qtables 0
    .ok (List.replicate 3 [List.replicate 41 (maxDiff q.total, 1), List.replicate 5 (0, 0), List.replicate 5 (0, 0), List.replicate 5 (0, 0)])
  else do
    let q1 ← idx pr.qtables 1
    let q2 ← idx pr.qtables 2
    let q3 ← idx pr.qtables 3
    .ok (List.replicate 3 [List.replicate 41 (0, 0), List.replicate 5 (maxDiff q1.total, 1), List.replicate 5 (maxDiff q2.total, 1),
      List.replicate 5 (maxDiff q3.total, 1)])

/-- The initialisation of the main gradients for a new `q_base`, :203-212. -/
def resetMain (total : Int) (gs : List (List (List Grad))) : List (List (List Grad)) :=
  gs.map fun gl => gl.set 0 (List.replicate 41 (maxDiff total, 1))

/-- The copies of :176-183 and 223-228. -/
def mtable : List (Nat × Nat) := [(0, 3), (1, 4), (5, 11), (6, 12), (13, 16), (14, 17)]

def moveLines (lb : List (List Nat)) : R (List (List Nat)) :=
  mtable.foldlM (fun lb i => do
    let row ← idx lb i.2
    upd lb i.1 row) lb

/-- The lines cleared and their first borders, :185, 236-246. -/
def ztable : List (Nat × Nat) := [(2, 3), (7, 6), (15, 3)]

def clearLines (width : Nat) (lb : List (List Nat)) : R (List (List Nat)) :=
  ztable.foldlM (fun lb i => do
    let lb ← forN i.2 (fun k lb => do
      let row ← idx lb (i.1 + k)
      upd lb (i.1 + k) (List.replicate row.length 0)) lb
    let a ← at' lb (i.1 - 1) 1
    let lb ← put lb i.1 0 a.toNat
    let b ← at' lb (i.1 - 1) width
    put lb i.1 (width + 1) b.toNat) lb

/-- `Strip::width`, :86-94 (the `debug_assert` holds for every valid header). -/
def stripWidth (h : Header) (n : Nat) : R Nat :=
  if n + 1 ≠ h.blocksInRow then .ok h.blockSize else usub h.rawWidth (h.blockSize * n)

/-- The index functions of :472 and 478. -/
def pixelIndex (xtrans : Bool) (c : Nat) : Nat :=
  if xtrans then (((c * 2 / 3) &&& 0x7FFFFFFE) ||| ((c % 3) &&& 1)) + (c % 3) / 2 else c / 2

/-- The line of :458-463. -/
def lineOf (color row : Nat) : Nat := if color = 0 then 2 + row / 2 else if color = 1 then 7 + row else 15 + row / 2

/-- `copy_line`, :441-468. -/
def copyLine (h : Header) (cfa : Nat → Nat → Nat) (xtrans : Bool) (n line : Nat) (lb : List (List Nat)) (out : List Nat) : R (List Nat) := do
  let w ← stripWidth h n
  forN 6 (fun row out => forN w (fun c out => do
    let v ← at' lb (lineOf (cfa row (c % 6)) row) (1 + pixelIndex xtrans c)
    upd out ((6 * line + row) * h.rawWidth + (h.blockSize * n + c)) v.toNat) out) out

/-- The quantisation of a block row, :191-214: parameters and state. -/
def setQ (h : Header) (qb : Option (List Nat)) (line : Nat) (pr : Params) (st : St) : R (Params × St) := do
  assert' ((h.lossless == 1) == qb.isNone)
  match qb with
  | none => .ok (pr, st)
  | some qs => do
    let q ← idx qs line
    let q0 ← idx pr.qtables 0
    if line = 0 ∨ (q : Int) ≠ q0.qBase then do
      let m := mainQTable h.rawBits (2 ^ h.rawBits - 1) q
      let qts ← upd pr.qtables 0 m
      .ok ({ pr with qtables := qts }, { st with ge := resetMain m.total st.ge, go := resetMain m.total st.go })
    else .ok (pr, st)

/-- `Strip::decompress_strip`, :165-248. -/
def decompressStrip (src : List Nat) (h : Header) (pr : Params) (cfa : Nat → Nat → Nat) (qb : Option (List Nat)) (offset size n : Nat)
    (out : List Nat) : R (List Nat) := do
  let gs ← grads0 (h.lossless == 1) pr
  let data ← (if offset + size = src.length then slice src offset src.length else slice src offset (offset + size + 16) : R (List Nat))
  let lb := List.replicate 18 (List.replicate (pr.width + 2) 0)
  let (_, _, out) ← forN h.totalLines (fun line (pr, st, out) => do
    let (pr, st) ← setQ h qb line pr st
    let st ← decodeBlock pr (h.rawType == 16) st
    let lb ← moveLines st.lb
    let out ← copyLine h cfa (h.rawType == 16) n line lb out
    let lb ← clearLines pr.width lb
    .ok (pr, { st with lb := lb }, out)) (pr, ⟨lb, gs, gs, PumpMSB.new data⟩, out)
  .ok out

/-- `ByteStream::get_u32` with `Endian::Big`, pumps.rs:393-397. -/
def getU32 : List Nat → R (Nat × List Nat)
  | a :: b :: c :: d :: r => .ok (beU32 a b c d, r)
  | _ => panic'

/-- The header, :258-269, and the rest of the stream. -/
def parseHeader (buf : List Nat) : R (Header × List Nat) := do
  let (signature, s) ← Ljpeg.getU16 buf
  let (lossless, s) ← Ljpeg.getU8 s
  let (rawType, s) ← Ljpeg.getU8 s
  let (rawBits, s) ← Ljpeg.getU8 s
  let (rawHeight, s) ← Ljpeg.getU16 s
  let (roundedWidth, s) ← Ljpeg.getU16 s
  let (rawWidth, s) ← Ljpeg.getU16 s
  let (blockSize, s) ← Ljpeg.getU16 s
  let (blocksInRow, s) ← Ljpeg.getU8 s
  let (totalLines, s) ← Ljpeg.getU16 s
  .ok (⟨signature, lossless, rawType, rawBits, rawHeight, roundedWidth, rawWidth, blockSize, blocksInRow, totalLines⟩, s)

/-- The sizes of the strips, :294. -/
def blockSizes : Nat → List Nat → R (List Nat × List Nat)
  | 0, s => .ok ([], s)
  | n + 1, s => do
    let (v, s) ← getU32 s
    let (l, s) ← blockSizes n s
    .ok (v :: l, s)

/-- `(x + 0xF) & !0xF` -/
def pad16 (x : Nat) : Nat := (x + 15) / 16 * 16

/-- The strips, :311-325: offset, size and number of each, and the position after them. -/
def strips : Nat → Nat → List Nat → List (Nat × Nat × Nat) × Nat
  | pos, _, [] => ([], pos)
  | pos, n, s :: l => ((pos, s, n) :: (strips (pos + s) (n + 1) l).1, (strips (pos + s) (n + 1) l).2)

/-- Everything before the strips are processed, :257-327: header, parameters, bases and strips. -/
def prepare (buf : List Nat) (width height : Nat) (cfa : Nat → Nat → Nat) :
    R (Header × Params × Option (List Nat) × List (Nat × Nat × Nat)) := do
  let (h, s) ← parseHeader buf
  let ok ← h.isValid
  if !ok then fail' else do
  assert' (width == h.rawWidth && height == h.rawHeight)
  let pr ← Params.new h
  if (List.range 6).any (fun i => (List.range 6).any fun j => 2 < cfa i j) then fail' else do
  let (sizes, _) ← blockSizes h.blocksInRow s
  let pos := 16 + pad16 (h.blocksInRow * 4)
  let total := h.blocksInRow * pad16 h.totalLines
  let (qb, pos) ←
    (if h.lossless = 1 then .ok (none, pos) else do
      let q ← slice buf pos (pos + total)
      .ok (some q, pos + total) : R (Option (List Nat) × Nat))
  let r := strips pos 0 sizes
  let rem ← usub buf.length r.2
  assert' (rem ≤ 16)
  .ok (h, pr, qb, r.1)

/-- `decompress_fuji`, :256-343. `buf` is the padded buffer with its padding (`PaddedBuf` dereferences to all of it). The strips are
handed to a thread pool (:332); `order` is the order in which they are processed. They write different pixels, one whole strip at a
time in the model. -/
def decompressFuji (order : List Nat) (buf : List Nat) (width height : Nat) (cfa : Nat → Nat → Nat) : R (List Nat) := do
  let (h, pr, qb, strips) ← prepare buf width height cfa
  order.foldlM (fun out k => do
    let (offset, size, n) ← idx strips k
    let qs ←
      (match qb with
      | none => .ok none
      | some q => do
        let r ← slice q (n * pad16 h.totalLines) q.length
        .ok (some r) : R (Option (List Nat)))
    decompressStrip buf h pr cfa qs offset size n out) (List.replicate (width * height) 0)

end Verif.Fuji
