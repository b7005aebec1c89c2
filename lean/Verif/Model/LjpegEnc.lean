import Verif.Model.HuffBuilder
import Verif.Model.JpegBitWriter
/-!
# Lossless JPEG encoder (`rawler/src/ljpeg92.rs`)
-/

namespace Verif.Ljpeg
open Verif

/-- The loop of `build_num_bits_tbl` (ljpeg92.rs:48-57) for one entry `i ≥ 1`: `tmp` is halved until zero. -/
def numBitsLoop : Nat → Nat → Nat → Nat
  | 0, nbits, _ => nbits
  | fuel + 1, nbits, tmp => if tmp / 2 ≠ 0 then numBitsLoop fuel (nbits + 1) (tmp / 2) else nbits

/-- `NUM_BITS_TBL`, ljpeg92.rs:41-67. -/
def NUM_BITS_TBL : List Nat := (List.range 256).map fun i => if i = 0 then 0 else numBitsLoop 8 1 i

/-- `lookup_ssss`, ljpeg92.rs:72-81. `diff` is an `i16`. -/
def lookupSsss (diff : Int) : Nat :=
  let a := diff.natAbs
  if a ≥ 256 then NUM_BITS_TBL.getD ((a >>> 8) &&& 0xff) 0 + 8 else NUM_BITS_TBL.getD (a &&& 0xff) 0

/-- `x as i16`. -/
def wrapI16 (x : Int) : Int := (x + 32768) % 65536 - 32768

/-- The checked parameters of `LjpegCompressor` (ljpeg92.rs:130-153). `dbg` says whether debug assertions are on. -/
structure Enc where
  image : List Nat
  width : Nat
  height : Nat
  components : Nat
  bitdepth : Nat
  pt : Nat
  predictor : Nat
  padding : Nat
  dbg : Bool

/-- `LjpegCompressor::new`, ljpeg92.rs:564-612. -/
def Enc.new (image : List Nat) (width height components bitdepth predictor pt padding : Nat) (dbg : Bool) : R Enc :=
  if ¬ (1 ≤ predictor ∧ predictor ≤ 7) then fail' else
  if image.length < height * ((width + padding) * components) then fail' else
  if ¬ (2 ≤ bitdepth ∧ bitdepth ≤ 16) then fail' else
  if height > 65535 then fail' else
  if width > 65535 then fail' else
  .ok ⟨image, width, height, components, bitdepth, pt, predictor, padding, dbg⟩

/-- The predictor functions selected in `ljpeg92_diff` (ljpeg92.rs:862-893) from the neighbours
Ra (left), Rb (above), Rc (above left). `>>` on `i32` is floor division. -/
def predict (px : Nat) (ra rb rc : Int) : Int :=
  match px with
  | 1 => ra
  | 2 => rb
  | 3 => rc
  | 4 => ra + rb - rc
  | 5 => ra + (rb - rc) / 2
  | 6 => rb + (ra - rc) / 2
  | _ => (ra + rb) / 2

/-- `ljpeg92_diff::<NCOMP, PX>`, ljpeg92.rs:824-905. `first` stands for the pointer comparison
`row_curr.as_ptr() == row_prev.as_ptr()`, which holds exactly for the first row when `linesize > 0`. The loops over `idx`
write `diffs[idx]` independently; the model lists the results. When `linesize = 0` the code reads outside the (empty)
row slice before the bounds check of `diffs`; the model reports a panic. -/
def diffRow (e : Enc) (first : Bool) (prev curr : List Nat) : R (List Int) :=
  let n := e.components
  let linesize := (e.width + e.padding) * e.components
  if n = 0 ∨ n > 4 then panic' else                          -- unreachable!(), ljpeg92.rs:674
  let samplecnt := linesize / n * n
  if prev.length < samplecnt ∨ curr.length < samplecnt then panic' else  -- slicing, ljpeg92.rs:835-836
  let prev := prev.take samplecnt
  let curr := curr.take samplecnt
  if e.bitdepth < e.pt + 1 ∨ e.pt > 15 then panic' else     -- u8 subtraction, `>>` on u16
  if e.dbg ∧ ¬ (∀ s ∈ curr, s >>> e.pt ≤ 2 ^ (e.bitdepth - e.pt) - 1) then panic' else -- ljpeg92.rs:840-846
  if samplecnt < n then panic' else                          -- `diffs[0 + comp]`
  let x := fun (row : List Nat) i => ((row.getD i 0 >>> e.pt : Nat) : Int)
  .ok ((List.range samplecnt).map fun i =>
    let px : Int :=
      if first then
        if i < n then ((1 <<< (e.bitdepth - e.pt - 1) % 2 ^ 16 : Nat) : Int) else x curr (i - n)
      else if i < n then x prev i
      else predict e.predictor (x curr (i - n)) (x prev i) (x prev (i - n))
    wrapI16 (x curr i - px))

/-- The row loop of `scan_frequency`, ljpeg92.rs:668-685 (the `cache` part): differences of row `row` cut to the row
width. `row_curr` is `image[row * linesize ..]`, `row_prev` the same for the previous row. -/
def scanRow (e : Enc) (row : Nat) : R (List Int) := do
  let linesize := (e.width + e.padding) * e.components
  let ds ← diffRow e (row = 0) (e.image.drop ((row - 1) * linesize)) (e.image.drop (row * linesize))
  .ok (ds.take (e.width * e.components))

/-- `scan_frequency`, ljpeg92.rs:642-695: all differences in raster order. -/
def scan (e : Enc) : R (List Int) :=
  forN e.height (fun row cache => do
    let ds ← scanRow e row
    .ok (cache ++ ds)) []

/-- The histogram of component `comp` (ljpeg92.rs:679-683). The code updates all components in one pass over the
rows; `i % components` restarts at every row, whose length is a multiple of `components`, so the index into `cache`
gives the same component. -/
def histogram (components : Nat) (cache : List Int) (comp : Nat) : List Nat :=
  cache.zipIdx.foldl (fun h di =>
    if di.2 % components = comp then h.modify (lookupSsss di.1) (· + 1) else h) (List.replicate 17 0)

/-- `write_u16::<BigEndian>`. -/
def be16 (n : Nat) : List Nat := [n / 256 % 256, n % 256]

/-- `BitArray::cmp`, bitarray.rs:35-42, as `≤`. -/
def Code.le (a b : Code) : Bool := a.nbits < b.nbits || (a.nbits = b.nbits && a.storage ≤ b.storage)

/-- Symbols with a code of length `len`, in code order (ljpeg92.rs:754-765). -/
def symbolsOfLen (T : List Code) (len : Nat) : List Nat :=
  (((T.zipIdx.filter fun p => p.1.nbits = len).mergeSort fun a b => a.1.le b.1).map fun p => p.2 % 256)

/-- The DHT segment of one component (ljpeg92.rs:734-767). -/
def dhtSegment (comp : Nat) (T : List Code) : List Nat :=
  [0xff, 0xc4] ++ be16 (2 + (1 + 16) + (T.filter fun c => c.nbits ≠ 0).length) ++ [comp % 256] ++
    ((List.range 16).map fun i => (T.filter fun c => c.nbits = i + 1).length % 256) ++
    (List.range 16).flatMap fun i => symbolsOfLen T (i + 1)

/-- `write_header`, ljpeg92.rs:716-781. -/
def header (e : Enc) (tables : List (List Code)) : R (List Nat) :=
  if e.dbg ∧ e.pt > 15 then panic' else
  .ok ([0xff, 0xd8, 0xff, 0xc3] ++ be16 (2 + 6 + e.components * 3) ++ [e.bitdepth] ++ be16 e.height ++ be16 e.width ++
    [e.components % 256] ++ ((List.range e.components).flatMap fun c => [c % 256, 0x11, 0]) ++
    (tables.zipIdx.flatMap fun p => dhtSegment p.2 p.1) ++
    [0xff, 0xda] ++ be16 (6 + e.components * 2) ++ [e.components % 256] ++
    ((List.range e.components).flatMap fun c => [c % 256, (c <<< 4) % 256]) ++
    [e.predictor, 0, e.pt &&& 0xf])

/-- One difference of `write_body`, ljpeg92.rs:791-810. `(diff & (0xFFFF >> (16 - ssss)))` on the two's complement
value is the remainder modulo `2^ssss`. -/
def writeDiff (e : Enc) (T : List Code) (w : BitWriter) (diff : Int) : R BitWriter := do
  let ssss := lookupSsss diff
  let enc ← idx T ssss
  let value ← enc.getLsb
  if e.dbg ∧ enc.nbits = 0 then panic' else do
    let w ← w.write enc.nbits value
    if ssss &&& 15 ≠ 0 then
      let d := if diff < 0 then diff - 1 else diff
      w.write ssss (d % 2 ^ ssss).toNat
    else .ok w

/-- `write_body`, ljpeg92.rs:789-815. -/
def writeBody (e : Enc) (tables : List (List Code)) (cache : List Int) (out : List Nat) : R (List Nat) := do
  let w ← cache.zipIdx.foldlM (fun w di => do
    if e.components = 0 then panic' else do
    let T ← idx tables (di.2 % e.components)
    writeDiff e T w di.1) (BitWriter.new out)
  .ok w.flush.out

/-- `encode`, ljpeg92.rs:620-635, including `write_post` (ljpeg92.rs:783-786). -/
def Enc.encode (e : Enc) : R (List Nat) := do
  let cache ← scan e
  let tables ← (List.range e.components).mapM fun c => buildTable (histogram e.components cache c)
  let hdr ← header e tables
  let body ← writeBody e tables cache hdr
  .ok (body ++ [0xff, 0xd9])

/-- `LjpegCompressor::new(..)?.encode()`. -/
def encode (image : List Nat) (width height components bitdepth predictor pt padding : Nat) (dbg : Bool) :
    R (List Nat) := do
  let e ← Enc.new image width height components bitdepth predictor pt padding dbg
  e.encode

end Verif.Ljpeg
