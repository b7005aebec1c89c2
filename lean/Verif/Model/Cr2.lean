import Verif.Model.LjpegDec
import Verif.Model.Linearize
import Verif.Model.Nef
import Verif.Model.I32
/-! # Canon CR2 (rawler/src/decoders/cr2.rs)

Modelled: from the JPEG data to the pixels of the image (`raw_image`, cr2.rs:111-251, without `dummy`), `interpolate_yuv` and
`convert_to_rgb`. What these take from tags, the camera entry and the makernotes is a parameter (`Tags`). The parallel loops of
`interpolate_yuv` and `convert_to_rgb` work on disjoint pieces of the image and are sequential here. `usize` overflow is not
modelled; `i32` overflow panics (checked build). -/

namespace Verif.Cr2
open Verif Verif.Ljpeg

/-- `dst[d..d + n].copy_from_slice(&src[s..s + n])` -/
def copyIn (dst : List Nat) (d : Nat) (src : List Nat) (s n : Nat) : R (List Nat) := do
  let b ← slice src s (s + n)
  if d + n ≤ dst.length then .ok (dst.take d ++ (b ++ dst.drop (d + n))) else panic'

/-- One vertical field, cr2.rs:226-232. -/
def field (width height fw : Nat) (src : List Nat) (fieldstart fieldpos : Nat) (out : List Nat) : R (List Nat) :=
  forN height (fun row out => copyIn out (row * width + fieldstart) src (fieldpos + row * fw) fw) out

/-- The loop over the fields, cr2.rs:218-235; `fieldwidth / sh` panics for `sh = 0`. -/
def fields (width height sh cpp : Nat) (src : List Nat) : List Nat → Nat → Nat → List Nat → R (List Nat)
  | [], _, _, out => .ok out
  | w :: ws, fieldstart, fieldpos, out => do
    if sh = 0 then panic' else
    let fw := w / sh * cpp
    let out ← field width height fw src fieldstart fieldpos out
    fields width height sh cpp src ws (fieldstart + fw) (fieldpos + fw * height) out

/-- The body of the loops for data decoded two lines at a time, cr2.rs:199-208. -/
def pairStep (width lw : Nat) (src : List Nat) (row pos : Nat) (s : List Nat × Nat) : R (List Nat × Nat) := do
  let out ← copyIn s.1 (row * width + pos) src s.2 3
  let out ← copyIn out ((row + 1) * width + pos) src (s.2 + lw) 3
  let inpos := s.2 + 3
  .ok (out, if inpos % lw = 0 then inpos + lw else inpos)

/-- The loops for data decoded two lines at a time, cr2.rs:191-212: every field has the width of the first one. -/
def fieldPairs (width height lw nfields fw : Nat) (src out : List Nat) : R (List Nat) := do
  let s ← forN nfields (fun i s =>
    forN ((height + 1) / 2) (fun row s =>
      forN ((fw + 2) / 3) (fun col s => pairStep width lw src (2 * row) (i * fw + 3 * col) s) s) s) (out, 0)
  .ok s.1

/-- The average of two samples, cr2.rs:640 and cr2.rs:656. -/
def avg (a b : Nat) : Nat := (a + b + 1) / 2

/-- Set the colours of the pixel at `p2` to the averages of those at `p1` and `p3`, cr2.rs:640-641 and 656-657. -/
def blend (s : List Nat) (p1 p2 p3 : Nat) : R (List Nat) := do
  let a ← idx s (p1 + 1)
  let b ← idx s (p3 + 1)
  let s ← upd s (p2 + 1) (avg a b)
  let a ← idx s (p1 + 2)
  let b ← idx s (p3 + 2)
  upd s (p2 + 2) (avg a b)

/-- The horizontal part for one row, cr2.rs:636-642: `col` is `6, 12, ..` below `width`. -/
def interpRow (width row : Nat) (s : List Nat) : R (List Nat) :=
  forN ((width - 1) / 6) (fun j s => blend s (row * width + 6 * j) (row * width + 6 * j + 3) (row * width + 6 * (j + 1))) s

/-- The work on one chunk of up to three rows, cr2.rs:631-659. -/
def interpChunk (sh sv width : Nat) (s : List Nat) : R (List Nat) := do
  let s ← if sh = 2 then do
      assert' (s.length % width = 0)
      forN (s.length / width) (fun row s => interpRow width row s) s
    else .ok s
  if sv = 2 ∧ s.length = width * 3 then
    forN ((width + 2) / 3) (fun j s => blend s (3 * j) (width + 3 * j) (2 * width + 3 * j)) s
  else .ok s

/-- `interpolate_yuv`, cr2.rs:623-660. -/
def interpolateYuv (sh sv width : Nat) (image : List Nat) : R (List Nat) := do
  if sh = 1 ∧ sv = 1 then .ok image else do
  let cs ← chunks image (width * 3)
  let cs ← cs.mapM (interpChunk sh sv width)
  .ok cs.flatten

/-- What `raw_image` and `convert_to_rgb` take from tags, camera entry and makernotes. -/
structure Tags where
  /-- the table of the camera hint `linearization`, 4096 entries -/
  linearization : Option (List Nat)
  /-- the tags ImageWidth and ImageLength -/
  dims : Option (Nat × Option Nat)
  doubleLine : Bool
  /-- the three values of the tag Cr2StripeWidths -/
  stripes : Option (Nat × Nat × Nat)
  /-- four values of ColorData from position 78 on -/
  levels : Option (Nat × Nat × Nat × Nat)
  invertWb : Bool
  sraw40d : Bool
  srawNew : Bool
  modelId : Option Nat
  firmware : Option Nat

/-- The coefficients, cr2.rs:529-545 and 712-721. The `f32` operations are exact, except the division of `invert_sraw_wb`; for a
16 bit divisor `n` the rounded quotient has the same integer part (the quotient is at least `1 / n` below the next integer, and the
rounding error is at most `2 ^ -4 / n`). `1 / 0.0` is infinite and saturates, NaN becomes 0. -/
def coeffs (t : Tags) : Nat × Nat × Nat :=
  match t.levels with
  | none => (0, 0, 0)
  | some (l0, l1, l2, l3) =>
    let inv (n : Nat) := if n = 0 then 2 ^ 31 - 1 else 1024 * 1024 / n
    if t.invertWb then (inv l0, (l1 + l2) / 2, inv l3) else (l0, (l1 + l2) / 2, l3)

/-- cr2.rs:727-733 -/
def version (t : Tags) : Nat := if t.sraw40d then 0 else if t.srawNew then 2 else 1

/-- cr2.rs:741-750; `sh * sv - 1` underflows when one of them is 0. -/
def hue (t : Tags) (sh sv : Nat) : R Nat :=
  match t.modelId with
  | none => .ok 0
  | some id =>
    if id ≥ 0x80000281 ∨ (id = 0x80000218 ∧ t.firmware.getD 0 > 1000006) then do
      let a ← usub (sh * sv) 1
      .ok (a / 2)
    else .ok (sh * sv)

/-- `c * x`, then `>> 8` and `clampbits(.., 16)` -/
def scale (c : Nat) (x : Int) : R Nat := do
  let p ← chkI32 (c * x)
  .ok (Nef.clampbits (p / 256) 16)

/-- The new values of one pixel, cr2.rs:754-793. `cb << 2`, `cr << 11` do not lose digits for 16 bit samples. -/
def pixel (version : Nat) (cf : Nat × Nat × Nat) (hue : Nat) (p0 p1 p2 : Nat) : R (List Nat) := do
  let y : Int := p0
  let cb : Int := p1 - 16383
  let cr : Int := p2 - 16383
  if version = 1 then do
    let cb ← chkI32 (cb * 4 + hue)
    let cr ← chkI32 (cr * 4 + hue)
    let a ← chkI32 (50 * cb)
    let b ← chkI32 (22929 * cr)
    let s ← chkI32 (a + b)
    let r ← scale cf.1 (y + s / 2 ^ 14)
    let a ← chkI32 (-5640 * cb)
    let b ← chkI32 (11751 * cr)
    let s ← chkI32 (a - b)
    let g ← scale cf.2.1 (y + s / 2 ^ 14)
    let a ← chkI32 (29040 * cb)
    let b ← chkI32 (101 * cr)
    let s ← chkI32 (a - b)
    let b ← scale cf.2.2 (y + s / 2 ^ 14)
    .ok [r, g, b]
  else do
    let y := if version = 0 then y - 512 else y
    let r ← scale cf.1 (y + cr)
    let s ← chkI32 (-778 * cb - cr * 2 ^ 11)
    let g ← scale cf.2.1 (y + s / 2 ^ 12)
    let b ← scale cf.2.2 (y + cb)
    .ok [r, g, b]

/-- The loop over the pixels, cr2.rs:754-802: an incomplete pixel at the end stays as it is. -/
def pixels (version : Nat) (cf : Nat × Nat × Nat) (hue : Nat) : List Nat → R (List Nat)
  | a :: b :: c :: rest => do
    let p ← pixel version cf hue a b c
    let ps ← pixels version cf hue rest
    .ok (p ++ ps)
  | l => .ok l

/-- `convert_to_rgb`, cr2.rs:690-804, without the environment variable RAWLER_CR2_YUV_INTERPOLATE. -/
def convertToRgb (t : Tags) (sh sv width : Nat) (image : List Nat) : R (List Nat) := do
  let image ← interpolateYuv sh sv width image
  let hue ← hue t sh sv
  pixels (version t) (coeffs t) hue image

/-- The linearisation, cr2.rs:127-141. -/
def linearize (t : Tags) (lj : List Nat) : R (List Nat) :=
  match t.linearization with
  | none => .ok lj
  | some curve => do
    let tbl ← Linearize.new curve
    let random ← idx lj 0
    Linearize.ditherRow tbl random lj

/-- The size of the image in samples, cr2.rs:143-155. -/
def size (t : Tags) (cpp width height : Nat) : R (Nat × Nat) :=
  if cpp = 3 then
    match t.dims with
    | some (w, some h) => .ok (w * cpp, h)
    | some (_, none) => fail'
    | none => if width / cpp < height then .ok (height * cpp, width / cpp) else .ok (width, height)
  else if t.doubleLine then .ok (width / 2, height * 2)
  else .ok (width, height)

/-- `update_dimension`, pixarray.rs:106-113 -/
def updateDimension (lw lh w h : Nat) (data : List Nat) : R (Nat × Nat × List Nat) :=
  if lw * lh = w * h then .ok (w, h, data) else panic'

/-- The image from the decoded JPEG data `lj` of `lh` rows of `lw` samples, cr2.rs:127-251: samples per row, rows, samples. -/
def assemble (t : Tags) (sh sv lw lh : Nat) (lj : List Nat) : R (Nat × Nat × List Nat) := do
  let cpp := if sh = 2 then 3 else 1
  let lj ← linearize t lj
  let (width, height) ← size t cpp lw lh
  match t.stripes with
  | none => updateDimension lw lh width height lj
  | some (n, w1, w2) =>
    if n = 0 then do
      let lj ← if cpp = 3 then convertToRgb t sh sv width lj else .ok lj
      updateDimension lw lh width height lj
    else do
      assert' (w1 > 0)
      assert' (w2 > 0)
      let ws := List.replicate n w1 ++ [w2]
      let out := List.replicate (width * height) 0
      let out ← if sv = 2 then fieldPairs width height lw ws.length w1 lj out
        else fields width height sh cpp lj ws 0 0 out
      let out ← if cpp = 3 then convertToRgb t sh sv width out else .ok out
      .ok (width, height, out)

/-- `super_h` and `super_v`, decompressors/ljpeg/mod.rs: those of the first component. -/
def supers (d : Dec) : R (Nat × Nat) := do
  let c ← idx d.sof.components 0
  .ok (c.superH, c.superV)

/-- The image of a CR2 file whose JPEG data are `src`, cr2.rs:111-251. -/
def rawImage (t : Tags) (src : List Nat) : R (Nat × Nat × List Nat) := do
  let d ← Dec.newFull src false false
  let (sh, sv) ← supers d
  let lj ← d.decode (List.replicate (d.width * d.sof.height) 0) 0 d.width d.width d.sof.height
  assemble t sh sv d.width d.sof.height lj

end Verif.Cr2
