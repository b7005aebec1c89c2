import Verif.Model.Demosaic
import Verif.Model.PixArray
import Verif.Model.Color
/-! # Demosaicing sensors with four colours

`Bilinear4Channel` and `Superpixel4Channel` (rawler/src/imgop/sensor/bayer), `PlaneColor` (rawler/src/cfa.rs). Samples are rational numbers, as in
`Model/Demosaic.lean`. -/

namespace Verif.Demosaic
open Verif Verif.Dng Verif.Pix
open Verif.Color (Quad)

/-- `PlaneColor::new`, cfa.rs:311-317: the colours of the channels of a pixel -/
def planeColor (names : List Char) : R (List Nat) := names.mapM charColor

/-- `plane_lookup_table`, cfa.rs:325-331 -/
def planeTable (colors : List Nat) (k : Nat) : Nat := colors.zipIdx.foldl (fun m p => if k = p.1 then p.2 else m) 255

/-- A store to one channel of a pixel; a pixel has four. -/
def put (q : Quad) (ch : Nat) (v : ℚ) : R Quad :=
  if ch = 0 then .ok (v, q.2)
  else if ch = 1 then .ok (q.1, v, q.2.2)
  else if ch = 2 then .ok (q.1, q.2.1, v, q.2.2.2)
  else if ch = 3 then .ok (q.1, q.2.1, q.2.2.1, v)
  else panic'

/-- What is stored to the pixel in row `r` and column `c`: the place whose colour says to which channel, and the value. The code stores to the corners
(bilinear.rs:46-64), the first and the last row (bilinear.rs:67-78), the first and the last column (bilinear.rs:80-91) and the others
(bilinear.rs:99-110); from two rows and columns on each pixel belongs to one of these groups, so that the model can go pixel by pixel. -/
def stores (px : Nat → Nat → ℚ) (w h r c : Nat) : List ((Nat × Nat) × ℚ) :=
  if r = 0 then
    if c = 0 then [((0, 0), px 0 0), ((0, 1), px 0 1), ((1, 0), px 1 0), ((1, 1), px 1 1)]
    else if c = w - 1 then [((0, w - 1), px 0 (w - 1)), ((0, w - 2), px 0 (w - 2)), ((1, w - 1), px 1 (w - 1)), ((1, w - 2), px 1 (w - 2))]
    else [((0, c), px 0 c), ((0, c + 1), (px 0 (c - 1) + px 0 (c + 1)) / 2), ((1, c), px 1 c), ((1, c + 1), (px 1 (c - 1) + px 1 (c + 1)) / 2)]
  else if r = h - 1 then
    if c = 0 then [((h - 1, 0), px (h - 1) 0), ((h - 1, 1), px (h - 1) 1), ((h - 2, 0), px (h - 2) 0), ((h - 2, 1), px (h - 2) 1)]
    else if c = w - 1 then
      [((h - 1, w - 1), px (h - 1) (w - 1)), ((h - 1, w - 2), px (h - 1) (w - 2)), ((h - 2, w - 1), px (h - 2) (w - 1)),
        ((h - 2, w - 2), px (h - 2) (w - 2))]
    else
      [((h - 1, c), px (h - 1) c), ((h - 1, c + 1), (px (h - 1) (c - 1) + px (h - 1) (c + 1)) / 2), ((h - 2, c), px (h - 2) c),
        ((h - 2, c + 1), (px (h - 2) (c - 1) + px (h - 2) (c + 1)) / 2)]
  else if c = 0 then
    [((r, 0), px r 0), ((r + 1, 0), (px (r - 1) 0 + px (r + 1) 0) / 2), ((r, 1), px r 1), ((r + 1, 1), (px (r - 1) 1 + px (r + 1) 1) / 2)]
  else if c = w - 1 then
    [((r, w - 1), px r (w - 1)), ((r + 1, w - 1), (px (r - 1) (w - 1) + px (r + 1) (w - 1)) / 2), ((r, w - 2), px r (w - 2)),
      ((r + 1, w - 2), (px (r - 1) (w - 2) + px (r + 1) (w - 2)) / 2)]
  else
    [((r, c), px r c), ((r + 1, c), (px (r - 1) c + px (r + 1) c) / 2), ((r, c + 1), (px r (c - 1) + px r (c + 1)) / 2),
      ((r + 1, c + 1), (px (r - 1) (c - 1) + px (r - 1) (c + 1) + px (r + 1) (c - 1) + px (r + 1) (c + 1)) / 4)]

/-- `Bilinear4Channel::demosaic_4ch`, bilinear.rs:31-113: the pixels row by row; `raw` has rows of `dw` samples, `colors` are the colours of the channels.
With less than two rows or columns `dim.h - 2` or `dim.w - 2` underflows or a sample is missing. The interior rows are computed in parallel, from
the unchanging input. -/
def bilinear4 (colors : List Nat) (raw : List ℚ) (dw : Nat) (cfa : CFA) (roi : Roi) : R (List Quad) := do
  if colors.length ≠ 4 then panic' else
  let s ← cfa.shift roi.x roi.y
  let ch := fun row col => planeTable colors (colFn s row col)
  let p ← (Pix.mk dw (raw.length / dw) raw).crop ⟨roi.x, roi.y, roi.w, roi.h⟩
  if p.width < 2 ∨ p.height < 2 then panic' else
  let px := fun row col => p.data.getD (row * p.width + col) 0
  genRows p.height p.width fun r c =>
    (stores px p.width p.height r c).foldlM (fun q e => put q (ch e.1.1 e.1.2) e.2) ((0, 0, 0, 0) : Quad)

/-- `PlaneColor::cfa_index`, cfa.rs:338-347 -/
def cfaIndex (cfa : CFA) (color : Nat) : R Nat :=
  match ((List.range cfa.height).flatMap fun row => (List.range cfa.width).map fun col => (row, col)).find? fun p => colFn cfa p.1 p.2 = color with
  | some p => .ok (p.1 * cfa.width + p.2)
  | none => panic'

/-- `Superpixel4Channel::demosaic`, superpixel.rs:90-133: width, height and pixels of the result. The parallel map over pairs of rows keeps their order. -/
def superpixel4 (colors : List Nat) (raw : List ℚ) (dw : Nat) (cfa : CFA) (roi : Roi) : R (Nat × Nat × List Quad) := do
  if colors.length ≠ 4 then panic' else
  let w := roi.w / 2 * 2
  let h := roi.h / 2 * 2
  let s ← cfa.shift roi.x roi.y
  let map ← colors.mapM (cfaIndex s)
  if raw.length < roi.y * dw + h * dw ∨ dw = 0 then panic' else
  let rows ← (List.range (h / 2)).mapM fun i => do
    if dw < roi.x + w then panic' else
    (List.range (w / 2)).mapM fun j => do
      let a := (roi.y + 2 * i) * dw + roi.x + 2 * j
      let b := (roi.y + 2 * i + 1) * dw + roi.x + 2 * j
      let p0 ← idx raw a
      let p1 ← idx raw (a + 1)
      let p2 ← idx raw b
      let p3 ← idx raw (b + 1)
      let sp := [p0, p1, p2, p3]
      let v0 ← idx sp (map.getD 0 0)
      let v1 ← idx sp (map.getD 1 0)
      let v2 ← idx sp (map.getD 2 0)
      let v3 ← idx sp (map.getD 3 0)
      .ok ((v0, v1, v2, v3) : Quad)
  .ok (w / 2, h / 2, rows.flatten)

end Verif.Demosaic
