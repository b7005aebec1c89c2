import Verif.Model.Slice
/-! # Two-dimensional sample buffers (rawler/src/pixarray.rs, rawler/src/imgop/mod.rs, rawler/src/imgop/raw.rs)

`α` is the sample type (`u16`, `f32`) for `Pix2D` and the pixel type (`[T; N]`) for `Color2D`. The `initialized` flag
of `Pix2D` (buffers of the `dummy` mode, which hold no samples) is not modelled: all buffers here are initialised.
The sample accessor `at` is unchecked in release builds; the model panics where it would read out of range. -/

namespace Verif.Pix
open Verif

/-- `struct Point`, `struct Dim2`, `struct Rect`, imgop/mod.rs:53-113. -/
structure Rect where
  x : Nat
  y : Nat
  w : Nat
  h : Nat
  deriving DecidableEq, Repr

/-- `struct Pix2D<T>`, pixarray.rs:41-46, and `struct Color2D<T, N>`, pixarray.rs:354-359. -/
structure Pix (α : Type) where
  width : Nat
  height : Nat
  data : List α
  deriving DecidableEq, Repr

variable {α : Type}

/-- `Pix2D::row`, pixarray.rs:141-145. -/
def Pix.row (p : Pix α) (r : Nat) : R (List α) := slice p.data (r * p.width) (r * p.width + p.width)

/-- `Pix2D::at`, pixarray.rs:155-165, `Color2D::at`, pixarray.rs:425-434. -/
def Pix.at' (p : Pix α) (row col : Nat) : R α := idx p.data (row * p.width + col)

/-- `fn crop`, pixarray.rs:216-232 (`Pix2D::crop`, pixarray.rs:201-204). The output rows come from
`par_chunks_exact_mut(area.width())`, which panics for a width of 0. -/
def Pix.crop (p : Pix α) (a : Rect) : R (Pix α) :=
  if a.w = 0 then panic' else do
  let rows ← (List.range a.h).mapM fun row => do
    let src ← p.row (a.y + row)
    slice src a.x (a.x + a.w)
  .ok ⟨a.w, a.h, rows.flatten⟩

/-- `Pix2D::into_crop`, pixarray.rs:206-212. -/
def Pix.intoCrop (p : Pix α) (a : Rect) : R (Pix α) :=
  if p.width = a.w ∧ p.height = a.h ∧ a.x = 0 ∧ a.y = 0 then .ok p else p.crop a

/-- `imgop::crop`, imgop/mod.rs:223-234. -/
def cropSlice (input : List α) (dimW : Nat) (a : Rect) : R (List α) := do
  let rows ← chunksExact input dimW
  let out ← ((rows.drop a.y).take a.h).mapM fun row => slice row a.x (a.x + a.w)
  .ok out.flatten

/-- `Color2D::crop`, pixarray.rs:476-490. -/
def Pix.cropColor (p : Pix α) (a : Rect) : R (Pix α) := do
  assert' (a.y + a.h ≤ p.height)
  assert' (a.x + a.w ≤ p.width)
  let out ← cropSlice p.data p.width a
  .ok ⟨a.w, a.h, out⟩

/-- `Color2D::rotate_90cw`, pixarray.rs:492-501. `chunks_exact_mut(0)` panics for an image of height 0. -/
def Pix.rotate90cw (p : Pix α) : R (Pix α) :=
  if p.height = 0 then panic' else do
  let data ← genRows p.width p.height fun row col => do
    let a ← usub p.height 1
    let r ← usub a col
    p.at' r row
  .ok ⟨p.height, p.width, data⟩

/-- `Color2D::rotate_90ccw`, pixarray.rs:503-512. -/
def Pix.rotate90ccw (p : Pix α) : R (Pix α) :=
  if p.height = 0 then panic' else do
  let data ← genRows p.width p.height fun row col => do
    let a ← usub p.width 1
    let c ← usub a row
    p.at' col c
  .ok ⟨p.height, p.width, data⟩

/-- `Color2D::rotate_180`, pixarray.rs:514-517. -/
def Pix.rotate180 (p : Pix α) : Pix α := ⟨p.width, p.height, p.data.reverse⟩

/-- `imgop::raw::rotate_90`, imgop/raw.rs:269-279: one destination write per source sample, in source order. -/
def rotate90 (src dst : List α) (width height : Nat) : R (List α) := do
  if dst.length < src.length then panic' else
  let lines ← chunksExact src width
  forN lines.length (fun row dst => do
    let line ← idx lines row
    forN line.length (fun col dst => do
      let pix ← idx line col
      let a ← usub height 1
      let ocol ← usub a row
      -- `dst` was shortened to `src.len()` elements
      if col * height + ocol < src.length then upd dst (col * height + ocol) pix else panic') dst) dst

/-- `deinterleave2x2`, pixarray.rs:235-275 with `decompress_lines_fn` (decompressors/mod.rs:146-158): every output row
starts as zeros (`d`); `chunks_exact_mut(2)` leaves the last sample of a row of odd width untouched. Row `2k` interleaves the two upper
quadrants, row `2k+1` the two lower ones. `par_chunks_mut(0)` panics. `dbg` says whether the debug assertions are on. -/
def Pix.deinterleave2x2 (p : Pix α) (d : α) (dbg : Bool) : R (Pix α) := do
  let half := p.width / 2
  let ch0 := p.data
  let ch1 ← slice p.data half p.data.length
  let ch2 ← slice p.data (p.data.length / 2) p.data.length
  let ch3 ← slice p.data (p.data.length / 2 + half) p.data.length
  if p.width = 0 then panic' else do
  let rows ← (List.range p.height).mapM fun row => do
    let off := row / 2 * p.width
    let a ← slice (if row % 2 = 0 then ch0 else ch2) off (off + half)
    let b ← slice (if row % 2 = 0 then ch1 else ch3) off (off + half)
    if dbg ∧ a.length + b.length ≠ p.width then panic' else
    .ok ((a.zip b).flatMap (fun ab => [ab.1, ab.2]) ++ List.replicate (p.width % 2) d)
  .ok ⟨p.width, p.height, rows.flatten⟩

/-- `correct_blacklevel_cfa`, imgop/raw.rs:165-190. `corr k v` stands for `clip(v - blacklevel[k]) / max[k]`, the
floating point correction with the levels of position `k` in the 2x2 pattern. Two lines are processed at once by
`par_chunks_exact_mut(2 * width)`, two columns at once by `chunks_exact_mut(2)`; what does not fill a piece is left as it is. -/
def correctBlacklevelCfa (corr : Nat → α → α) (raw : List α) (width : Nat) : R (List α) := do
  let pairs ← chunksExact raw (width * 2)
  let line := fun (k : Nat) (l : List α) =>
    (List.range (l.length / 2)).flatMap (fun i =>
      ((l.drop (2 * i)).take 1).map (corr k) ++ ((l.drop (2 * i + 1)).take 1).map (corr (k + 1))) ++ l.drop (l.length / 2 * 2)
  .ok ((pairs.map fun p => line 0 (p.take width) ++ line 2 (p.drop width)).flatten
    ++ raw.drop (raw.length / (width * 2) * (width * 2)))

end Verif.Pix
