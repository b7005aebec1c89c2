import Verif.Model.PixArray
import Verif.Model.Tiff
/-! # DNG tags for mosaic pattern, black level and areas

The writer side is `RawFrame::write_rawimage` (rawler/src/dng/writer.rs), the reader side `DngDecoder` (rawler/src/decoders/dng.rs). A tag is modelled by
the numbers it carries (`Value::Short` etc.); how values get into a file and back is the subject of `Model/Tiff.lean`. -/

namespace Verif.Dng
open Verif Verif.Pix

/-! ## Mosaic pattern (rawler/src/cfa.rs) -/

/-- `struct CFA`, cfa.rs:72-82; `pattern` is the 48 x 48 matrix row after row. -/
structure CFA where
  name : List Char
  width : Nat
  height : Nat
  pattern : List Nat
  deriving DecidableEq, Repr

/-- `CFAColor::try_from(char)`, cfa.rs:38-54, with the `expect` of `CFA::new` -/
def charColor (c : Char) : R Nat :=
  if c = 'R' then .ok 0 else if c = 'G' then .ok 1 else if c = 'B' then .ok 2 else if c = 'E' then .ok 3 else if c = 'M' then .ok 4
  else if c = 'Y' then .ok 5 else if c = 'C' then .ok 3 else panic'

/-- The sizes known to `CFA::new`, cfa.rs:121-128: (width, height) -/
def cfaDim (n : Nat) : Option (Nat × Nat) :=
  if n = 0 then some (0, 0) else if n = 4 then some (2, 2) else if n = 36 then some (6, 6) else if n = 16 then some (2, 8)
  else if n = 144 then some (12, 12) else none

/-- `CFA::new`, cfa.rs:120-151. The second loop there copies cells of the upper left block, which it only replaces by themselves. Names are ASCII. -/
def CFA.new (name : List Char) : R CFA :=
  match cfaDim name.length with
  | none => panic'
  | some (w, h) =>
    if w = 0 then .ok { name := name, width := w, height := h, pattern := List.replicate 2304 0 }
    else do
      let codes ← name.mapM charColor
      let pattern ← genRows 48 48 fun r c => idx codes (r % h * w + c % w)
      .ok { name := name, width := w, height := h, pattern := pattern }

/-- `CFA::color_at`, cfa.rs:170-172 -/
def CFA.colorAt (c : CFA) (row col : Nat) : R Nat := idx c.pattern ((row + 48) % 48 * 48 + (col + 48) % 48)

/-- `CFA::flat_pattern`, cfa.rs:182-192 -/
def CFA.flatPattern (c : CFA) : R (List Nat) := genRows c.height c.width fun row col => idx c.pattern (row * 48 + col)

/-- The names `shift` gives to colours, cfa.rs:252-260 -/
def colorChar (x : Nat) : R Char :=
  if x = 0 then .ok 'R' else if x = 1 then .ok 'G' else if x = 2 then .ok 'B' else if x = 3 then .ok 'C' else if x = 4 then .ok 'M'
  else if x = 5 then .ok 'Y' else panic'

/-- `CFA::shift`, cfa.rs:241-270 -/
def CFA.shift (c : CFA) (x y : Nat) : R CFA := do
  let pattern ← genRows 48 48 fun row col => c.colorAt (row + y) (col + x)
  let name ← genRows c.height c.width fun row col => do
    let v ← idx pattern (row * 48 + col)
    colorChar v
  .ok { name := name, width := c.width, height := c.height, pattern := pattern }

/-- `CFA::new_from_tag`, cfa.rs:93-107 -/
def CFA.newFromTag (pat : List Nat) : R CFA :=
  CFA.new (pat.map fun v =>
    if v = 0 then 'R' else if v = 1 then 'G' else if v = 2 then 'B' else if v = 3 then 'C' else if v = 4 then 'M' else if v = 5 then 'Y' else 'U')

/-- The tags `CFARepeatPatternDim` and `CFAPattern` -/
structure CfaTags where
  dim : List Nat
  pattern : List Nat
  deriving DecidableEq, Repr

/-- writer.rs:281-288, `x`, `y` the origin of the active area -/
def writeCfa (c : CFA) (x y : Nat) : R CfaTags := do
  assert' (c.width ≠ 0 ∧ c.height ≠ 0)
  let s ← c.shift x y
  let p ← s.flatPattern
  .ok { dim := [s.width % 2 ^ 16, s.height % 2 ^ 16], pattern := p }

/-- `get_cfa`, decoders/dng.rs:336-349; `area` is the `ActiveArea` tag (top, left, bottom, right). `% 0` panics for an empty pattern. -/
def readCfa (t : CfaTags) (area : Option (List Nat)) : R CFA := do
  let c ← CFA.newFromTag t.pattern
  match area with
  | none => .ok c
  | some a => do
    let top ← idx a 0
    let left ← idx a 1
    if c.width = 0 ∨ c.height = 0 then panic' else
    c.shift (left % c.width) (top % c.height)

/-! ## Black level (rawler/src/rawimage.rs) -/

/-- `struct BlackLevel`, rawimage.rs:65-70; a level is a fraction (numerator, denominator) -/
structure BlackLevel where
  levels : List (Nat × Nat)
  width : Nat
  height : Nat
  cpp : Nat
  deriving DecidableEq, Repr

/-- `BlackLevel::new`, rawimage.rs:91-102 -/
def BlackLevel.new (levels : List (Nat × Nat)) (width height cpp : Nat) : R BlackLevel := do
  assert' (levels.length = width * height * cpp)
  .ok { levels := levels, width := width, height := height, cpp := cpp }

/-- `BlackLevel::shift`, rawimage.rs:146-162. The destination cells are written once each, row by row and without gaps, so the loop is modelled by
collecting them; slices that do not lie in `levels` panic. -/
def BlackLevel.shift (b : BlackLevel) (x y : Nat) : R BlackLevel :=
  if b.cpp * b.width * b.height = 1 then .ok b
  else do
    let cells ← genRows b.height b.width fun yn xn =>
      let ys := (yn + y) % b.height
      let xs := (xn + x) % b.width
      slice b.levels (ys * b.width * b.cpp + xs * b.cpp) (ys * b.width * b.cpp + xs * b.cpp + b.cpp)
    .ok { b with levels := cells.flatten ++ b.levels.drop (b.height * b.width * b.cpp) }

/-- The tag `BlackLevel` in one of its three types -/
inductive LevelTag where
  | short (v : List Nat)
  | long (v : List Nat)
  | rational (v : List (Nat × Nat))
  deriving DecidableEq, Repr

structure BlackTags where
  dim : List Nat
  levels : LevelTag
  deriving DecidableEq, Repr

/-- writer.rs:246-267 -/
def writeBlack (b : BlackLevel) (x y : Nat) : R BlackTags := do
  let s ← b.shift x y
  let dim := [s.height % 2 ^ 16, s.width % 2 ^ 16]
  if s.levels.all (fun l => l.2 == 1) then
    if s.levels.all (fun l => l.1 ≤ 65535) then .ok { dim := dim, levels := .short (s.levels.map (·.1)) }
    else .ok { dim := dim, levels := .long (s.levels.map (·.1)) }
  else .ok { dim := dim, levels := .rational s.levels }

/-- `get_blacklevels`, decoders/dng.rs:294-318, both tags present, the first of type SHORT -/
def readBlack (t : BlackTags) (cpp : Nat) : R BlackLevel :=
  let levels := match t.levels with
    | .short v | .long v => v.map fun n => (n, 1)
    | .rational v => v
  match t.dim with
  | [a, b] => BlackLevel.new levels b a cpp
  | _ => BlackLevel.new levels 1 1 cpp

/-! ## Areas -/

/-- `x as u16` -/
def u16 (x : Nat) : Nat := x % 2 ^ 16

/-- `u16 + u16`, panics on overflow (checked build) -/
def addU16 (a b : Nat) : R Nat := if a + b < 2 ^ 16 then .ok (a + b) else panic'

/-- `rect_to_dng_area`, dng/mod.rs:22-28 -/
def rectToDngArea (a : Rect) : R (List Nat) := do
  let bottom ← addU16 (u16 a.y) (u16 a.h)
  let right ← addU16 (u16 a.x) (u16 a.w)
  .ok [u16 a.y, u16 a.x, bottom, right]

/-- `Rect::new_with_points`, imgop/mod.rs:123-133 -/
def newWithPoints (x1 y1 x2 y2 : Nat) : R Rect := do
  assert' (x1 ≤ x2)
  assert' (y1 ≤ y2)
  .ok ⟨x1, y1, x2 - x1, y2 - y1⟩

/-- `Rect::as_ltrb_offsets`, imgop/mod.rs:159-161 -/
def ltrbOffsets (r : Rect) (width height : Nat) : R (List Nat) := do
  let right ← usub width (r.x + r.w)
  let bottom ← usub height (r.y + r.h)
  .ok [r.x, r.y, right, bottom]

/-- `Rect::new_with_borders`, imgop/mod.rs:135-137 -/
def newWithBorders (w h : Nat) (b : List Nat) : R Rect := do
  let l ← idx b 0
  let t ← idx b 1
  let r ← idx b 2
  let r ← usub w r
  let m ← idx b 3
  let m ← usub h m
  newWithPoints l t r m

/-- `CropMode`, dng/mod.rs -/
inductive CropMode where
  | none
  | activeArea
  | best
  deriving DecidableEq, Repr

/-- `ImageWidth`, `ImageLength`, `ActiveArea`, `DefaultCropOrigin` and `DefaultCropSize` -/
structure AreaTags where
  width : Nat
  height : Nat
  active : List Nat
  crop : Option (List Nat × List Nat)
  deriving DecidableEq, Repr

/-- The area the writer takes for active, writer.rs:179-185 -/
def activeOf (width height : Nat) (active : Option Rect) : CropMode → Rect
  | .none => ⟨0, 0, width, height⟩
  | _ => active.getD ⟨0, 0, width, height⟩

/-- writer.rs:199-205 and 209-215 -/
def writeCrop (a c : Rect) : R (List Nat × List Nat) := do
  assert' (a.x ≤ c.x)
  assert' (a.y ≤ c.y)
  .ok ([u16 (c.x - a.x), u16 (c.y - a.y)], [u16 c.w, u16 c.h])

/-- writer.rs:179-218 -/
def writeAreas (width height : Nat) (active crop : Option Rect) (mode : CropMode) : R AreaTags := do
  let a := activeOf width height active mode
  assert' (a.x + a.w ≤ width)
  assert' (a.y + a.h ≤ height)
  let area ← rectToDngArea a
  let c ← match mode with
    | .none => .ok Option.none
    | .activeArea => (writeCrop a a).map some
    | .best => (writeCrop a (crop.getD a)).map some
  .ok { width := width % 2 ^ 32, height := height % 2 ^ 32, active := area, crop := c }

/-- `get_active_area`, decoders/dng.rs:361-367, with `Rect::new_with_dng`, imgop/mod.rs:140-142 -/
def readActive (t : AreaTags) : R (List Nat) := do
  let top ← idx t.active 0
  let left ← idx t.active 1
  let bottom ← idx t.active 2
  let right ← idx t.active 3
  let r ← newWithPoints left top right bottom
  ltrbOffsets r t.width t.height

/-- `get_crop`, decoders/dng.rs:369-378, and its use in `make_camera`, decoders/dng.rs:240-252 -/
def readCrop (t : AreaTags) (active : List Nat) : R (Option (List Nat)) :=
  match t.crop with
  | none => .ok none
  | some (p, d) => do
    let x ← idx p 0
    let y ← idx p 1
    let w ← idx d 0
    let h ← idx d 1
    let l ← idx active 0
    let tp ← idx active 1
    let o ← ltrbOffsets ⟨x + l, y + tp, w, h⟩ t.width t.height
    .ok (some o)

/-- The active and crop area of the image read, `make_camera` (decoders/dng.rs:239-255) and `RawImage::new_with_data` (rawimage.rs:421-425, 468) -/
def readAreas (t : AreaTags) : R (Rect × Option Rect) := do
  let a ← readActive t
  let c ← readCrop t a
  let active ← newWithBorders t.width t.height a
  match c with
  | none => .ok (active, none)
  | some b => do
    let crop ← newWithBorders t.width t.height b
    .ok (active, some crop)

end Verif.Dng
