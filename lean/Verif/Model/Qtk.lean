import Verif.Model.Pumps
import Verif.Model.Linearize
/-! # QuickTake 100 decompression (rawler/src/decoders/qtk.rs)

The array `pix` of 484 rows of 644 numbers is a function with checked bounds. All its values are between 0 and 255 (every store is clamped), so that no
`i16` operation overflows. The `dummy` flag is `false`. -/

namespace Verif.Qtk
open Verif Verif.Pumps

/-- `GSTEP`, qtk.rs:147 -/
def gstep : List Int := [-89, -60, -44, -32, -22, -15, -8, -2, 2, 8, 15, 22, 32, 44, 60, 89]

/-- `RSTEP`, qtk.rs:149-156 -/
def rstep : List (List Int) := [[-3, -1, 1, 3], [-5, -1, 1, 5], [-8, -2, 2, 8], [-13, -3, 3, 13], [-19, -4, 4, 19], [-28, -6, 6, 28]]

/-- `CURVE`, qtk.rs:158-169 -/
def curve : List Nat :=
  [0, 1, 2, 3, 4, 5, 6, 7, 8, 9, 11, 12, 13, 14, 15, 16, 17, 18, 19, 20, 21, 22, 23, 24, 25, 26, 27, 28, 29, 30, 32, 33,
   34, 35, 36, 37, 38, 39, 40, 41, 42, 43, 44, 45, 46, 47, 48, 49, 50, 51, 53, 54, 55, 56, 57, 58, 59, 60, 61, 62, 63, 64, 65, 66,
   67, 68, 69, 70, 71, 72, 74, 75, 76, 77, 78, 79, 80, 81, 82, 83, 84, 86, 88, 90, 92, 94, 97, 99, 101, 103, 105, 107, 110, 112, 114, 116,
   118, 120, 123, 125, 127, 129, 131, 134, 136, 138, 140, 142, 144, 147, 149, 151, 153, 155, 158, 160, 162, 164, 166, 168, 171, 173, 175, 177, 179, 181, 184, 186,
   188, 190, 192, 195, 197, 199, 201, 203, 205, 208, 210, 212, 214, 216, 218, 221, 223, 226, 230, 235, 239, 244, 248, 252, 257, 261, 265, 270, 274, 278, 283, 287,
   291, 296, 300, 305, 309, 313, 318, 322, 326, 331, 335, 339, 344, 348, 352, 357, 361, 365, 370, 374, 379, 383, 387, 392, 396, 400, 405, 409, 413, 418, 422, 426,
   431, 435, 440, 444, 448, 453, 457, 461, 466, 470, 474, 479, 483, 487, 492, 496, 500, 508, 519, 531, 542, 553, 564, 575, 587, 598, 609, 620, 631, 643, 654, 665,
   676, 687, 698, 710, 721, 732, 743, 754, 766, 777, 788, 799, 810, 822, 833, 844, 855, 866, 878, 889, 900, 911, 922, 933, 945, 956, 967, 978, 989, 1001, 1012, 1023]

/-- `pix` -/
abbrev Pix := Nat → Nat → Int

/-- `pix[r][c]` -/
def get (pix : Pix) (r c : Nat) : R Int := if r < 484 ∧ c < 644 then .ok (pix r c) else panic'

/-- `pix` with another value at one place -/
def put (pix : Pix) (r c : Nat) (v : Int) : Pix := fun a b => if a = r ∧ b = c then v else pix a b

/-- `pix[r][c] = v` -/
def set (pix : Pix) (r c : Nat) (v : Int) : R Pix := if r < 484 ∧ c < 644 then .ok (put pix r c v) else panic'

/-- `clamp(0, 255)` -/
def clamp (v : Int) : Int := if v < 0 then 0 else if 255 < v then 255 else v

/-- One green sample, qtk.rs:177-186. State: reader, `pix`, `val`. -/
def greenStep (row col : Nat) (st : PumpMSB × Pix × Int) : R (PumpMSB × Pix × Int) := do
  let (pump, pix, _) := st
  let a ← get pix (row - 1) (col - 1)
  let b ← get pix (row - 1) (col + 1)
  let l ← get pix row (col - 2)
  let (s, pump) ← getBits pump 4
  let d ← idx gstep s
  let val := clamp ((a + 2 * b + l) / 4 + d)
  let pix ← set pix row col val
  let pix ← (if col < 4 then do
      let pix ← set pix row (col - 2) val
      set pix (row + 1) ((row + 1) % 2) val
    else .ok pix : R Pix)
  let pix ← (if row = 2 then do
      let pix ← set pix (row - 1) (col + 1) val
      set pix (row - 1) (col + 3) val
    else .ok pix : R Pix)
  .ok (pump, pix, val)

/-- One row of greens, qtk.rs:173-188: the columns from `cstart` below `width + 2`, every other one -/
def greenRow (width r : Nat) (st : PumpMSB × Pix) : R (PumpMSB × Pix) := do
  let row := r + 2
  let cstart := 2 + row % 2
  let (pump, pix, val) ← forN ((width + 2 - cstart + 1) / 2) (fun j => greenStep row (cstart + 2 * j)) (st.1, st.2, 0)
  let pix ← set pix row (width + 2 + row % 2) val
  .ok (pump, pix)

/-- The first pass, qtk.rs:172-189 -/
def greens (width height : Nat) (st : PumpMSB × Pix) : R (PumpMSB × Pix) := forN height (greenRow width) st

/-- The table for a difference, qtk.rs:200-207 -/
def sharpness (v : Int) : Nat := if v < 4 then 0 else if v < 8 then 1 else if v < 16 then 2 else if v < 32 then 3 else if v < 48 then 4 else 5

/-- `sharp`, qtk.rs:194-208. The third value is read only here. -/
def sharp (pix : Pix) (row col : Nat) (u l : Int) : R Nat :=
  if row < 4 ∨ col < 4 then .ok 2
  else do
    let ul ← get pix (row - 2) (col - 2)
    .ok (sharpness ((u - l).natAbs + (u - ul).natAbs + (l - ul).natAbs : Nat))

/-- One red or blue sample, qtk.rs:194-218 -/
def otherStep (row col : Nat) (st : PumpMSB × Pix) : R (PumpMSB × Pix) := do
  let (pump, pix) := st
  let u ← get pix (row - 2) col
  let l ← get pix row (col - 2)
  let sh ← sharp pix row col u l
  let (s, pump) ← getBits pump 2
  let t ← idx rstep sh
  let d ← idx t s
  let val := clamp ((u + l) / 2 + d)
  let pix ← set pix row col val
  let pix ← (if row < 4 then set pix (row - 2) (col + 2) val else .ok pix : R Pix)
  let pix ← (if col < 4 then set pix (row + 2) (col - 2) val else .ok pix : R Pix)
  .ok (pump, pix)

/-- One row of reds or blues, qtk.rs:193-219 -/
def otherRow (width row : Nat) (st : PumpMSB × Pix) : R (PumpMSB × Pix) :=
  forN ((width + 2 - (3 - row % 2) + 1) / 2) (fun j => otherStep row (3 - row % 2 + 2 * j)) st

/-- The rows of one colour, qtk.rs:192-220: the rows from `2 + rb` below `height + 2`, every other one -/
def others (width height rb : Nat) (st : PumpMSB × Pix) : R (PumpMSB × Pix) :=
  forN ((height - rb + 1) / 2) (fun i => otherRow width (2 + rb + 2 * i)) st

/-- One sample of the third pass, qtk.rs:225-226 -/
def mixStep (row col : Nat) (pix : Pix) : R Pix := do
  let a ← get pix row (col - 1)
  let b ← get pix row col
  let c ← get pix row (col + 1)
  set pix row col (clamp ((a + b * 4 + c) / 2 - 256))

/-- The third pass, qtk.rs:223-228 -/
def mix (width height : Nat) (pix : Pix) : R Pix :=
  forN height (fun r => forN ((width + 2 - (3 - (r + 2) % 2) + 1) / 2) fun j => mixStep (r + 2) (3 - (r + 2) % 2 + 2 * j)) pix

/-- One row of the image, qtk.rs:231-237 -/
def outRow (tbl : List (Nat × Nat × Nat)) (pix : Pix) (width r : Nat) : R (List Nat) := do
  let a ← get pix (r + 2) 2
  let b ← get pix (r + 2) 3
  assert' (width + 2 ≤ 644)
  Linearize.ditherRow tbl (a.toNat * 2 ^ 16 + b.toNat) ((List.range width).map fun c => (pix (r + 2) (c + 2)).toNat)

/-- `decompress_quicktake_100`, qtk.rs:142-240 -/
def decompress100 (src : List Nat) (width height : Nat) : R (List Nat) := do
  assert' (decide (width > height))
  let (pump, pix) ← greens width height (PumpMSB.new src, fun _ _ => 128)
  let (pump, pix) ← others width height 0 (pump, pix)
  let (_, pix) ← others width height 1 (pump, pix)
  let pix ← mix width height pix
  let tbl ← Linearize.newWithBits curve 10
  let rows ← (List.range height).mapM (outRow tbl pix width)
  .ok rows.flatten

/-- `RawSource::subview`, rawsource.rs -/
def subview (file : List Nat) (offset len : Nat) : R (List Nat) := if offset + len ≤ file.length then .ok ((file.drop offset).take len) else fail'

/-- `get_u16` and `BEu16` -/
def be16 (b : List Nat) (i : Nat) : R Nat := do
  let x ← idx b i
  let y ← idx b (i + 1)
  .ok (x * 256 + y)

/-- Which way the picture has to be turned -/
inductive Turn where
  | normal
  | rotate90
  | rotate270
  deriving DecidableEq, Repr

/-- Width, height and orientation of the picture, qtk.rs:87-99 -/
def geometry (file : List Nat) (width height offset : Nat) : R (Nat × Nat × Turn) :=
  if height > width then do
    let info ← subview file (offset - 6) 6
    let x ← be16 info 0
    .ok (height, width, if (65535 - x) % 4 > 0 then .rotate90 else .rotate270)
  else .ok (width, height, .normal)

/-- `raw_image`, qtk.rs:76-115, for the QuickTake 100: width, height, orientation and samples. `subview_until_eof_padded` (rawsource.rs:106-118) adds 16
zero bytes. -/
def decode100 (file : List Nat) : R (Nat × Nat × Turn × List Nat) := do
  let header ← subview file 544 16
  let height ← be16 header 0
  let width ← be16 header 2
  let hint ← be16 header 8
  let offset := if hint = 30 then 738 else 736
  let (width, height, turn) ← geometry file width height offset
  let src ← (if offset < file.length then .ok (file.drop offset ++ List.replicate 16 0) else fail' : R (List Nat))
  let image ← decompress100 src width height
  .ok (width, height, turn, image)

end Verif.Qtk
