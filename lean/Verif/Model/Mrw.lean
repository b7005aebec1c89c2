import Verif.Model.Packed
/-! # Minolta MRW files, decoders/mrw.rs

The TIFF block inside is read by the TIFF reader, which is not part of this file; what is modelled is where it is looked for. The camera
table enters through the hint `swapped_wb`. Dividing the white balance values is floating point arithmetic and is left out. -/

namespace Verif.Mrw
open Verif Verif.Packed

/-- `BEu16`, bits.rs. -/
def beU16 (buf : List Nat) (pos : Nat) : R Nat := do
  let b ← slice buf pos (pos + 2)
  match b with
  | [x, y] => .ok (x * 256 + y)
  | _ => panic'

/-- `BEu32`, bits.rs. -/
def beU32 (buf : List Nat) (pos : Nat) : R Nat := do
  let b ← slice buf pos (pos + 4)
  match b with
  | [x, y, z, w] => .ok (x * 16777216 + y * 65536 + z * 256 + w)
  | _ => panic'

/-- `is_mrw`, mrw.rs:31-46. -/
def isMrw (file : List Nat) : Bool := if 4 ≤ file.length then file.take 4 == [0, 0x4D, 0x52, 0x4D] else false

/-- The variables of `new_mrw`, mrw.rs:147-154; `bits` is always 12. -/
structure Mrw where
  dataOffset : Nat
  rawHeight : Nat := 0
  rawWidth : Nat := 0
  packed : Bool := false
  wb : List Nat := [0, 0, 0, 0]
  tiffpos : Nat := 0
  deriving Repr, DecidableEq

/-- One block, mrw.rs:159-184. -/
def block (buf : List Nat) (pos : Nat) (s : Mrw) : R (Mrw × Nat) := do
  let tag ← beU32 buf pos
  let len ← beU32 buf (pos + 4)
  let s ← (if tag = 0x505244 then do
      let h ← beU16 buf (pos + 16)
      let w ← beU16 buf (pos + 18)
      let p ← idx buf (pos + 24)
      .ok { s with rawHeight := h, rawWidth := w, packed := p == 12 }
    else if tag = 0x574247 then do
      let a ← beU16 buf (pos + 12)
      let b ← beU16 buf (pos + 14)
      let c ← beU16 buf (pos + 16)
      let d ← beU16 buf (pos + 18)
      .ok { s with wb := [a, b, c, d] }
    else if tag = 0x545457 then .ok { s with tiffpos := pos + 8 }
    else .ok s : R Mrw)
  assert' (len + 8 < 2 ^ 32)
  .ok (s, pos + (len + 8))

/-- The loop over the blocks, mrw.rs:156-185, with at most `fuel` blocks; each has at least eight bytes. -/
def blocks (buf : List Nat) : Nat → Nat → Mrw → R Mrw
  | 0, _, _ => panic'
  | fuel + 1, pos, s =>
    if pos + 20 < s.dataOffset then do
      let (s, pos) ← block buf pos s
      blocks buf fuel pos s
    else .ok s

/-- `new_mrw`, mrw.rs:143-188, up to where the TIFF data are read: `subview_until_eof` fails behind the end of the file. -/
def newMrw (buf : List Nat) : R Mrw := do
  let len ← beU32 buf 4
  assert' (len + 8 < 2 ^ 32)
  let s ← blocks buf (len + 8) 8 { dataOffset := len + 8 }
  if s.tiffpos ≤ buf.length then .ok s else fail'

/-- The picture in `raw_image`, mrw.rs:207-216, of a file opened by `new_mrw`. -/
def rawImage (file : List Nat) (s : Mrw) : R (List Nat) :=
  if s.dataOffset ≤ file.length then
    if s.packed then dec12be (file.drop s.dataOffset) s.rawWidth s.rawHeight
    else decUnpacked (gMask g16be 0xfff) (file.drop s.dataOffset) s.rawWidth s.rawHeight
  else fail'

/-- The white balance values in `raw_image` before dividing, mrw.rs:218-222. -/
def wbCoeffs (swapped : Bool) (wb : List Nat) : R (List Nat) := do
  let a ← idx wb 0
  let b ← idx wb 1
  let c ← idx wb 2
  let d ← idx wb 3
  .ok (if swapped then [c, a, a, b] else [a, b, c, d])

/-- The window and the result of the loop in `get_mly_wb`. -/
structure Win where
  w0 : Nat := 0
  w1 : Nat := 0
  w2 : Nat := 0
  w3 : Nat := 0
  mul : List Nat := [1, 1, 1, 1]
  deriving Repr, DecidableEq

/-- One number in the loop of `get_mly_wb`, mrw.rs:86-98. -/
def winStep (s : Win) (v : Nat) : Win :=
  let s := { s with w0 := s.w2, w2 := s.w1, w1 := s.w3, w3 := v }
  if s.w1 = 256 ∧ s.w3 = 256 ∧ s.w0 > 256 ∧ s.w0 < 640 ∧ s.w2 > 256 ∧ s.w2 < 640 then
    { s with mul := [s.w0, s.w1, s.w3, s.w2] }
  else s

/-- The loop of `get_mly_wb`, mrw.rs:81-99: 16 bit numbers from the beginning of the file, as long as they begin before `dataOffset`. -/
def mlyWb (file : List Nat) (dataOffset : Nat) : List Nat :=
  ((List.range (min ((dataOffset + 1) / 2) (file.length / 2))).foldl
    (fun s i => winStep s (file.getD (2 * i) 0 * 256 + file.getD (2 * i + 1) 0)) {}).mul

end Verif.Mrw
