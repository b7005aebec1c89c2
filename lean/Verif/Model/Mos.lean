import Verif.Model.Small
import Verif.Model.Leaf
import Verif.Model.Kodak
/-! # Leaf MOS (decoders/mos.rs), Hasselblad 3FR (decoders/tfr.rs) and Kodak DCR (decoders/dcr.rs) files

The decompression of the samples is in `Model/Leaf` and `Model/Kodak`. Text is a list of bytes, in ASCII. A TIFF entry of numbers is the list of its values. The
lookup of the camera is not modelled; its hints are parameters. `f32` is rational. The `dummy` flag is `false`. -/

namespace Verif.Mos
open Verif Verif.Packed Verif.Kdc Verif.Small

/-- `str::find`: the first place of a pattern -/
def find (pat text : List Nat) : Option Nat := (List.range (text.length + 1)).find? fun i => pat.isPrefixOf (text.drop i)

/-- `<tiff:` -/
def openTag : List Nat := [60, 116, 105, 102, 102, 58]

/-- `</tiff:` -/
def closeTag : List Nat := [60, 47, 116, 105, 102, 102, 58]

/-- `ok_or_else`, mos.rs:114-115 -/
def found (o : Option Nat) : R Nat :=
  match o with
  | some i => .ok i
  | none => fail'

/-- `xmp_tag`, mos.rs:110-118 -/
def xmpTag (xmp : Option Entry) (tag : List Nat) : R (List Nat) := do
  let e ← fetch xmp
  let text ← e.data
  let start ← found (find (openTag ++ tag ++ [62]) text)
  let stop ← found (find (closeTag ++ tag ++ [62]) text)
  slice text (start + tag.length + 7) stop

/-- `split_terminator` -/
def splitTerm (c : Nat) : List Nat → List (List Nat)
  | [] => []
  | x :: r =>
    if x = c then [] :: splitTerm c r
    else match splitTerm c r with
      | [] => [[x]]
      | l :: ls => (x :: l) :: ls

/-- The make and the model, mos.rs:34-36. `expect` panics if there is no part. -/
def names (xmp : Option Entry) : R (List Nat × List Nat) := do
  let make ← xmpTag xmp [77, 97, 107, 101]
  let full ← xmpTag xmp [77, 111, 100, 101, 108]
  match (splitTerm 40 full).head? with
  | some model => .ok (make, model)
  | none => panic'

/-- `NeutObj_neutrals` -/
def neutrals : List Nat := [78, 101, 117, 116, 79, 98, 106, 95, 110, 101, 117, 116, 114, 97, 108, 115]

/-- The factors from the text, mos.rs:93-103: pairs of a dividend and a divisor. `parse` is `str::parse::<f32>`, `none` is NaN. -/
def factors (parse : List Nat → Option Rat) (data : List Nat) : Option (List (Option Rat × Option Rat)) :=
  match data.findIdx? (· = 0) with
  | none => none
  | some endpos =>
    match (splitTerm 10 (data.take endpos)).map parse with
    | [a, b, c, d] => some [(a, b), (a, c), (a, d)]
    | _ => none

/-- `get_wb`, mos.rs:87-108; the `while` loop looks at each place below `meta.len() - 70`. `none` are factors of NaN. -/
def mosWb (parse : List Nat → Option Rat) (entry : Option Entry) : R (Option (List (Option Rat × Option Rat))) := do
  let e ← fetch entry
  let leaf ← e.data
  match (List.range (leaf.length - 70)).find? fun pos => (leaf.drop pos).take 16 == neutrals with
  | none => .ok none
  | some pos => .ok (factors parse (leaf.drop (pos + 44)))

/-- The tags of the directory with the picture -/
structure MosDir where
  width : Option (List Nat)
  length : Option (List Nat)
  tileOffsets : Option (List Nat)
  compression : Option (List Nat)

/-- `raw_image` of MOS, mos.rs:44-69, without `get_wb`; `le` is the byte order of the file and `interlaced` a hint of the camera. -/
def mosImage (file : List Nat) (dir : Option MosDir) (le interlaced : Bool) : R Pic := do
  let raw ← fetch dir
  let w ← fetch raw.width
  let h ← fetch raw.length
  let o ← fetch raw.tileOffsets
  let c ← fetch raw.compression
  let src ← untilEof file (force o 0)
  let image ←
    if force c 0 = 1 then (if le then dec16le src (force w 0) (force h 0) else dec16be src (force w 0) (force h 0))
    else if force c 0 = 7 ∨ force c 0 = 99 then Leaf.decodeMos src interlaced (force w 0) (force h 0)
    else fail'
  .ok ⟨force w 0, force h 0, image⟩

/-- `1.0 / x`, `none` for infinity -/
def recip (x : Rat) : Option Rat := if x = 0 then none else some (1 / x)

/-- `get_wb` of 3FR, tfr.rs:165-169 -/
def tfrWb (neutral : Option (List Rat)) : R (Option Rat × Option Rat × Option Rat) := do
  let l ← fetch neutral
  assert' (decide (l.length = 3))
  .ok (recip (l.getD 0 0), recip (l.getD 1 0), recip (l.getD 2 0))

/-- The directory of a 3FR picture -/
structure TfrDir where
  base : Dir
  white : Option (List Nat)
  black : Option (List Nat)

/-- `raw_image` of 3FR, tfr.rs:51-88: the picture, the white level, the black level and the white balance. The crop is not modelled. -/
def tfrImage (file : List Nat) (dir : Option TfrDir) (uncompressed : Bool) (neutral : Option (List Rat)) :
    R (Pic × Option Nat × Option Nat × (Option Rat × Option Rat × Option Rat)) := do
  let raw ← fetch dir
  let w ← fetch raw.base.width
  let h ← fetch raw.base.length
  let o ← fetch raw.base.stripOffsets
  let src ← untilEof file (force o 0)
  let image ← if uncompressed then dec16le src (force w 0) (force h 0) else Leaf.decodeTfr src (force w 0) (force h 0)
  let wb ← tfrWb neutral
  .ok (⟨force w 0, force h 0, image⟩, raw.white.map (force · 0), raw.black.map (force · 0), wb)

/-- `2048.0 / n`, `none` for infinity -/
def part2048 (n : Nat) : Option Rat := if n = 0 then none else some (2048 / n)

/-- `get_wb` of DCR, dcr.rs:96-109: `none` are factors of NaN. -/
def dcrWb (entry : Option Entry) : R (Option (Option Rat × Option Rat × Option Rat)) := do
  let e ← fetch entry
  if e.count ≥ 46 then do
    let d ← e.data
    let r ← be16 d 40
    let g ← be16 d 42
    let b ← be16 d 44
    .ok (some (part2048 r, part2048 g, part2048 b))
  else .ok none

/-- `raw_image` of DCR, dcr.rs:54-78, without `get_wb` -/
def dcrImage (file : List Nat) (dir : Option Dir) (lin : Option (List Nat)) : R Pic := do
  let raw ← fetch dir
  let w ← fetch raw.width
  let h ← fetch raw.length
  let o ← fetch raw.stripOffsets
  let src ← untilEofPadded file (force o 0)
  let l ← fetch lin
  let curve ← Linearize.new (l.map (· % 65536))
  let image ← Kodak.decode65000 src curve (force w 0) (force h 0)
  .ok ⟨force w 0, force h 0, image⟩

end Verif.Mos
