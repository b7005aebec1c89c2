import Verif.Spec.Tiff
import Verif.Spec.Image
import Verif.Model.Develop
/-! # What the TIFF file of a developed picture should say

The reading side is that of the TIFF 6.0 standard: the tags of the first directory tell where the strips are, and a strip holds lines of samples. -/

namespace Verif.Spec.DevelopTiff
open Verif Verif.Tiff Verif.Spec Verif.Develop

/-- The picture has `h` lines of `w` pixels of `n` samples; `f r c k` is sample `k` of the pixel at line `r`, column `c`. -/
def Shows (i : Inter) (w h n : Nat) (f : Nat → Nat → Nat → ℚ) : Prop :=
  match i with
  | .mono p => n = 1 ∧ p.width = w ∧ p.height = h ∧ Holds p.data w h fun r c => f r c 0
  | .three p => n = 3 ∧ p.width = w ∧ p.height = h ∧ Holds p.data w h fun r c => (f r c 0, f r c 1, f r c 2)
  | .four p => n = 4 ∧ p.width = w ∧ p.height = h ∧ Holds p.data w h fun r c => (f r c 0, f r c 1, f r c 2, f r c 3)

/-- `v` is the 16 bit number for the brightness `p`: 0 for black, 65535 for white, rounded down between. -/
def Sixteen (p : ℚ) (v : Nat) : Prop := (p ≤ 0 → v = 0) ∧ (1 ≤ p → v = 65535) ∧ (0 ≤ p → p ≤ 1 → (v : ℚ) ≤ p * 65535 ∧ p * 65535 < v + 1)

/-- Sample `k` of the pixel at line `r`, column `c`, of a TIFF file with strips of `rows` lines of `w` pixels of `n` samples of 16 bits -/
def stripSample (unlzw : List Nat → List Nat) (F : List Nat) (rows : Nat) (offs counts : List Nat) (w n r c k : Nat) : Option Nat := do
  let o ← offs[r / rows]?
  let len ← counts[r / rows]?
  let strip := unlzw ((F.drop o).take len)
  let i := (r % rows * w + c) * n + k
  let lo ← strip[2 * i]?
  let hi ← strip[2 * i + 1]?
  some (lo + 256 * hi)

/-- The value of a tag in a directory that was read -/
def tag (d : Dir) (t : Nat) : Option Value := (find d.entries t).map fun x => content x.1

/-- The directory describes an LZW compressed picture of the noted size `w'` times `h'` in `file`, and the pixels found there, reading lines of `w` pixels,
are those of `f`. -/
def Describes (unlzw : List Nat → List Nat) (F : List Nat) (d : Dir) (w' h' w h n : Nat) (f : Nat → Nat → Nat → ℚ) : Prop :=
  tag d 0x0100 = some (.short [w']) ∧ tag d 0x0101 = some (.short [h']) ∧                        -- ImageWidth, ImageLength
  tag d 0x0102 = some (.short (List.replicate n 16)) ∧ tag d 0x0115 = some (.short [n]) ∧       -- BitsPerSample, SamplesPerPixel
  tag d 0x0103 = some (.slong [5]) ∧ tag d 0x013d = some (.slong [1]) ∧                         -- Compression LZW, Predictor none
  tag d 0x0106 = some (.short [if n = 1 then 1 else 2]) ∧                                       -- PhotometricInterpretation: black is zero, or RGB
  ∃ rows offs counts, tag d 0x0116 = some (.long [rows]) ∧ tag d 0x0111 = some (.long offs) ∧ tag d 0x0117 = some (.long counts) ∧ 0 < rows ∧
    offs.length = (h + rows - 1) / rows ∧ counts.length = (h + rows - 1) / rows ∧
    ∀ r c k, r < h → c < w → k < n → ∃ v, stripSample unlzw F rows offs counts w n r c k = some v ∧ Sixteen (f r c k) v

end Verif.Spec.DevelopTiff
