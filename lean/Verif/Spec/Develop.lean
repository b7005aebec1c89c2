import Verif.Model.Develop
import Verif.Spec.Demosaic
import Verif.Spec.Image
/-! # What developing is for

Which part of the sensor a picture shows, and what becomes of a sample. -/

namespace Verif.Spec.Develop
open Verif Verif.Pix Verif.Develop Verif.Color

/-- The level for a place of the sensor: four levels repeat in squares of two by two, else the first is for all. -/
def levelOf (l : List ℚ) (r c : Nat) : ℚ := if l.length = 4 then l.getD (r % 2 * 2 + c % 2) 0 else l.getD 0 0

/-- Black becomes 0, white 1, nothing is negative. -/
def scaled (black white v : ℚ) : ℚ := max 0 (v - black) / (white - black)

/-- A sample of a mosaic sensor, corrected if that is asked for -/
def corrected (steps : List Step) (p : Photo) (f : Nat → Nat → ℚ) (r c : Nat) : ℚ :=
  if .rescale ∈ steps then scaled (levelOf p.black r c) (levelOf p.white r c) (f r c) else f r c

/-- The whole sensor -/
def whole (p : Photo) : Rect := ⟨0, 0, p.width, p.height⟩

/-- The part of the sensor that is demosaiced -/
def used (steps : List Step) (p : Photo) : Rect := if .cropActiveArea ∈ steps then p.active.getD (whole p) else whole p

/-- The part of the sensor the picture shall show, of the part that is there -/
def shown (steps : List Step) (p : Photo) (there : Rect) : Rect := if .cropDefault ∈ steps then (p.crop.or p.active).getD there else there

/-- One area lies in another. -/
def Within (a b : Rect) : Prop := b.x ≤ a.x ∧ b.y ≤ a.y ∧ a.x + a.w ≤ b.x + b.w ∧ a.y + a.h ≤ b.y + b.h
instance (a b : Rect) : Decidable (Within a b) := by unfold Within; infer_instance

/-- The white balance: that of the picture if it has one and it is asked for -/
def wbOf (steps : List Step) (p : Photo) : Quad :=
  match p.wb with
  | some wb => if .whiteBalance ∈ steps then wb else (1, 1, 1, 1)
  | none => (1, 1, 1, 1)

/-- What becomes of a colour of the camera with colour matrix `m`; `C85` says what `map3` is. -/
def finished (env : Env) (steps : List Step) (p : Photo) (m : Mat) (v : Rgb) : Rgb :=
  let u := if .calibrate ∈ steps then map3 env.norm m (wbOf steps p) v else v
  if .srgb ∈ steps then (env.gamma u.1, env.gamma u.2.1, env.gamma u.2.2) else u

/-- A mosaic whose samples are `f`, with levels; areas lie in each other as they should, the picture is not empty. Sizes are even if levels are to be
corrected. -/
structure Mosaic (steps : List Step) (p : Photo) (f : Nat → Nat → ℚ) : Prop where
  one : p.cpp = 1
  data : Spec.Holds p.data p.width p.height f
  black : p.black ≠ []
  white : p.white ≠ []
  even : .rescale ∈ steps → p.width % 2 = 0 ∧ p.height % 2 = 0
  demosaic : .demosaic ∈ steps
  unrotated : p.fujiWidth = none
  active : ∀ a, p.active = some a → Within a (whole p)
  shownInside : Within (shown steps p (used steps p)) (used steps p)
  shownWide : 0 < (shown steps p (used steps p)).w

/-- A channel of a pixel -/
def chan (v : Rgb) (k : Nat) : ℚ := match k with | 0 => v.1 | 1 => v.2.1 | _ => v.2.2

/-- A pixel of a picture in three colours, corrected if that is asked for and the levels match each other: one level for all channels or three -/
def correctedPixel (steps : List Step) (p : Photo) (v : Rgb) : Rgb :=
  let f := fun k => if .rescale ∈ steps ∧ p.black.length = p.white.length then
      scaled (p.black.getD (if p.black.length = 1 then 0 else k) 0) (p.white.getD (if p.black.length = 1 then 0 else k) 0) (chan v k) else chan v k
  (f 0, f 1, f 2)

/-- A picture in three colours whose pixels are `g` -/
structure Linear (steps : List Step) (p : Photo) (g : Nat → Nat → Rgb) : Prop where
  three : p.cpp = 3
  photometric : p.photometric = .linear
  data : Spec.Holds p.data (p.width * 3) p.height fun r c => chan (g r (c / 3)) (c % 3)
  levels : p.black.length = p.white.length → p.black.length = 1 ∨ p.black.length = 3
  wide : 0 < p.width
  active : ∀ a, p.active = some a → Within a (whole p)

end Verif.Spec.Develop
