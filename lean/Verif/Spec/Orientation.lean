/-! # The EXIF orientation tag (TIFF 6.0, tag 274; EXIF 2.3, 4.6.4)

The tag says which visual side of the picture the stored row 0 and column 0 are. -/

namespace Verif.Spec

/-- A visual side of the picture. -/
inductive Side where
  | top | bottom | left | right
  deriving DecidableEq

/-- "The 0th row represents the visual … of the image, and the 0th column represents the visual …", for the codes 1..8. -/
def exifSides : Nat → Option (Side × Side)
  | 1 => some (.top, .left)
  | 2 => some (.top, .right)
  | 3 => some (.bottom, .right)
  | 4 => some (.bottom, .left)
  | 5 => some (.left, .top)
  | 6 => some (.right, .top)
  | 7 => some (.right, .bottom)
  | 8 => some (.left, .bottom)
  | _ => none

/-- Where the stored pixel `(r, c)` of an image of `h` rows and `w` columns appears on the display, given the sides that
row 0 and column 0 show: distance `r` from the side of row 0 and distance `c` from the side of column 0. -/
def displayPos (rowSide colSide : Side) (w h r c : Nat) : Nat × Nat :=
  match rowSide, colSide with
  | .top, .left => (r, c)
  | .top, .right => (r, w - 1 - c)
  | .bottom, .right => (h - 1 - r, w - 1 - c)
  | .bottom, .left => (h - 1 - r, c)
  | .left, .top => (c, r)
  | .right, .top => (c, h - 1 - r)
  | .right, .bottom => (w - 1 - c, h - 1 - r)
  | .left, .bottom => (w - 1 - c, r)
  | _, _ => (0, 0)

/-- "The first field is if x and y coordinates should be swapped (transposed). The second and third field is horizontal and
vertical flipping respectively. For a correct result, flipping must be done before transposing": where the pixel
`(r, c)` ends up. -/
def applyFlips (flips : Bool × Bool × Bool) (w h r c : Nat) : Nat × Nat :=
  let c := if flips.2.1 then w - 1 - c else c
  let r := if flips.2.2 then h - 1 - r else r
  if flips.1 then (c, r) else (r, c)

end Verif.Spec
