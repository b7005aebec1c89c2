/-!
# What lossless JPEG coding should give back

An image buffer holds `height` rows of `(width + padding)` pixels with `components` samples each; `padding` pixels at
the end of each row are not part of the image.
-/

namespace Verif.Spec

/-- The rows of an image without the padding. -/
def imageRows (image : List Nat) (width height components padding : Nat) : List (List Nat) :=
  (List.range height).map fun r => (image.drop (r * ((width + padding) * components))).take (width * components)

end Verif.Spec
