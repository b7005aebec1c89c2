import Verif.Spec.Jpeg
/-!
# Lossless JPEG scans of pictures with fewer colour than brightness samples

The cameras do not follow Annex H here: a scan consists of blocks, a block of the brightness samples of two or four neighbouring
pixels and one sample each of the two colour components, and every sample is coded as the difference to one before it.
-/

namespace Verif.Spec.Jpeg
open Verif Verif.Spec

/-- A picture: brightness of the pixel in a row and column, colours of the block in a row and column of blocks. -/
structure SubPic where
  y : Nat → Nat → Nat
  cb : Nat → Nat → Nat
  cr : Nat → Nat → Nat

/-- The arrangements: two pixels side by side (Canon sRAW1, Sony), two by two pixels as Canon and as Sony code them. -/
inductive Sub where
  | two
  | canonFour
  | sonyFour
  deriving DecidableEq

/-- Rows of pixels in a row of blocks. -/
def Sub.rows : Sub → Nat
  | two => 1
  | _ => 2

/-- What the first sample of a component in block `(R, C)` is compared with: the first block of all with `base`, the first block of a
later row with a sample of the first block of the row of blocks above, every other block with a sample of the block to its left. -/
def before (base R C above left : Nat) : Nat := if C = 0 then (if R = 0 then base else above) else left

/-- The samples of a block in order, each with its component and the value it is compared with. The brightness of the pixel at the
start is compared with the first pixel of the block above, otherwise with a pixel of the block to the left: the last one for Canon,
the last one in the same line for Sony. -/
def Sub.samples (s : Sub) (base : Nat) (p : SubPic) (R C : Nat) : List (Nat × Nat × Nat) :=
  let colours := [(1, p.cb R C, before base R C (p.cb (R - 1) 0) (p.cb R (C - 1))),
    (2, p.cr R C, before base R C (p.cr (R - 1) 0) (p.cr R (C - 1)))]
  match s with
  | two =>
    [(0, p.y R (2 * C), before base R C (p.y (R - 1) 0) (p.y R (2 * C - 1))),
     (0, p.y R (2 * C + 1), p.y R (2 * C))] ++ colours
  | canonFour =>
    [(0, p.y (2 * R) (2 * C), before base R C (p.y (2 * (R - 1)) 0) (p.y (2 * R + 1) (2 * C - 1))),
     (0, p.y (2 * R) (2 * C + 1), p.y (2 * R) (2 * C)),
     (0, p.y (2 * R + 1) (2 * C), p.y (2 * R) (2 * C + 1)),
     (0, p.y (2 * R + 1) (2 * C + 1), p.y (2 * R + 1) (2 * C))] ++ colours
  | sonyFour =>
    [(0, p.y (2 * R) (2 * C), before base R C (p.y (2 * (R - 1)) 0) (p.y (2 * R) (2 * C - 1))),
     (0, p.y (2 * R) (2 * C + 1), p.y (2 * R) (2 * C)),
     (0, p.y (2 * R + 1) (2 * C), if C = 0 then p.y (2 * R) 0 else p.y (2 * R + 1) (2 * C - 1)),
     (0, p.y (2 * R + 1) (2 * C + 1), p.y (2 * R + 1) (2 * C))] ++ colours

/-- The bits of a block. -/
def Sub.code (s : Sub) (T : Nat → Table) (bug : Bool) (base : Nat) (p : SubPic) (R C : Nat) : List Bool :=
  (s.samples base p R C).flatMap fun t => (T t.1).code bug ((t.2.1 : Int) - t.2.2)

/-- The scan: `h` rows of `w` blocks. -/
def Sub.scan (s : Sub) (T : Nat → Table) (bug : Bool) (w h base : Nat) (p : SubPic) : List Bool :=
  (List.range h).flatMap fun R => (List.range w).flatMap fun C => s.code T bug base p R C

/-- What is decoded: three samples per pixel, the colours of a block at each of its pixels. -/
def Sub.pixel (s : Sub) (p : SubPic) (r c : Nat) : Nat → Nat
  | 0 => p.y r c
  | 1 => p.cb (r / s.rows) (c / 2)
  | _ => p.cr (r / s.rows) (c / 2)

end Verif.Spec.Jpeg
