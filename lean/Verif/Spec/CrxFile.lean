import Verif.Spec.Crx

/-!
# Specification: the layout of a lossless CR3 image

How the coded planes of the tiles are stored: a header with one record per tile, plane and band
(each with its size), then the bands one after the other. And which samples belong to which plane.
-/

namespace Verif.CrxSpec

/-- The one band of a plane as it is stored: the flag "lines refer to the line above", the coded bytes, and the number of fill bytes that bring
the size to a multiple of 8. -/
structure Coded where
  ref : Bool
  data : List Nat
  unused : Nat
  deriving DecidableEq, Repr

def Coded.size (c : Coded) : Nat := c.data.length + c.unused

def be32 (n : Nat) : List Nat := [n / 16777216 % 256, n / 65536 % 256, n / 256 % 256, n % 256]

/-- Record 0xff03: size, flags with the number of fill bytes. -/
def bandRecord (c : Coded) : List Nat :=
  [0xff, 0x03, 0, 8] ++ be32 c.size ++ be32 ((if c.ref then 0x8000000 else 0) + c.unused)

/-- Record 0xff02 of plane number `i`. -/
def planeRecord (i : Nat) (c : Coded) : List Nat :=
  [0xff, 0x02, 0, 8] ++ be32 c.size ++ be32 (i * 0x10000000 + (if c.ref then 0x8000000 else 0)) ++ bandRecord c

def planeRecords : Nat → List Coded → List Nat
  | _, [] => []
  | i, c :: cs => planeRecord i c ++ planeRecords (i + 1) cs

/-- Record 0xff01 of tile number `id`. -/
def tileRecord (id : Nat) (planes : List Coded) : List Nat :=
  [0xff, 0x01, 0, 8] ++ be32 (planes.map Coded.size).sum ++ be32 (id % 16 * 0x10000) ++ planeRecords 0 planes

def tileRecords : Nat → List (List Coded) → List Nat
  | _, [] => []
  | id, t :: ts => tileRecord id t ++ tileRecords (id + 1) ts

/-- The stored bands of a tile. -/
def tileBody (planes : List Coded) : List Nat := planes.flatMap fun c => c.data ++ List.replicate c.unused 0

/-- `band` is a valid coding of `lines`: the prescribed bits, packed into bytes, then whatever the encoder likes; the size is a
multiple of 8 and not 0; the number of fill bytes fits its 19 bits. -/
def Codes (lines : List (List Int)) (band : Coded) : Prop :=
  (∃ tail, band.data = toBytes (if band.ref then encBand lines else encBandNoRef lines) ++ tail) ∧
    band.unused < 2 ^ 19 ∧ band.size % 8 = 0 ∧ band.size ≠ 0

/-- How many tiles of size `t` cover the length `n`. -/
def tileCount (n t : Nat) : Nat := (n + t - 1) / t

/-- Start and size of tile `k` along one axis of length `n`. -/
def tileStart (t k : Nat) : Nat := k * t
def tileExtent (n t k : Nat) : Nat := min t (n - k * t)

/-- Plane `p` of the tile in tile row `tr` and tile column `tc` of an image `px y x` of `w` by `h` samples: every other sample of every
other row; plane 0 begins at the upper left sample of the tile, plane 1 to its right, plane 2 below it, plane 3 below and to
the right. Samples are stored relative to the middle of their range. -/
def planeLines (px : Nat → Nat → Nat) (w h tw th bits tr tc p : Nat) : List (List Int) :=
  (List.range (tileExtent h th tr / 2)).map fun r => (List.range (tileExtent w tw tc / 2)).map fun c =>
    (px (tileStart th tr + 2 * r + p / 2) (tileStart tw tc + 2 * c + p % 2) : Int) - 2 ^ (bits - 1)

end Verif.CrxSpec
