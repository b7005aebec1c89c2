import Verif.Base
/-! # Image orientation codes (rawler/src/decoders/mod.rs) -/

namespace Verif.Orient
open Verif

/-- `enum Orientation`, decoders/mod.rs:368-378. -/
inductive Orientation where
  | normal | horizontalFlip | rotate180 | verticalFlip | transpose | rotate90 | transverse | rotate270 | unknown
  deriving DecidableEq, Repr

/-- `Orientation::from_u16`, decoders/mod.rs:383-395. -/
def fromU16 : Nat → Orientation
  | 1 => .normal
  | 2 => .horizontalFlip
  | 3 => .rotate180
  | 4 => .verticalFlip
  | 5 => .transpose
  | 6 => .rotate90
  | 7 => .transverse
  | 8 => .rotate270
  | _ => .unknown

/-- `Orientation::to_flips`, decoders/mod.rs:410-421: `(transpose, horizontal flip, vertical flip)`. -/
def toFlips : Orientation → Bool × Bool × Bool
  | .normal => (false, false, false)
  | .unknown => (false, false, false)
  | .verticalFlip => (false, false, true)
  | .horizontalFlip => (false, true, false)
  | .rotate180 => (false, true, true)
  | .transpose => (true, false, false)
  | .rotate90 => (true, false, true)
  | .rotate270 => (true, true, false)
  | .transverse => (true, true, true)

/-- `Orientation::from_flips`, decoders/mod.rs:424-435. -/
def fromFlips : Bool × Bool × Bool → Orientation
  | (false, false, false) => .normal
  | (false, false, true) => .verticalFlip
  | (false, true, false) => .horizontalFlip
  | (false, true, true) => .rotate180
  | (true, false, false) => .transpose
  | (true, false, true) => .rotate90
  | (true, true, false) => .rotate270
  | (true, true, true) => .transverse

/-- `Orientation::to_u16`, decoders/mod.rs:438-450. -/
def toU16 : Orientation → Nat
  | .unknown => 0
  | .normal => 1
  | .horizontalFlip => 2
  | .rotate180 => 3
  | .verticalFlip => 4
  | .transpose => 5
  | .rotate90 => 6
  | .transverse => 7
  | .rotate270 => 8

end Verif.Orient
