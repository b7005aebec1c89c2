import Verif.Model.Dng
/-! # Black levels of Fujifilm files (decoders/raf.rs) -/

namespace Verif.RafBlack
open Verif

/-- An entry of a TIFF directory as raf.rs:514 sees it: numbers of 32 bits, or anything else -/
inductive Entry where
  | long (v : List Nat)
  | other

/-- `get_blacklevel`, raf.rs:512-522. `fuji` is the Fujifilm directory of the file, if it has one, with its entry for black levels; `cw` and `ch` are the size of the colour
filter pattern. -/
def blacklevel (fuji : Option (Option Entry)) (cw ch : Nat) : R (Option Dng.BlackLevel) :=
  match fuji with
  | some (some (.long black)) => do
    let b ← Dng.BlackLevel.new (black.map fun v => (v % 65536, 1)) cw ch 1
    .ok (some b)
  | _ => .ok none

end Verif.RafBlack
