import Verif.Spec.Crx

/-!
# Specification: quantization in lossy CR3 files

Every band of the wavelet transform is stored divided by a quantization step; the decoder multiplies by it.
-/

namespace Verif.CrxSpec

/-- The quantization step of the parameter `q`: it doubles every 6 parameters and is 1 for `q = 4`. -/
def qStep (q : Nat) : Nat := [40, 45, 51, 57, 64, 72].getD (q % 6) 0 * 2 ^ (q / 6) / 64

/-- A band multiplied by one step -/
def scaleBy (s : Int) (rows : List (List Int)) : List (List Int) := rows.map fun row => row.map (· * s)

/-- A band multiplied by a step for every coefficient: row, column -/
def scaleAt (f : Nat → Nat → Int) (rows : List (List Int)) : List (List Int) :=
  rows.mapIdx fun r row => row.mapIdx fun c v => v * f r c

/-- What makes the step of a coefficient from the entry `t` of the table of the tile: base and multiplier of the band -/
def bandStep (base : Int) (multi t : Nat) : Int := min (max (base + ((t * multi / 8 : Nat) : Int)) 1) 0x168000

/-- The column of the table for coefficient `c` of a row. The band has `n` coefficients of its own; `start` coefficients before and all
after them are shared with other tiles and use the first and the last of its own. `2^shift` coefficients share an entry. -/
def tableCol (start n shift c : Nat) : Nat := min (c - start) (n - 1) / 2 ^ shift

/-! ## The table of quantization parameters of a tile (version 0x200) -/

/-- Code of a number: unary quotient, low bits; from quotient 23 on the number in 8 bits -/
def qpCode (k n : Nat) : List Bool :=
  if n / 2 ^ k < 23 then List.replicate (n / 2 ^ k) false ++ true :: bitsMSB k n
  else List.replicate 23 false ++ true :: bitsMSB 8 n

/-- The parameter of the code follows the numbers up to 7. -/
def adapt7 (k n : Nat) : Nat := min (adapt k n) 7

/-- First row: differences to the left neighbour. Bits and parameter afterwards. -/
def encQpTop : Int → List Int → Nat → List Bool × Nat
  | _, [], k => ([], k)
  | left, v :: todo, k =>
    let n := zigzag (v - left)
    let r := encQpTop v todo (adapt7 k n)
    (qpCode k n ++ r.1, r.2)

/-- Any other row: `up i` is the value above column `i - 1`, `up 0` the corner. Values are predicted by median edge detection. The
parameter follows the number and the next difference in the row above. -/
def encQpRow (up : Nat → Int) : Nat → Int → List Int → Nat → List Bool × Nat
  | _, _, [], k => ([], k)
  | pos, left, v :: todo, k =>
    let n := zigzag (v - median left (up (pos + 1)) (up pos))
    let m := if todo = [] then n else (n + 2 * (up (pos + 2) - up (pos + 1)).natAbs) / 2
    let r := encQpRow up (pos + 1) v todo (adapt7 k m)
    (qpCode k n ++ r.1, r.2)

/-- The rows after the first. Left of a row is the first value of the row above. -/
def encQpRest : Int → List Int → List (List Int) → Nat → List Bool
  | _, _, [], _ => []
  | corner, above, row :: rows, k =>
    let r := encQpRow (fun i => if i = 0 then corner else above.getD (i - 1) 0) 0 (above.headD 0) row k
    r.1 ++ encQpRest (above.headD 0) row rows r.2

/-- The table of quantization parameters, coded as values less 4 -/
def encQp (rows : List (List Nat)) : List Bool :=
  match rows.map (·.map fun (v : Nat) => (v : Int) - 4) with
  | [] => []
  | row :: rest =>
    let r := encQpTop 0 row 0
    r.1 ++ encQpRest 0 row rest r.2

/-- The mean of the parameters of `n` rows from row `n * r` on; behind the last row it is repeated. -/
def qpMean (rows : List (List Nat)) (n r c : Nat) : Nat :=
  ((List.range n).map fun i => (rows.getD (min (n * r + i) (rows.length - 1)) []).getD c 0).sum / n

/-- The steps of a level of the transform (1 is the full image): an entry covers 8 columns and `2^level` rows of the plane. A row of the
table of parameters covers 2 rows of the plane. -/
def qpSteps (pw ph : Nat) (rows : List (List Nat)) (level : Nat) : List (List Nat) :=
  (List.range ((ph + 2 ^ level - 1) / 2 ^ level)).map fun r => (List.range ((pw + 7) / 8)).map fun c => qStep (qpMean rows (2 ^ (level - 1)) r c)

end Verif.CrxSpec
