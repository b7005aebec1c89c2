import Verif.Model.IiqPoly
/-! # Phase One: flat field (decoders/iiq.rs)

`f32` is rational. `mrow` and `mult` are functions: their indices are never outside. The iterator over the data is an index. A `while` loop whose conditions are upper
limits of its counter is a loop with a count. -/

namespace Verif.IiqFlat
open Verif Verif.IiqCorr Verif.IiqPoly

/-- `FlatField`, iiq.rs:88-92 -/
structure Flat where
  typ : Nat
  head : List Nat
  data : List Rat

/-- `nc`, iiq.rs:506-522 -/
def channels (typ : Nat) : R Nat :=
  if typ = 0x401 then .ok 2 else if typ = 0x410 ∨ typ = 0x416 then .ok 2 else if typ = 0x40b then .ok 4 else panic'

/-- `mrow`: channel and place -/
abbrev Rows := Nat → Nat → Rat

/-- `mrow[c * wide + x] = v` -/
def put (m : Rows) (c x : Nat) (v : Rat) : Rows := fun c' x' => if c' = c ∧ x' = x then v else m c' x'

/-- A row of the data, iiq.rs:538-547; `c` is `2 * k`. -/
def readRow (data : List Rat) (nc wide h5 y : Nat) (mrow : Rows) : R Rows :=
  forN wide (fun x m => forN (nc / 2) (fun k m => do
    let num ← idx data ((y * wide + x) * (nc / 2) + k)
    .ok (if y = 0 then put m (2 * k) x num else put m (2 * k + 1) x ((num - m (2 * k) x) / h5))) m) mrow

/-- A pixel, iiq.rs:562-573; `margins` are left and top. -/
def pixel (color : Nat → Nat → Nat) (margins : Nat × Nat) (nc w row col : Nat) (mult : Nat → Rat) (img : List Nat) : R (List Nat) := do
  let cl ← (if nc > 2 then do
      assert' (decide (row ≥ margins.2))
      assert' (decide (col ≥ margins.1))
      .ok (color (row - margins.2) (col - margins.1))
    else .ok 0 : R Nat)
  if cl % 2 = 0 then do
    let pix ← idx img (row * w + col)
    upd img (row * w + col) (toWord (pix * mult cl))
  else .ok img

/-- How often the `while` loops run, iiq.rs:551-553, 559-561: for the part `i` of an axis of size `size`, that begins at `start`, has `len` places and parts of
`step` places. The difference is only computed if the first condition is met. -/
def count (size start len step i : Nat) : R Nat :=
  if start + i * step - step < size then do
    let l ← usub (start + len) step
    .ok (min (min size (start + i * step)) l - (start + i * step - step))
  else .ok 0

/-- `mult` at the begin of a part, iiq.rs:555-558 -/
def first (mrow : Rows) (h4 x : Nat) : Nat → Rat := fun c => if c % 2 = 0 then mrow c (x - 1) else (mrow (c - 1) x - mrow (c - 1) (x - 1)) / h4

/-- iiq.rs:574-576 -/
def next (mult : Nat → Rat) : Nat → Rat := fun c => if c % 2 = 0 then mult c + mult (c + 1) else mult c

/-- A row of pixels, iiq.rs:554-579 -/
def flatRow (color : Nat → Nat → Nat) (margins : Nat × Nat) (nc wide w h0 h2 h4 row : Nat) (mrow : Rows) (img : List Nat) : R (List Nat) :=
  forN (wide - 1) (fun j img => do
    let n ← count w h0 h2 h4 (j + 1)
    let st ← forN n (fun k st => do
      let img ← pixel color margins nc w row (h0 + (j + 1) * h4 - h4 + k) st.2 st.1
      .ok (img, next st.2)) (img, first mrow h4 (j + 1))
    .ok st.1) img

/-- iiq.rs:581-585 -/
def advance (m : Rows) : Rows := fun c x => if c % 2 = 0 then m c x + m (c + 1) x else m c x

/-- The rows of pixels between two rows of the data, iiq.rs:551-587 -/
def band (color : Nat → Nat → Nat) (margins : Nat × Nat) (nc wide w h h0 h1 h2 h3 h4 h5 y : Nat) (st : Rows × List Nat) : R (Rows × List Nat) := do
  let n ← count h h1 h3 h5 y
  forN n (fun k st => do
    let img ← flatRow color margins nc wide w h0 h2 h4 (h1 + y * h5 - h5 + k) st.1 st.2
    .ok (advance st.1, img)) st

/-- A row of the data and the pixels, iiq.rs:537-588 -/
def step (color : Nat → Nat → Nat) (margins : Nat × Nat) (data : List Rat) (nc wide w h h0 h1 h2 h3 h4 h5 y : Nat) (st : Rows × List Nat) : R (Rows × List Nat) := do
  let mrow ← readRow data nc wide h5 y st.1
  if y = 0 then .ok (mrow, st.2) else band color margins nc wide w h h0 h1 h2 h3 h4 h5 y (mrow, st.2)

/-- One flat field, iiq.rs:505-589; `color` is `cfa.color_at` with the second green as colour 3. -/
def applyFlat (color : Nat → Nat → Nat) (margins : Nat × Nat) (w h : Nat) (flat : Flat) (img : List Nat) : R (List Nat) := do
  let nc ← channels flat.typ
  match flat.head with
  | [h0, h1, h2, h3, h4, h5, _, _] =>
    if h2 * h3 * h4 * h5 = 0 then .ok img else do
    let wide := h2 / h4 + (if h2 % h4 ≠ 0 then 1 else 0)
    let high := h3 / h5 + (if h3 % h5 ≠ 0 then 1 else 0)
    let st ← forN high (step color margins flat.data nc wide w h h0 h1 h2 h3 h4 h5) (fun _ _ => 0, img)
    .ok st.2
  | _ => panic'

/-- `correct_raw_flatfield`, iiq.rs:498-592 -/
def correctFlat (color : Nat → Nat → Nat) (margins : Nat × Nat) (w h : Nat) (flats : List Flat) (img : List Nat) : R (List Nat) :=
  flats.foldlM (fun img flat => applyFlat color margins w h flat img) img

end Verif.IiqFlat
