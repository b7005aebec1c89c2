import Verif.Model.IiqTab
import Verif.Model.Small
import Verif.Spec.Raf
/-! # Fujifilm RAF: the data block (decoders/raf.rs)

`f32` is rational; a value that is infinite or not a number is `none`. -/

namespace Verif.Raf
open Verif Verif.Spec.Raf
open Verif.IiqTab (readMany)

/-- `read_u8` of a cursor at `p` -/
def read8 (file : List Nat) (p : Nat) : R Nat :=
  match file[p]? with
  | some v => .ok v
  | none => fail'

/-- `read_u16::<BigEndian>` -/
def readB16 (file : List Nat) (p : Nat) : R Nat := do
  let a ← read8 file p
  let b ← read8 file (p + 1)
  .ok (256 * a + b)

/-- `read_u32::<BigEndian>` -/
def readB32 (file : List Nat) (p : Nat) : R Nat := do
  let a ← readB16 file p
  let b ← readB16 file (p + 2)
  .ok (65536 * a + b)

/-- `read_u32::<LittleEndian>` -/
def readL32 (file : List Nat) (p : Nat) : R Nat := do
  let a ← read8 file p
  let b ← read8 file (p + 1)
  let c ← read8 file (p + 2)
  let d ← read8 file (p + 3)
  .ok (a + 256 * b + 65536 * c + 16777216 * d)

/-- The entries of the virtual IFD -/
abbrev Tags := Nat → Option Val

/-- `entries.insert` -/
def put (m : Tags) (tag : Nat) (v : Val) : Tags := fun t => if t = tag then some v else m t

/-- One turn of the loop, raf.rs:87-130. The first part of the state is the place of the cursor. -/
def step (file : List Nat) (st : Nat × Tags) : R (Nat × Tags) := do
  let tag ← readB16 file st.1
  let len ← readB16 file (st.1 + 2)
  let p := st.1 + 4
  if tag = 0x100 ∨ tag = 0x110 ∨ tag = 0x111 ∨ tag = 0x115 ∨ tag = 0x2ff0 then do
    let l ← readMany (readB16 file) p 2 (len / 2)
    .ok (p + len / 2 * 2, put st.2 tag (.shorts l))
  else if tag = 0x130 ∨ tag = 0x131 then do
    let l ← readMany (read8 file) p 1 len
    .ok (p + len * 1, put st.2 tag (.bytes l))
  else if tag = 0xc000 then do
    let l ← readMany (readL32 file) p 4 (len / 4)
    .ok (p + len / 4 * 4, put st.2 tag (.longs l))
  else .ok (p + len, st.2)

/-- `parse_raf_format`, raf.rs:79-142 -/
def parse (file : List Nat) (offset : Nat) : R Tags := do
  let num ← readB32 file offset
  if num > 4000 then fail' else do
  let st ← forN num (fun _ st => step file st) (offset + 4, fun _ => none)
  .ok st.2

/-- `force_usize(i)` -/
def force : Val → Nat → Nat
  | .shorts l, i => l.getD i 0
  | .bytes l, i => l.getD i 0
  | .longs l, i => l.getD i 0

/-- `get_crop`, raf.rs:526-538: x, y, width and height -/
def crop (raf : Option Tags) : Option (Nat × Nat × Nat × Nat) :=
  match raf with
  | some m =>
    match m 0x110, m 0x111 with
    | some c, some s => some (force c 1, force c 0, force s 1, force s 0)
    | _, _ => none
  | none => none

/-- The size of the picture without the tags of the Fuji IFD, raf.rs:269-277: width and height -/
def size (raf : Option Tags) : R (Nat × Nat) :=
  match raf with
  | some m =>
    match m 0x100 with
    | some s => .ok (force s 1, force s 0)
    | none => fail'
  | none => fail'

/-- `get_wb`, raf.rs:495-510; the levels of the Fuji IFD are a parameter. -/
def levels (fuji : Option (List Nat)) (raf : Option Tags) : R (List Rat) :=
  match fuji with
  | some l => .ok [l.getD 1 0, l.getD 0 0, l.getD 0 0, l.getD 2 0]
  | none =>
    match raf with
    | some m =>
      match m 0x2ff0 with
      | some l => .ok [force l 1, force l 0, force l 0, force l 3]
      | none => fail'
    | none => fail'

/-- `normalize_wb`, raf.rs:649-661. `is_normal` is false for 0, and integers are not subnormal. A quotient by 0 is infinite. -/
def normalize (raw : List Rat) : List (Option Rat) :=
  let div := raw.getD 1 0
  let n : Nat → Option Rat := fun i => if raw.getD i 0 ≠ 0 then (if div = 0 then none else some (raw.getD i 0 / div)) else some (raw.getD i 0)
  [n 0, (n 1).bind fun a => (n 2).map fun b => (a + b) / 2, n 3, none]

/-- The letters of `get_xtrans_cfa`, raf.rs:544-574 -/
def xtrans (raf : Option Tags) : R (Option (List Char)) :=
  match raf.bind fun m => m 0x131 with
  | some (.bytes l) => .ok (some (l.reverse.map fun v => if v = 0 then 'R' else if v = 1 then 'G' else if v = 2 then 'B' else 'X'))
  | some _ => fail'
  | none => .ok none

/-- `get_alt_layout`, raf.rs:576-588 -/
def altLayout (raf : Option Tags) : Bool :=
  match raf.bind fun m => m 0x130 with
  | some v => force v 0 / 128 == 0
  | none => false

/-- `read_embedded_jpeg`, raf.rs:590-597 -/
def jpeg (file : List Nat) : R (List Nat) := do
  let buf ← Small.subview file 0 92
  let off ← readB32 buf 84
  let len ← readB32 buf 88
  Small.subview file off len

end Verif.Raf
