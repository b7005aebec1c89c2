import Verif.Base
import Verif.Model.Slice
import Verif.Model.Packed
/-! # Lookup tables with dithering (rawler/src/bits.rs) and linearisation (rawler/src/decoders/mod.rs)

`u16`/`u32` overflow is a panic (checked build). -/

namespace Verif.Linearize
open Verif

/-- `lower` and `upper`, bits.rs:220-221 -/
def lower (table : List Nat) (i center : Nat) : R Nat := if 0 < i then idx table (i - 1) else .ok center
def upper (table : List Nat) (i center : Nat) : R Nat := if i < table.length - 1 then idx table (i + 1) else .ok center

/-- One entry `(center, base, delta)`, bits.rs:219-225. `upper - lower`, `+ 2` and `center - ..` are `u16` operations. -/
def entry (table : List Nat) (i : Nat) : R (Nat × Nat × Nat) := do
  let center ← idx table i
  let lower ← lower table i center
  let upper ← upper table i center
  let delta ← usub upper lower
  if center = 0 then .ok (center, 0, delta)
  else do
    assert' (delta + 2 < 2 ^ 16)
    let base ← usub center ((delta + 2) / 4)
    .ok (center, base, delta)

/-- `LookupTable::new`, bits.rs:216-229 -/
def new (table : List Nat) : R (List (Nat × Nat × Nat)) := (List.range table.length).mapM (entry table)

/-- `LookupTable::new_with_bits`, bits.rs:231-241 -/
def newWithBits (table : List Nat) (bits : Nat) : R (List (Nat × Nat × Nat)) :=
  match table.getLast? with
  | none => panic'
  | some last => if table.length ≥ 2 ^ bits then new table else new (table ++ List.replicate (2 ^ bits - table.length) last)

/-- `LookupTable::dither`, bits.rs:248-256: the pixel and the next random state. The `u32` operations cannot overflow for
16 bit tables; they are checked here. -/
def dither (tbl : List (Nat × Nat × Nat)) (value rand : Nat) : R (Nat × Nat) := do
  let (_, base, delta) ← idx tbl value
  assert' (base + ((delta * (rand &&& 2047) + 1024) >>> 12) < 2 ^ 32)
  assert' (delta * (rand &&& 2047) + 1024 < 2 ^ 32)
  assert' (15700 * (rand &&& 65535) + (rand >>> 16) < 2 ^ 32)
  .ok ((base + ((delta * (rand &&& 2047) + 1024) >>> 12)) % 2 ^ 16, 15700 * (rand &&& 65535) + (rand >>> 16))

/-- The loop over one row, mod.rs:813-815 and packed.rs:342-344. -/
def ditherRow (tbl : List (Nat × Nat × Nat)) : Nat → List Nat → R (List Nat)
  | _, [] => .ok []
  | rand, p :: ps => do
    let (q, rand) ← dither tbl p rand
    let qs ← ditherRow tbl rand ps
    .ok (q :: qs)

/-- One row of `apply_linearization`, mod.rs:811-816. `LEu32(row.as_bytes(), 0)` takes the first two samples (little-endian
machine) and panics on rows of one sample. -/
def linearizeRow (tbl : List (Nat × Nat × Nat)) (row : List Nat) : R (List Nat) := do
  let a ← idx row 0
  let b ← idx row 1
  ditherRow tbl (a + b * 2 ^ 16) row

/-- `apply_linearization`, mod.rs:803-824, on the rows of the image and a `Value::Short` table. -/
def applyLinearization (rows : List (List Nat)) (points : List Nat) (bits : Nat) : R (List (List Nat)) :=
  if points = [] then .ok rows
  else do
    let tbl ← newWithBits points bits
    rows.mapM (linearizeRow tbl)

/-- `LEu32(inb, 0)`, bits.rs -/
def leU32 (b : List Nat) : R Nat := do
  let b0 ← idx b 0
  let b1 ← idx b 1
  let b2 ← idx b 2
  let b3 ← idx b 3
  .ok (b0 + b1 * 2 ^ 8 + b2 * 2 ^ 16 + b3 * 2 ^ 24)

/-- `decompress_8bit_wtable`, packed.rs:329-349 (not the `dummy` case) -/
def decompress8bitWtable (buf : List Nat) (tbl : List (Nat × Nat × Nat)) (width height : Nat) : R (List Nat) :=
  if buf.length < height * width then fail'
  else Packed.linesFn width height fun line row => do
    let inb := buf.drop (row * width)
    let random ← leU32 inb
    ditherRow tbl random (inb.take line.length)

end Verif.Linearize
