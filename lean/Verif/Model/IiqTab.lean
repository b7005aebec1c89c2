import Verif.Model.IiqFlat
/-! # Phase One: makernotes and calibration tables (decoders/iiq.rs)

A stream is the file and a position; seeking always works, reading after the end of the file is an error. `f32` numbers are given by a function of their bits. The
limit of memory for a large table is not modelled. -/

namespace Verif.IiqTab
open Verif Verif.IiqCorr Verif.IiqFlat

/-- A byte of the stream -/
def byte (file : List Nat) (p : Nat) : R Nat :=
  match file[p]? with
  | some b => .ok b
  | none => fail'

/-- `read_u16::<LittleEndian>` -/
def read16 (file : List Nat) (p : Nat) : R Nat := do
  let a ← byte file p
  let b ← byte file (p + 1)
  .ok (a + 256 * b)

/-- `read_u32::<LittleEndian>` -/
def read32 (file : List Nat) (p : Nat) : R Nat := do
  let a ← byte file p
  let b ← byte file (p + 1)
  let c ← byte file (p + 2)
  let d ← byte file (p + 3)
  .ok (a + 256 * b + 65536 * c + 16777216 * d)

/-- `read_exact` -/
def exact (file : List Nat) (p n : Nat) : R (List Nat) := if n = 0 ∨ p + n ≤ file.length then .ok ((file.drop p).take n) else fail'

/-- `tiff::Value` of a makernote. Text is as stored; the code ends it at a zero byte. -/
inductive Val where
  | long (v : Nat)
  | text (b : List Nat)
  deriving DecidableEq, Repr

/-- The `HashMap` of the makernotes -/
abbrev Notes := Nat → Option (Nat × Val)

/-- `entries.insert` -/
def insert (m : Notes) (tag : Nat) (v : Nat × Val) : Notes := fun t => if t = tag then some v else m t

/-- An entry, iiq.rs:196-226. `buf` is part of the file, its position is `p`. -/
def noteStep (file : List Nat) (p : Nat) (m : Notes) : R Notes := do
  let tag ← read32 file p
  let typ ← read32 file (p + 4)
  let count ← read32 file (p + 8)
  let data ← read32 file (p + 12)
  if typ = 1 ∧ tag = 0x110 then do
    assert' (decide (data + 8 < 2 ^ 32))
    .ok (insert m tag (count, .long (data + 8)))
  else if typ = 1 then do
    let v ← exact file (8 + data) count
    .ok (insert m tag (count, .text v))
  else if typ = 2 then .ok (insert m tag (count, .long data))
  else if typ = 4 then .ok (insert m tag (count, .long data))
  else .ok m

/-- `new_makernote`, iiq.rs:176-229, with `moffset` 8 -/
def newMakernote (file : List Nat) : R Notes := do
  let ifd ← read32 file 16
  let n ← read32 file (8 + ifd)
  let _ ← read32 file (8 + ifd + 4)
  let _ ← exact file (8 + ifd + 8) (n * 16)
  forN n (fun i m => noteStep file (8 + ifd + 8 + i * 16) m) fun _ => none

/-- The tables of `SensorCalibration`, iiq.rs:95-103 -/
structure Calib where
  half : Option (List Rat) := none
  full : Option (List Rat) := none
  linear : Option (List Nat) := none
  mult : Option (List Rat) := none
  combined : Option (List Nat × List Nat) := none
  defects : Option (List Defect) := none
  flats : List Flat := []

/-- `for _ in 0..n`, each time `size` bytes later -/
def readMany {α : Type} (rd : Nat → R α) (p size n : Nat) : R (List α) := (List.range n).mapM fun i => rd (p + i * size)

/-- A defect, iiq.rs:807-812 -/
def readDefect (file : List Nat) (p : Nat) : R Defect := do
  let col ← read16 file p
  let _ ← read16 file (p + 2)
  let typ ← read16 file (p + 4)
  let _ ← read16 file (p + 6)
  .ok ⟨col, typ⟩

/-- A table, iiq.rs:797-885; `f32` is the number with these bits, `q` the position of the table. -/
def readTable (f32 : Nat → Rat) (file : List Nat) (tag len q : Nat) (c : Calib) : R Calib :=
  if tag = 0x400 then do
    assert' (decide (len % 4 = 0))
    let l ← readMany (readDefect file) q 8 (len / 4)
    .ok { c with defects := some l }
  else if tag = 0x401 ∨ tag = 0x410 ∨ tag = 0x416 ∨ tag = 0x40b then do
    let head ← readMany (read16 file) q 2 8
    let data ← (if tag = 0x401 then readMany (fun p => do let b ← read32 file p; .ok (f32 b)) (q + 16) 4 ((len - 8 + 3) / 4)
      else readMany (fun p => do let b ← read16 file p; .ok ((b : Rat) / 32768)) (q + 16) 2 ((len - 8 + 1) / 2))
    .ok { c with flats := c.flats ++ [⟨tag, head, data⟩] }
  else if tag = 0x419 then do
    assert' (decide (len ≥ 8 * 4))
    let l ← readMany (fun p => do let b ← read32 file p; .ok (f32 b)) q 4 8
    .ok { c with half := some l }
  else if tag = 0x41a then do
    assert' (decide (len = 4 * 4))
    let l ← readMany (fun p => do let b ← read32 file p; .ok (f32 b)) q 4 4
    .ok { c with full := some l }
  else if tag = 0x41f then do
    assert' (decide (len = 2 * 2 * 16 * 4 + 4))
    let l ← readMany (fun p => do let b ← read32 file p; .ok (b % 65536)) q 4 (2 * 2 * 16)
    .ok { c with linear := some l }
  else if tag = 0x41e then do
    let l ← readMany (fun p => do let b ← read32 file p; .ok (f32 b)) q 4 19
    .ok { c with mult := some l }
  else if tag = 0x431 then do
    let xs ← readMany (read32 file) q 4 7
    let ys ← readMany (read32 file) (q + 28) 4 (7 * 4)
    .ok { c with combined := some (xs, ys) }
  else .ok c

/-- `force_usize(0)`, `force_u32(0)` and `force_u64(0)`: a text gives 0. -/
def num : Val → Nat
  | .long v => v
  | .text _ => 0

/-- The tables of `new_sensor_correction`, iiq.rs:775-906; black levels and margins are in `Model/IiqRaw`. -/
def readCalib (f32 : Nat → Rat) (file : List Nat) (notes : Notes) : R Calib :=
  match notes 0x110 with
  | some (_, v) => do
    let off := num v
    let p ← read32 file (off + 8)
    let n ← read32 file (off + p)
    forN n (fun i c => do
      let tag ← read32 file (off + p + 8 + i * 12)
      let len ← read32 file (off + p + 8 + i * 12 + 4)
      let q ← read32 file (off + p + 8 + i * 12 + 8)
      readTable f32 file tag len (off + q) c) {}
  | none => panic'

end Verif.IiqTab
