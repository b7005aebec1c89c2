import Verif.Model.Float
import Verif.Model.Packed
/-! # `Decompressor<f32>` of `PackedDecompressor` (rawler/src/decompressors/packed.rs)

`f32` values are their bit patterns. -/

namespace Verif.Float
open Verif

/-- `from_be_bytes` / `from_le_bytes` of a whole sample -/
def fromBytes (e : Endian) (b : List Nat) : Nat :=
  match e with
  | .big => b.foldl (fun a x => a * 256 + x) 0
  | .little => b.reverse.foldl (fun a x => a * 256 + x) 0

/-- `f32::from_be_bytes`, `f32::from_le_bytes` (packed.rs:229, 245), `LEf24`, `BEf24`, `LEf16`, `BEf16` (bits.rs:164-190) -/
def readFloat (e : Endian) (bps : Nat) (b : List Nat) : R Nat :=
  if bps = 32 then .ok (fromBytes e b)
  else if bps = 24 then extend binary24 binary32 (fromBytes e b)
  else extend binary16 binary32 (fromBytes e b)

/-- One line: `for (p, bytes) in line.zip(inb.chunks_exact(bps / 8))`. The 16 and 24 bit loops index `line[i]` for `i < width`, which
is the same for lines of `width` samples. -/
def floatLine (e : Endian) (bps : Nat) (inb line : List Nat) : R (List Nat) := do
  let pieces ← chunksExact inb (bps / 8)
  let out ← (line.zip pieces).mapM fun p => readFloat e bps p.2
  .ok (out ++ line.drop pieces.length)

/-- `PackedDecompressor::decompress` for `f32`, packed.rs:195-210, with `unpack_f32be`, `unpack_f32le`, `unpack_f24le`, `unpack_f24be`,
`unpack_f16le` and `unpack_f16be` (217-316), which differ in `bps` and byte order only. -/
def unpackFloat (e : Endian) (bps : Nat) (src : List Nat) (skip : Nat) (lines : List (List Nat)) (width : Nat) : R (List (List Nat)) :=
  if bps = 32 ∨ bps = 24 ∨ bps = 16 then
    if src.length < Packed.need (skip + lines.length) width bps then fail'
    else lines.zipIdx.mapM fun (line, row) => do
      let inb ← Packed.from' src ((skip + row) * width * (bps / 8))
      floatLine e bps inb line
  else fail'

end Verif.Float
