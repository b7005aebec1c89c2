import Verif.Model.Slice
/-! # Embedded original raw file (rawler/src/dng/original.rs)

The zlib codec (crate `libflate`) and MD5 (crate `md5`) are parameters of the model: theorems state what they assume of them. Streams are byte lists with a
position (`Cursor`); reading past the end is an error. -/

namespace Verif.Orig
open Verif

/-- The external functions -/
structure Codec where
  deflate : List Nat → R (List Nat)
  inflate : List Nat → R (List Nat)
  md5 : List Nat → List Nat

/-- `COMPRESS_BLOCK_SIZE`, original.rs:15 -/
def blockSize : Nat := 65536

/-- `struct OriginalCompressed`, original.rs:19-23; a `ForkBlock` is its bytes -/
structure Original where
  size : Nat
  chunks : List (List Nat)
  digest : Option (List Nat)
  deriving DecidableEq, Repr

/-- The reading loop of `compress`, original.rs:109-117: blocks of at most 65536 bytes until nothing is left. `fuel` bounds the rounds. -/
def readBlocks : Nat → List Nat → List (List Nat)
  | 0, _ => []
  | n + 1, l => if l = [] then [] else l.take blockSize :: readBlocks n (l.drop blockSize)

/-- `OriginalCompressed::compress`, original.rs:94-123. `par_iter().flat_map` over `Result`s keeps the order and drops the failed ones. -/
def compress (C : Codec) (data : List Nat) (pos : Nat) : R Original :=
  if data.length < pos then panic'
  else
    let rest := data.drop pos
    if 2 ^ 32 ≤ rest.length then fail'
    else
      let forks := readBlocks (rest.length + 1) rest
      .ok { size := rest.length
            chunks := forks.filterMap fun b => (C.deflate b).toOption
            digest := some (C.md5 forks.flatten) }

/-- `u32::to_be_bytes` -/
def be32 (n : Nat) : List Nat := [n / 16777216 % 256, n / 65536 % 256, n / 256 % 256, n % 256]

/-- The end offsets, original.rs:140-146; `*end += len as u32` is checked. -/
def endOffsets : List (List Nat) → Nat → R (List Nat)
  | [], _ => .ok []
  | c :: cs, e =>
    let e' := e + c.length % 2 ^ 32
    if e' < 2 ^ 32 then do
      let rest ← endOffsets cs e'
      .ok (e' :: rest)
    else panic'

/-- `write_to_stream`, original.rs:131-159 -/
def writeToStream (o : Original) : R (List Nat) := do
  let start := (4 + (o.chunks.length + 1) * 4) % 2 ^ 32
  let ends ← endOffsets o.chunks start
  .ok (be32 o.size ++ be32 start ++ ends.flatMap be32 ++ o.chunks.flatten ++ (List.replicate 7 (be32 0)).flatten)

/-- `read_u32::<BigEndian>` at a position -/
def rdBe32 (data : List Nat) (pos : Nat) : R Nat :=
  match (data.drop pos).take 4 with
  | [a, b, c, d] => .ok (a * 16777216 + b * 65536 + c * 256 + d)
  | _ => fail'

/-- The chunk loop of `new`, original.rs:45-54; `pos` is the position in the stream, `offset` the last offset read from the index. -/
def readChunks (data : List Nat) : Nat → Nat → List Nat → R (List (List Nat))
  | _, _, [] => .ok []
  | pos, offset, e :: ends =>
    if e < offset then fail'
    else if data.length < pos + (e - offset) then fail'
    else do
      let rest ← readChunks data (pos + (e - offset)) e ends
      .ok ((data.drop pos).take (e - offset) :: rest)

/-- `OriginalCompressed::new`, original.rs:26-58, from position `start` -/
def open' (data : List Nat) (start : Nat) (digest : Option (List Nat)) : R Original := do
  let size ← rdBe32 data start
  let blocks := (size + blockSize - 1) / blockSize
  let index ← (List.range (blocks + 1)).mapM fun i => rdBe32 data (start + 4 + 4 * i)
  match index with
  | [] => .ok { size := size, chunks := [], digest := digest }
  | offset :: ends => do
    let chunks ← readChunks data (start + offset) offset ends
    .ok { size := size, chunks := chunks, digest := digest }

/-- The loop of `decompress`, original.rs:67-72: the bytes written so far and how it ended, with `total` -/
def decompressLoop (C : Codec) : List (List Nat) → List Nat → Nat → List Nat × R Nat
  | [], out, total => (out, .ok total)
  | c :: cs, out, _ =>
    match C.inflate c with
    | .error e => (out, .error e)
    | .ok buf => decompressLoop C cs (out ++ buf) buf.length

/-- `decompress`, original.rs:60-91: what was written to the stream and the result -/
def decompress (C : Codec) (o : Original) (verify : Bool) : List Nat × R Nat :=
  match decompressLoop C o.chunks [] 0 with
  | (out, .error e) => (out, .error e)
  | (out, .ok total) => if o.digest ≠ some (C.md5 out) ∧ verify then (out, fail') else (out, .ok total)

end Verif.Orig
