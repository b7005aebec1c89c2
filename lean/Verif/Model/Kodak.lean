import Verif.Model.LjpegDec
import Verif.Model.Linearize
/-! # Kodak 65000 decompression (rawler/src/decoders/dcr.rs)

The `ByteStream` is modelled by its unread suffix, as in `Model/LjpegDec`. The `dummy` flag is `false`. -/

namespace Verif.Kodak
open Verif
open Verif.Ljpeg (getU8)

/-- The lengths of a segment, dcr.rs:137-141: `peek_u8` and `get_u8` see the same byte. State: unread bytes, `lens`. -/
def segLens (size : Nat) (input : List Nat) : R (List Nat × List Nat) :=
  forN ((size + 1) / 2) (fun i st => do
    let (b, input) ← getU8 st.1
    let lens ← upd st.2 (2 * i) (b &&& 15)
    let lens ← upd lens (2 * i + 1) (b >>> 4)
    .ok (input, lens)) (input, List.replicate 256 0)

/-- The unread bytes, `bitbuf`, `bits` -/
structure Bits where
  input : List Nat
  bitbuf : Nat
  bits : Nat

/-- dcr.rs:143-148 -/
def start (size : Nat) (input : List Nat) : R Bits :=
  if size &&& 7 = 4 then do
    let (a, input) ← getU8 input
    let (b, input) ← getU8 input
    .ok ⟨input, (a <<< 8) ||| b, 16⟩
  else .ok ⟨input, 0, 0⟩

/-- Four more bytes, dcr.rs:152-157. There are less than 15 bits, so that nothing leaves the 64 bits. -/
def refill (s : Bits) : R Bits := do
  let (input, buf) ← forN 4 (fun k (st : List Nat × Nat) => do
    let (b, input) ← getU8 st.1
    .ok (input, st.2 + (b <<< (s.bits + ((8 * k) ^^^ 8))))) (s.input, s.bitbuf)
  .ok ⟨input, buf, s.bits + 32⟩

/-- One difference, dcr.rs:151-164 -/
def sample (len : Nat) (s : Bits) : R (Int × Bits) := do
  let s ← (if s.bits < len then refill s else .ok s : R Bits)
  let sh ← usub 16 len
  let v := s.bitbuf &&& (0xffff >>> sh)
  let bits ← usub s.bits len
  let s : Bits := ⟨s.input, s.bitbuf >>> len, bits⟩
  if len ≠ 0 ∧ v &&& (1 <<< (len - 1)) = 0 then .ok ((v : Int) - ((1 <<< len : Nat) - 1), s) else .ok ((v : Int), s)

/-- `decode_segment`, dcr.rs:133-168 -/
def decodeSegment (input : List Nat) (size : Nat) : R (List Int × List Nat) := do
  let (input, lens) ← segLens size input
  let s ← start size input
  let (s, out) ← forN size (fun i (st : Bits × List Int) => do
    let len ← idx lens i
    let (v, s) ← sample len st.1
    let out ← upd st.2 i v
    .ok (s, out)) (s, List.replicate size 0)
  .ok (out, s.input)

/-- `pred`, `random`, image -/
structure St where
  pred0 : Int
  pred1 : Int
  random : Nat
  out : List Nat

/-- The new prediction, dcr.rs:120-124. At most 128 differences of 16 bits are added up, so the `i32` cannot overflow. -/
def addClamp (pred val : Int) : Int := if pred + val < 0 then 0 else pred + val

/-- One sample, dcr.rs:119-126 -/
def pixel (curve : List (Nat × Nat × Nat)) (base i : Nat) (val : Int) (st : St) : R St :=
  if i &&& 1 = 0 then do
    let pred := addClamp st.pred0 val
    let (q, random) ← Linearize.dither curve (pred % 65536).toNat st.random
    let out ← upd st.out (base + i) q
    .ok ⟨pred, st.pred1, random, out⟩
  else do
    let pred := addClamp st.pred1 val
    let (q, random) ← Linearize.dither curve (pred % 65536).toNat st.random
    let out ← upd st.out (base + i) q
    .ok ⟨st.pred0, pred, random, out⟩

/-- Up to 256 samples, dcr.rs:116-127: state: unread bytes, `random`, image. -/
def segment (curve : List (Nat × Nat × Nat)) (width row k : Nat) (st : List Nat × Nat × List Nat) : R (List Nat × Nat × List Nat) := do
  let size := min 256 (width - 256 * k)
  let (buf, input) ← decodeSegment st.1 size
  let s ← forN size (fun i s => do
    let val ← idx buf i
    pixel curve (row * width + 256 * k) i val s) ⟨0, 0, st.2.1, st.2.2⟩
  .ok (input, s.random, s.out)

/-- `decode_kodak65000`, dcr.rs:109-131 -/
def decode65000 (buf : List Nat) (curve : List (Nat × Nat × Nat)) (width height : Nat) : R (List Nat) := do
  let st ← forN height (fun row st => forN ((width + 255) / 256) (segment curve width row) st) (buf, 0, List.replicate (width * height) 0)
  .ok st.2.2

end Verif.Kodak
