import Verif.Base
/-! # Encoder bit stream (`rawler/src/ljpeg92.rs`, `BitstreamJPEG`) -/

namespace Verif.Ljpeg
open Verif

/-- `struct BitstreamJPEG`, ljpeg92.rs:505-509. `out` is the content of `inner` so far. -/
structure BitWriter where
  out : List Nat
  next : Nat
  used : Nat
  deriving DecidableEq, Repr

/-- `BitstreamJPEG::new`, ljpeg92.rs:512-514. `inner` already holds the bytes `out`. -/
def BitWriter.new (out : List Nat) : BitWriter := ⟨out, 0, 0⟩

/-- `internal_flush`, ljpeg92.rs:541-550. -/
def BitWriter.internalFlush (w : BitWriter) : BitWriter :=
  { out := w.out ++ (if w.next = 0xff then [w.next, 0] else [w.next]), used := 0, next := 0 }

/-- One iteration of the `while bits > 0` loop of `write`, ljpeg92.rs:521-537; returns the new state and the
remaining number of bits. -/
def BitWriter.step (w : BitWriter) (bits value : Nat) : BitWriter × Nat :=
  let w := if w.used = 8 then w.internalFlush else w
  let free := 8 - w.used
  let take := min bits free
  let peek := ((value >>> (bits - take)) &&& ((1 <<< take) - 1)) % 256
  ({ w with next := w.next ||| ((peek <<< (free - take)) % 256), used := w.used + take }, bits - take)

/-- `BitstreamJPEG::write`, ljpeg92.rs:520-539; the first argument bounds the number of iterations. -/
def BitWriter.writeLoop : Nat → BitWriter → Nat → Nat → R BitWriter
  | fuel, w, bits, value =>
    if bits = 0 then .ok w else
    match fuel with
    | 0 => panic'
    | fuel + 1 => let (w, bits) := w.step bits value; writeLoop fuel w bits value

/-- `BitstreamJPEG::write`. Each iteration takes at least one bit, so `bits` iterations suffice. -/
def BitWriter.write (w : BitWriter) (bits value : Nat) : R BitWriter := writeLoop bits w bits value

/-- `flush`, ljpeg92.rs:552-557. -/
def BitWriter.flush (w : BitWriter) : BitWriter := if w.used > 0 then w.internalFlush else w

end Verif.Ljpeg
