import Verif.Base
/-! # Views of a file (rawsource.rs), as in release builds: sums of 64 bits wrap around (`overflow-checks = false`, Cargo.toml:19-21) -/

namespace Verif.RawSource
open Verif

/-- The sum of two `u64`, Cargo.toml:21 -/
def wadd (a b : Nat) : Nat := (a + b) % 2 ^ 64

/-- `slice::get(a..b)`, as in rawsource.rs:75 -/
def get (file : List Nat) (a b : Nat) : R (List Nat) :=
  if a ≤ b ∧ b ≤ file.length then .ok ((file.drop a).take (b - a)) else fail'

/-- `RawSource::subview`, rawsource.rs:74-79 -/
def subview (file : List Nat) (off size : Nat) : R (List Nat) := get file off (wadd off size)

/-- `Vec::with_capacity`, as in rawsource.rs:86: it aborts above `isize::MAX`; a lack of memory is not modelled. -/
def withCapacity (n : Nat) : R Unit := if n < 2 ^ 63 then .ok () else panic'

/-- `RawSource::subview_padded`, rawsource.rs:81-97; the slice a `PaddedBuf` gives, buffer.rs:42-51 -/
def subviewPadded (file : List Nat) (off size : Nat) : R (List Nat) :=
  if wadd off size ≤ file.length then
    if wadd (wadd off size) 16 ≤ file.length then subview file off (wadd size 16)
    else do
      withCapacity (wadd size 16)
      let v ← subview file off size
      .ok (v ++ List.replicate 16 0)
  else fail'

/-- `RawSource::subview_until_eof`, rawsource.rs:99-104 -/
def subviewEof (file : List Nat) (off : Nat) : R (List Nat) := get file off file.length

/-- `RawSource::subview_until_eof_padded`, rawsource.rs:106-118 -/
def subviewEofPadded (file : List Nat) (off : Nat) : R (List Nat) :=
  if off < file.length then do
    withCapacity (file.length - off + 16)
    let v ← subviewEof file off
    .ok (v ++ List.replicate 16 0)
  else fail'

end Verif.RawSource
