import Verif.Base
/-! # `BitArray<T>` (rawler/src/bitarray.rs) for a storage of `B` bits -/

namespace Verif.BitArr
open Verif

/-- `struct BitArray`, bitarray.rs:17-20 -/
structure BitArray where
  storage : Nat
  nbits : Nat
  deriving DecidableEq, Repr

/-- `new`, bitarray.rs:63-68 -/
def new : BitArray := ⟨0, 0⟩

/-- `push`, bitarray.rs:86-93; beyond the width the subtraction panics. -/
def push (B : Nat) (a : BitArray) (bit : Bool) : R BitArray :=
  if B ≤ a.nbits then panic'
  else .ok ⟨a.storage ||| bit.toNat <<< (B - (a.nbits + 1)), a.nbits + 1⟩

/-- `pop`, bitarray.rs:95-105; beyond the width the subtraction panics. -/
def pop (B : Nat) (a : BitArray) : R (BitArray × Bool) :=
  if a.nbits = 0 ∨ B < a.nbits then panic'
  else
    let mask := 1 <<< (B - a.nbits)
    let bit := a.storage &&& mask
    .ok (⟨a.storage &&& (2 ^ B - 1 - mask), a.nbits - 1⟩, bit != 0)

/-- `get_msb`, bitarray.rs:107-109 -/
def getMsb (a : BitArray) : Nat := a.storage

/-- `get_lsb`, bitarray.rs:111-113: a shift by the full width panics (checked build). -/
def getLsb (B : Nat) (a : BitArray) : R Nat :=
  if B - a.nbits < B then .ok (a.storage >>> (B - a.nbits)) else panic'

/-- `from_lsb`, bitarray.rs:119-124 -/
def fromLsb (B nbits value : Nat) : R BitArray := do
  let sh ← usub B nbits
  if sh < B then .ok ⟨value <<< sh % 2 ^ B, nbits⟩ else panic'

/-- `cmp`, bitarray.rs:36-43 -/
def cmp (a b : BitArray) : Ordering :=
  match compare a.nbits b.nbits with
  | .eq => compare a.storage b.storage
  | r => r

/-- The loop of `Display::fmt`, bitarray.rs:46-54, `fuel` at least the number of bits -/
def drain (B : Nat) : Nat → BitArray → R (List Char)
  | 0, a => if a.nbits = 0 then .ok [] else panic'
  | n + 1, a =>
    if a.nbits = 0 then .ok []
    else do
      let (a, bit) ← pop B a
      let rest ← drain B n a
      .ok ((if bit then '1' else '0') :: rest)

/-- `Display::fmt`, bitarray.rs:45-59: the popped characters, last one first -/
def display (B : Nat) (a : BitArray) : R (List Char) := do
  let s ← drain B a.nbits a
  .ok s.reverse

inductive Op where
  | push (bit : Bool)
  | pop
  deriving DecidableEq, Repr

/-- A history of calls: the array and the bits popped, in order. -/
def run (B : Nat) : List Op → BitArray → R (BitArray × List Bool)
  | [], a => .ok (a, [])
  | .push b :: ops, a => do
    let a ← push B a b
    run B ops a
  | .pop :: ops, a => do
    let (a, b) ← pop B a
    let (a, out) ← run B ops a
    .ok (a, b :: out)

end Verif.BitArr
