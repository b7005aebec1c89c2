import Verif.Spec.Bits
/-! # Olympus compression: how the samples of an image are coded -/

namespace Verif.Spec.Orf
open Verif

/-- What the code of a sample depends on, besides its prediction: the last magnitude, a running average of the differences, the number of
small magnitudes in a row. The even and the odd columns of each row have their own. -/
structure State where
  last : Nat
  avg : Int
  small : Nat

/-- At the start of a row. -/
def State.start : State := ⟨0, 0, 0⟩

/-- Number of binary digits. -/
def len (n : Nat) : Nat := if n = 0 then 0 else Nat.log2 n + 1

/-- How many of the digits of a magnitude are stored as they are. -/
def State.digits (a : State) : Nat :=
  let i := if a.small < 3 then 2 else 0
  min 16 (max (2 + i) (len a.last - i))

/-- The magnitude and the sign for a residual `v`: a quarter of it, rounded down, less the average. -/
def State.signed (a : State) (v : Int) : Int := v / 4 - a.avg

/-- Magnitude: 0, 1, 2, .. for 0, 1, 2, .. and for -1, -2, -3, .. -/
def mag (e : Int) : Nat := (if e < 0 then -1 - e else e).toNat

/-- The state after a residual. -/
def State.next (a : State) (v : Int) : State :=
  let m := mag (a.signed v)
  ⟨m, (3 * (v / 4) + a.avg) / 32, if m > 16 then 0 else a.small + 1⟩

/-- The bits that may stand for a residual `v`: the sign, the two lowest digits of `v`, the high digits of the magnitude, its low digits.
The high digits as zeros and a one if there are fewer than twelve zeros; or after twelve zeros in binary and one more bit. -/
def State.Coded (a : State) (v : Int) (bits : List Bool) : Prop :=
  let m := mag (a.signed v)
  let n := a.digits
  m < 65536 ∧ ∃ high, bits = [decide (a.signed v < 0)] ++ bitsMSB 2 (v % 4).toNat ++ high ++ bitsMSB n (m % 2 ^ n) ∧
    ((m / 2 ^ n < 12 ∧ high = List.replicate (m / 2 ^ n) false ++ [true]) ∨
     (n ≤ 15 ∧ m / 2 ^ n < 2 ^ (15 - n) ∧ ∃ x, high = List.replicate 12 false ++ bitsMSB (15 - n) (m / 2 ^ n) ++ [x]))

/-- The prediction of a sample, from the ones of the same colour to the left, above, and above left. -/
def predicted (f : Nat → Nat → Nat) (r c : Nat) : Int :=
  if r < 2 ∧ c < 2 then 0
  else if r < 2 then f r (c - 2)
  else if c < 2 then f (r - 2) c
  else
    let L : Int := f r (c - 2)
    let U : Int := f (r - 2) c
    let N : Int := f (r - 2) (c - 2)
    if (L < N ∧ N < U) ∨ (U < N ∧ N < L) then
      if (L - N).natAbs > 32 ∨ (U - N).natAbs > 32 then L + U - N else (L + U) / 2
    else if (L - N).natAbs > (U - N).natAbs then L else U

/-- The residual of a sample. -/
def residual (f : Nat → Nat → Nat) (r c : Nat) : Int := f r c - predicted f r c

/-- The state before sample number `k` of the even (`s = 0`) or odd (`s = 1`) columns of row `r`. -/
def state (f : Nat → Nat → Nat) (r s : Nat) : Nat → State
  | 0 => State.start
  | k + 1 => (state f r s k).next (residual f r (2 * k + s))

/-- The bits of all the samples: row by row, an even and an odd column in turn. A last column without a partner has none. -/
def scanBits (b : Nat → Nat → List Bool) (w h : Nat) : List Bool :=
  (List.range h).flatMap fun r => (List.range (w / 2)).flatMap fun k => b r (2 * k) ++ b r (2 * k + 1)

end Verif.Spec.Orf
