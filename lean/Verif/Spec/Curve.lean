import Verif.Base
/-! # Tone curves given as tables -/

namespace Verif.Spec

/-- The curve at `i`; beyond its end the last value is repeated. -/
def at' (table : List Nat) (i : Nat) : Nat := table.getD (min i (table.length - 1)) 0

/-- The distance between the curve values on both sides of `i`. -/
def spread (table : List Nat) (i : Nat) : Nat := at' table (i + 1) - at' table (i - 1)

/-- A non-decreasing 16 bit curve whose local slope leaves room below and above each value, so that subtracting or adding a
quarter of the spread stays in 16 bits. -/
def Gentle (table : List Nat) : Prop :=
  table ≠ [] ∧ (∀ v ∈ table, v < 2 ^ 16) ∧ (∀ i, at' table i ≤ at' table (i + 1)) ∧
  ∀ i, i < table.length → spread table i + 2 < 2 ^ 16 ∧ (at' table i = 0 ∨ (spread table i + 2) / 4 ≤ at' table i) ∧
    at' table i + (spread table i + 2) / 4 < 2 ^ 16

end Verif.Spec
