import Verif.Base
/-! # Slices and chunk iterators of the Rust standard library, as used by the modelled code -/

namespace Verif

/-- `&l[a..b]`: panics unless `a ≤ b ≤ l.len()`. -/
def slice {α : Type} (l : List α) (a b : Nat) : R (List α) :=
  if a ≤ b ∧ b ≤ l.length then .ok ((l.drop a).take (b - a)) else panic'

/-- `l.chunks_exact(n)` (also `chunks_exact_mut`, `par_chunks_exact_mut`): the full pieces of `n` elements; a shorter
rest is dropped; `n = 0` panics. -/
def chunksExact {α : Type} (l : List α) (n : Nat) : R (List (List α)) :=
  if n = 0 then panic' else .ok ((List.range (l.length / n)).map fun i => (l.drop (i * n)).take n)

/-- `l.chunks(n)` (also `chunks_mut`, `par_chunks_mut`): pieces of `n` elements, the last may be shorter; `n = 0` panics. -/
def chunks {α : Type} (l : List α) (n : Nat) : R (List (List α)) :=
  if n = 0 then panic' else .ok ((List.range ((l.length + n - 1) / n)).map fun i => (l.drop (i * n)).take n)

/-- An image filled row by row, each sample computed independently: the shape of every
`out.par_chunks_mut(width).enumerate().for_each(|(row, line)| line[col] = f(row, col))` loop. -/
def genRows {α : Type} (h w : Nat) (f : Nat → Nat → R α) : R (List α) := do
  let rows ← (List.range h).mapM fun r => (List.range w).mapM fun c => f r c
  .ok rows.flatten

end Verif
