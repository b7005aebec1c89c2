import Verif.Spec.BmffFind
/-!
# Where the samples of a track are

A track stores its samples (frames) in chunks, one after another. The sample-to-chunk table gives, in runs
`(first chunk, samples per chunk, description)`, how many samples each chunk holds; chunks and samples are counted from 1.
-/

namespace Verif.BmffSpec

/-- Number of samples in chunk `c`: that of the last run starting at or before it. -/
def perChunk (runs : List (Nat × Nat × Nat)) (c : Nat) : Nat :=
  match (runs.filter (fun r => r.1 ≤ c)).getLast? with
  | some r => r.2.1
  | none => 0

/-- Number of samples in the `k` chunks from chunk `c` on. -/
def held (runs : List (Nat × Nat × Nat)) (c k : Nat) : Nat := ((List.range k).map (fun i => perChunk runs (c + i))).sum

/-- Sample `s` is number `w` (from 0) of chunk `c`. -/
def InChunk (runs : List (Nat × Nat × Nat)) (s c w : Nat) : Prop :=
  1 ≤ c ∧ w < perChunk runs c ∧ s = 1 + held runs 1 (c - 1) + w

/-- Offset of number `w` of the chunk at `base`, if its sample number is `s`: behind the `w` samples before it. -/
def offsetIn (sizes : List Nat) (base s w : Nat) : Nat := base + ((sizes.drop (s - 1 - w)).take w).sum

/-- The sizes of all samples. -/
def Content.sampleSizes : Content → List Nat
  | .sizeOne _ _ size count => List.replicate count size
  | .sizes _ _ l => l
  | _ => []

end Verif.BmffSpec
