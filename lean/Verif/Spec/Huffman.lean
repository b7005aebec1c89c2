import Verif.Base
/-! # Specification of a Huffman code table -/

namespace Verif.Spec

/-- A table of code words indexed by symbol (an empty word means "no code") is a valid JPEG code table for the set of
symbols `used`: exactly the used symbols have a word, of 1 to 16 bits; no word is a prefix of another symbol's word;
no word consists of one bits only. -/
structure ValidCodeTable (word : Nat → List Bool) (used : Nat → Prop) : Prop where
  length_used : ∀ s, used s → 1 ≤ (word s).length ∧ (word s).length ≤ 16
  unused : ∀ s, ¬ used s → word s = []
  prefixFree : ∀ s t, used s → used t → s ≠ t → ¬ word s <+: word t
  notAllOnes : ∀ s, used s → false ∈ word s

end Verif.Spec
