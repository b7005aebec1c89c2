import Verif.Spec.TwoRow
import Verif.Spec.Image
/-! # Pentax PEF compressed images -/

namespace Verif.Spec.Pef
open Verif Verif.Spec Verif.Spec.TwoRow

/-- The words for differences of 0, 1, 2, … binary digits: length and value. -/
abbrev Words := List (Nat × Nat)

/-- A 16 bit number in a file. -/
def word16 (le : Bool) (v : Nat) : List Nat := if le then [v % 256, v / 256] else [v / 256, v % 256]

/-- How a camera stores its words: their number (less 12, modulo 16, in `n`), twelve bytes of no interest, the words filled up
to 12 bits, and their lengths. Anything may follow. -/
def blob (le : Bool) (n : Nat) (skip : List Nat) (ws : Words) (tail : List Nat) : List Nat :=
  word16 le n ++ skip ++ ws.flatMap (fun a => word16 le (a.2 * 2 ^ (12 - a.1))) ++ ws.map (·.1) ++ tail

/-- A difference: the word for its number of digits, then its digits. -/
def coded (ws : Words) (d : Int) : List Bool :=
  let a := ws.getD (catOf d) (0, 0)
  bitsMSB a.1 a.2 ++ bitsMSB (catOf d) (extraOf d)

/-- The number of words of each length. -/
def counts (ws : Words) : List Nat := (List.range 16).map fun i => (ws.filter fun a => a.1 = i + 1).length

/-- The words are those of the canonical code with these lengths, in some order, and there is room for them. -/
def Canonical (ws : Words) (order : List Nat) : Prop :=
  order.Perm (List.range ws.length) ∧
  (∀ k, k < ws.length → ws.getD (order.getD k 0) (0, 0) = canonCode (counts ws) 0 0 k) ∧
  ∀ a ∈ ws, 1 ≤ a.1 ∧ a.1 ≤ 12 ∧ a.2 < 2 ^ a.1

instance (ws : Words) (order : List Nat) : Decidable (Canonical ws order) := by unfold Canonical; infer_instance

/-- No word is the beginning of another one, so that a reader can tell where each ends. -/
def PrefixFree (ws : Words) : Prop :=
  ∀ i < ws.length, ∀ j < ws.length, i ≠ j →
    ¬ bitsMSB (ws.getD i (0, 0)).1 (ws.getD i (0, 0)).2 <+: bitsMSB (ws.getD j (0, 0)).1 (ws.getD j (0, 0)).2

instance (ws : Words) : Decidable (PrefixFree ws) := by unfold PrefixFree; infer_instance

/-- The words all Pentax cameras without a stored table use, for differences of 0 to 12 digits. -/
def builtin : Words := [(5, 0b11110), (3, 0b110), (3, 0b100), (2, 0b00), (2, 0b01), (3, 0b101), (4, 0b1110), (6, 0b111110),
  (7, 0b1111110), (8, 0b11111110), (9, 0b111111110), (10, 0b1111111110), (10, 0b1111111111)]

/-- The image as the camera stores it. -/
def encodePef (ws : Words) (w h : Nat) (px : Nat → Nat → Nat) : List Bool :=
  let v : Nat → Nat → Int := fun r c => px r c
  stored (fun r c => coded ws (v r c - before (fun _ _ => 0) v r c)) w h

end Verif.Spec.Pef
