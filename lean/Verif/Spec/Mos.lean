import Verif.Base
/-! # The first place of a pattern in a text -/

namespace Verif.Spec.Mos

/-- `pat` is in the text at place `i`, and at no place before. -/
def FirstAt (pat text : List Nat) (i : Nat) : Prop := i ≤ text.length ∧ pat <+: text.drop i ∧ ∀ j, j < i → ¬ pat <+: text.drop j

/-- `pat` is not in the text. -/
def Absent (pat text : List Nat) : Prop := ∀ j, ¬ pat <+: text.drop j

/-- `<tiff:NAME>` -/
def opening (name : List Nat) : List Nat := "<tiff:".toList.map Char.toNat ++ name ++ [62]

/-- `</tiff:NAME>` -/
def closing (name : List Nat) : List Nat := "</tiff:".toList.map Char.toNat ++ name ++ [62]

/-- `NeutObj_neutrals` -/
def heading : List Nat := "NeutObj_neutrals".toList.map Char.toNat

end Verif.Spec.Mos
