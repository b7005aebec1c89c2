import Verif.Model.Orientation
import Verif.Spec.Orientation
/-! # C29: orientation codes -/

namespace Verif.Props
open Verif Verif.Orient Verif.Spec

/-- **C29, numeric code.** Every 16 bit code 1..8 and 0 comes back unchanged, every other code reads as unknown (which is
written as 0), and every orientation comes back from its code. -/
theorem C29_code_round_trip : (∀ o, fromU16 (toU16 o) = o) ∧ (∀ n, n ≤ 8 → toU16 (fromU16 n) = n) ∧
    (∀ n, 8 < n → fromU16 n = .unknown ∧ toU16 (fromU16 n) = 0) := by
  refine ⟨fun o => by cases o <;> rfl, by decide, fun n hn => ?_⟩
  have : fromU16 n = .unknown := by
    unfold fromU16
    split <;> first | omega | rfl
  exact ⟨this, by rw [this]; rfl⟩

/-- **C29, flips.** Every orientation other than `unknown` comes back from its flips, `unknown` comes back as `normal`, and
every triple of flips comes back from its orientation. -/
theorem C29_flips_round_trip : (∀ o, o ≠ .unknown → fromFlips (toFlips o) = o) ∧ fromFlips (toFlips .unknown) = .normal ∧
    ∀ f, toFlips (fromFlips f) = f := by
  refine ⟨fun o h => by cases o <;> first | rfl | exact absurd rfl h, rfl, ?_⟩
  rintro ⟨a, b, c⟩; cases a <;> cases b <;> cases c <;> rfl

/-- **C29, meaning.** The flips of an orientation code, applied as documented, put every pixel where the TIFF/EXIF definition
of the tag displays it, for every image size and pixel. -/
theorem C29_flips_display_as_exif (code w h r c : Nat) (sides : Side × Side) (hs : exifSides code = some sides) :
    applyFlips (toFlips (fromU16 code)) w h r c = displayPos sides.1 sides.2 w h r c := by
  unfold exifSides at hs
  split at hs <;> first | (cases hs; rfl) | simp at hs

example : applyFlips (toFlips (fromU16 6)) 3 2 0 0 = (0, 1) := by decide

end Verif.Props
