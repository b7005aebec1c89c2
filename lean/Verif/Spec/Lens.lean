import Verif.Model.Lens
import Mathlib.Data.Rat.Defs
import Mathlib.Algebra.Order.Field.Rat
/-! # What it means that a lens is the one that was used -/

namespace Verif.Spec.Lens
open Verif.Lens

/-- The number. -/
def val (r : Rational) : ℚ := (r.n : ℚ) / (r.d : ℚ)

/-- The lens agrees with everything the file says: mount, number, make and model, the focal length is in its range, and the aperture is
one it can have. -/
def Agrees (q : Query) (e : Entry) : Prop :=
  (∀ ms, q.mounts = some ms → e.mount ∈ ms) ∧
  (∀ i, q.id = some i → e.id = some i) ∧
  (∀ m, q.make = some m → e.make = m) ∧
  (∀ m, q.model = some m → e.model = m) ∧
  (∀ f, q.focal = some f → val e.focalMin ≤ val f ∧ val f ≤ val e.focalMax) ∧
  ∀ a, q.aperture = some a → val e.aperture ≤ val a

/-- Fractions with a denominator. -/
def Entry.Sane (e : Entry) : Prop := 0 < e.focalMin.d ∧ 0 < e.focalMax.d ∧ 0 < e.aperture.d

def Query.Sane (q : Query) : Prop := (∀ f, q.focal = some f → 0 < f.d) ∧ ∀ a, q.aperture = some a → 0 < a.d

/-- The lens has the key, Nikon or Olympus identifier that the file gives. -/
def Named (q : Query) (e : Entry) : Prop :=
  (∃ k, q.keyname = some k ∧ k ≠ "" ∧ e.name = some k) ∨ (∃ k, q.nikonId = some k ∧ e.nikonId = some k) ∨
  ∃ k, q.olympusId = some k ∧ e.olympusId = some k

/-- No two lenses have the same identifier. -/
def UniqueIds (db : List Entry) : Prop :=
  ∀ a ∈ db, ∀ b ∈ db, ((a.name ≠ none ∧ a.name = b.name) ∨ (a.nikonId ≠ none ∧ a.nikonId = b.nikonId) ∨ (a.olympusId ≠ none ∧ a.olympusId = b.olympusId)) → a = b

/-- The camera says 4 for lenses of kind 7. -/
def Wrong4 (q : Query) : Prop := (q.cameraModel = some "*ist DS" ∨ q.cameraModel = some "*ist D") ∧ ∃ sub, q.id = some (4, sub)

/-- What it should have said. -/
def corrected (q : Query) : Query := { q with id := q.id.map fun i => (7, i.2) }

end Verif.Spec.Lens
