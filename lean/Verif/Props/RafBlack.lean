import Verif.Model.RafBlack
/-! # C99: black levels of Fujifilm files -/

namespace Verif.Props
open Verif Verif.RafBlack

/-- **C99.** If the file has one level of less than 65536 for each colour of the pattern, the levels of the picture are those, in the same order, and repeat as the pattern
does. -/
theorem C99_black (cw ch : Nat) (levels : List Nat) (hl : levels.length = cw * ch) (hs : ∀ v ∈ levels, v < 65536) :
    ∃ b, blacklevel (some (some (.long levels))) cw ch = .ok (some b) ∧ b.width = cw ∧ b.height = ch ∧ b.cpp = 1 ∧
      b.levels.length = cw * ch ∧ ∀ (i : Nat) (h : i < levels.length), b.levels[i]? = some (levels[i], 1) := by
  have hm : (levels.map fun v => (v % 65536, 1)) = levels.map fun v => (v, 1) := by
    refine List.map_congr_left fun v hv => ?_
    rw [Nat.mod_eq_of_lt (hs v hv)]
  refine ⟨⟨levels.map fun v => (v, 1), cw, ch, 1⟩, ?_, rfl, rfl, rfl, by simp [hl], fun i h => by simp [h]⟩
  simp only [blacklevel, hm, Dng.BlackLevel.new, assert', List.length_map, hl, Nat.mul_one]
  simp
  rfl

/-- **C99, another number of levels.** Then the program aborts. -/
theorem C99_count_aborts (cw ch : Nat) (levels : List Nat) (hl : levels.length ≠ cw * ch) :
    blacklevel (some (some (.long levels))) cw ch = panic' := by
  simp only [blacklevel, Dng.BlackLevel.new, assert', List.length_map, Nat.mul_one]
  simp [hl]
  rfl

/-- **C99, no levels.** Without the directory, without the entry, or with numbers of another type, the picture has the levels of the camera. -/
theorem C99_none (cw ch : Nat) :
    blacklevel none cw ch = .ok none ∧ blacklevel (some none) cw ch = .ok none ∧ blacklevel (some (some .other)) cw ch = .ok none :=
  ⟨rfl, rfl, rfl⟩

/-- A level of 65536 or more loses its upper bits: 65537 is taken as 1 -/
theorem C99_high_lost : ∃ b, blacklevel (some (some (.long [65537, 1024, 1024, 1024]))) 2 2 = .ok (some b) ∧ b.levels[0]? = some (1, 1) :=
  ⟨⟨[(1, 1), (1024, 1), (1024, 1), (1024, 1)], 2, 2, 1⟩, by rfl, rfl⟩

/-- Four levels of a Bayer pattern; the same for an X-Trans pattern abort -/
example : ∃ b, blacklevel (some (some (.long [1022, 1023, 1024, 1025]))) 2 2 = .ok (some b) ∧ b.levels[3]? = some (1025, 1) := by
  obtain ⟨b, e, -, -, -, -, h⟩ := C99_black 2 2 [1022, 1023, 1024, 1025] rfl (by decide)
  exact ⟨b, e, h 3 (by decide)⟩
example : blacklevel (some (some (.long [1022, 1023, 1024, 1025]))) 6 6 = panic' := C99_count_aborts 6 6 _ (by decide)

end Verif.Props
