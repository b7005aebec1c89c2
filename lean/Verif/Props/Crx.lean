import Verif.Proofs.CrxBand
import Verif.Proofs.CrxNoRef
import Verif.Proofs.CrxBytes

/-! # C49: lines of a lossless CR3 band decode to the coded samples -/

namespace Verif.Props
open Verif Verif.Crx Verif.CrxSpec

/-- **C49**, bands whose lines refer to the line above (all bands of a lossless CR3). A band of lines of the same width, coded as the
format prescribes and packed into bytes (whatever bytes follow), decodes line by line to exactly the coded samples. Samples up to 18
bits in magnitude; a camera writes at most 16. -/
theorem C49_band_round_trip (lines : List (List Int)) (w : Nat) (hw : 0 < w)
    (hlines : ∀ l ∈ lines, l.length = w ∧ ∀ v ∈ l, v.natAbs ≤ 131072) (tail : List Nat) :
    decodeLines lines.length (newBand w lines.length true (bytesMSB (toBytes (encBand lines) ++ tail))) = .ok lines := by
  obtain ⟨pad, hp, -, -⟩ := toBytes_spec _ (encBand lines) (Nat.le_refl _)
  have e : bytesMSB (toBytes (encBand lines) ++ tail) = encBand lines ++ (pad ++ bytesMSB tail) := by
    rw [← List.append_assoc, ← hp, bytesMSB, List.flatMap_append]; rfl
  rw [e]
  exact band_ok lines w _ hw (fun l hl => ⟨(hlines l hl).1, fun v hv => (hlines l hl).2 v hv⟩)

/-- three lines of six samples with runs, edges and an escaped value -/
example : (∀ l ∈ [[0, 0, 0, 5, -7, 3], [3, 3, 3, 3, 3, 3], [3, 3, 3, 131072, -131072, 0]],
      l.length = 6 ∧ ∀ v ∈ l, v.natAbs ≤ 131072) ∧
    decodeLines 3 (newBand 6 3 true (bytesMSB (toBytes
        (encBand [[0, 0, 0, 5, -7, 3], [3, 3, 3, 3, 3, 3], [3, 3, 3, 131072, -131072, 0]]) ++ [1, 2, 3]))) =
      .ok [[0, 0, 0, 5, -7, 3], [3, 3, 3, 3, 3, 3], [3, 3, 3, 131072, -131072, 0]] := by
  decide +kernel

/-- **C49**, bands whose lines do not refer to the line above (the detail bands of C-RAW). -/
theorem C49_detail_band_round_trip (lines : List (List Int)) (w : Nat)
    (hlines : ∀ l ∈ lines, l.length = w ∧ ∀ v ∈ l, -1048576 ≤ v ∧ v < 1048576) (tail : List Nat) :
    decodeLines lines.length (newBand w lines.length false (bytesMSB (toBytes (encBandNoRef lines) ++ tail))) = .ok lines := by
  obtain ⟨pad, hp, -, -⟩ := toBytes_spec _ (encBandNoRef lines) (Nat.le_refl _)
  have e : bytesMSB (toBytes (encBandNoRef lines) ++ tail) = encBandNoRef lines ++ (pad ++ bytesMSB tail) := by
    rw [← List.append_assoc, ← hp, bytesMSB, List.flatMap_append]; rfl
  rw [e]
  exact bandNoRef_ok lines w _ (fun l hl => ⟨(hlines l hl).1, fun v hv => (hlines l hl).2 v hv⟩)

example : (∀ l ∈ [[0, 0, 4, 0], [0, 0, 0, 0], [-1048576, 1048575, 0, 1]], l.length = 4 ∧ ∀ v ∈ l, -1048576 ≤ v ∧ v < 1048576) ∧
    decodeLines 3 (newBand 4 3 false (bytesMSB (toBytes (encBandNoRef [[0, 0, 4, 0], [0, 0, 0, 0], [-1048576, 1048575, 0, 1]])))) =
      .ok [[0, 0, 4, 0], [0, 0, 0, 0], [-1048576, 1048575, 0, 1]] := by
  decide +kernel

end Verif.Props
