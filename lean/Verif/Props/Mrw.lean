import Verif.Proofs.Mrw
/-! # C77: Minolta MRW files -/

namespace Verif.Props
open Verif Verif.Mrw Verif.Spec.Mrw

/-- Opening a well-formed file, whatever other blocks it has: size and storage come from the last PRD block, white balance from the last
WBG block, the TIFF data from the last TTW block and the picture from behind the last block. (Missing from the full claim: a last block
that matters and ends within twenty bytes, see `C77_last_wbg_lost`.) -/
theorem C77_settings_partial (bs : List Block) (pic : List Nat) (hg : Good bs) (hl : (bytes bs).length + 8 < 2 ^ 32)
    (prd wbg : List Nat) (t : Nat) (hp : lastOf PRD bs = some prd) (hw : lastOf WBG bs = some wbg) (ht : lastAt TTW 8 bs = some t) :
    newMrw (file bs pic) = .ok
      { dataOffset := 8 + (bytes bs).length
        rawHeight := u16At prd 8
        rawWidth := u16At prd 10
        packed := prd.getD 16 0 == 12
        wb := [u16At wbg 4, u16At wbg 6, u16At wbg 8, u16At wbg 10]
        tiffpos := t } := by
  rw [newMrw_ok bs pic hg hl, after, hp, hw, ht]
  rfl

/-- The TIFF data are found: the position found is where the data of the last TTW block are. -/
theorem C77_tiff (bs : List Block) (pic : List Nat) (d : List Nat) (hd : lastOf TTW bs = some d) :
    ∃ t, lastAt TTW 8 bs = some t ∧ ∃ rest, (file bs pic).drop t = d ++ rest := by
  have h8 : (file bs pic).drop 8 = bytes bs ++ pic := by
    simp [file, w32, List.append_assoc]
  generalize hf : file bs pic = f at h8 ⊢
  clear hf
  generalize 8 = o at h8 ⊢
  induction bs generalizing o with
  | nil => cases hd
  | cons b bs ih =>
    rw [bytes_cons, List.append_assoc] at h8
    have hne : b.bytes ≠ [] := by intro e; have := bytes_length b; rw [e] at this; simp at this; omega
    have hn := (drop_at h8 hne).2
    rw [lastOf] at hd
    cases hl : lastOf TTW bs with
    | some q =>
      rw [hl, Option.some_or] at hd
      cases hd
      obtain ⟨t, h1, h2⟩ := ih hl _ hn
      exact ⟨t, by rw [lastAt, h1]; rfl, h2⟩
    | none =>
      rw [hl, Option.none_or] at hd
      have hno : ∀ o, lastAt TTW o bs = none := by
        clear ih h8 hn hd
        induction bs with
        | nil => intro o; rfl
        | cons c bs ih =>
          intro o
          rw [lastOf] at hl
          rw [lastAt]
          cases h1 : lastOf TTW bs with
          | some q => rw [h1] at hl; cases hl
          | none =>
            rw [ih h1, Option.none_or]
            rw [h1, Option.none_or] at hl
            split at hl
            · cases hl
            · rw [if_neg (by assumption)]
      split at hd
      · cases hd
        rename_i htag
        refine ⟨o + 8, by rw [lastAt, hno, Option.none_or, if_pos htag], bytes bs ++ pic, ?_⟩
        rw [Block.bytes, List.append_assoc] at h8
        have := (drop_at h8 (by simp [w32])).2
        simpa [w32] using this
      · cases hd

/-- The picture of a packed file: sample `(r, c)` is the 12 bit number `r * width + c` behind the blocks. (Missing from the full claim: odd
widths, for which the 12 bit unpacker is wrong, see C13.) -/
theorem C77_packed_partial (bs : List Block) (pic : List Nat) (hb : IsBytes pic) (hg : Good bs) (hl : (bytes bs).length + 8 < 2 ^ 32)
    (s : Mrw) (ho : newMrw (file bs pic) = .ok s) (hp : s.packed = true) (h0 : 0 < s.rawWidth) (hw : s.rawWidth % 2 = 0) (hlen : s.rawHeight * s.rawWidth * 12 ≤ 8 * pic.length) :
    ∃ img, rawImage (file bs pic) s = .ok img ∧
      Spec.Holds img s.rawWidth s.rawHeight (fun r c => Spec.fieldMSB 12 pic (r * s.rawWidth + c)) := by
  have hs : s.dataOffset = 8 + (bytes bs).length := by
    rw [newMrw_ok bs pic hg hl] at ho; cases ho; rfl
  have hd : (file bs pic).drop s.dataOffset = pic := by
    rw [hs, file, List.drop_left' (by simp [w32]; omega)]
  have hle : s.dataOffset ≤ (file bs pic).length := by simp [file, w32, hs]; omega
  rw [rawImage, if_pos hle, if_pos hp, hd]
  exact dec12be_ok pic hb _ _ h0 hw hlen

/-- ... and of one that is not packed: the low twelve bits of the 16 bit number, high byte first. -/
theorem C77_unpacked (bs : List Block) (pic : List Nat) (hb : IsBytes pic) (hg : Good bs) (hl : (bytes bs).length + 8 < 2 ^ 32)
    (s : Mrw) (ho : newMrw (file bs pic) = .ok s) (hp : s.packed = false) (h0 : 0 < s.rawWidth) (hlen : s.rawHeight * s.rawWidth * 2 ≤ pic.length) :
    ∃ img, rawImage (file bs pic) s = .ok img ∧
      Spec.Holds img s.rawWidth s.rawHeight (fun r c => Spec.fieldMSB 16 pic (r * s.rawWidth + c) % 2 ^ 12) := by
  have hs : s.dataOffset = 8 + (bytes bs).length := by
    rw [newMrw_ok bs pic hg hl] at ho; cases ho; rfl
  have hd : (file bs pic).drop s.dataOffset = pic := by
    rw [hs, file, List.drop_left' (by simp [w32]; omega)]
  have hle : s.dataOffset ≤ (file bs pic).length := by simp [file, w32, hs]; omega
  rw [rawImage, if_pos hle, if_neg (by rw [hp]; decide), hd]
  exact C13_unpacked_be 12 pic hb _ _ h0 hlen

/-- White balance: red, green, green, blue as stored, or for the cameras that store green, blue, red in the order red, green, green, blue. -/
theorem C77_white_balance (r g g' b : Nat) :
    wbCoeffs false [r, g, g', b] = .ok [r, g, g', b] ∧ wbCoeffs true [g, b, r, g'] = .ok [r, g, g, b] := ⟨rfl, rfl⟩

/-- White balance in the maker notes of EXIF variants: the last place before the picture with `red, blue, 256, 256` counts, and without one
all four are 1. -/
theorem C77_maker_notes (file : List Nat) (dataOffset : Nat) :
    (∀ i r b, Quad (words file dataOffset) i r b → (∀ j r' b', i < j → ¬Quad (words file dataOffset) j r' b') →
      mlyWb file dataOffset = [r, 256, 256, b]) ∧
    ((∀ i r b, ¬Quad (words file dataOffset) i r b) → mlyWb file dataOffset = [1, 1, 1, 1]) := by
  rw [mlyWb_words]
  exact (found_all _).2

/-- A WBG block with nothing behind its four numbers is not read when it is the last one: the numbers stay zero. -/
theorem C77_last_wbg_lost (d pic : List Nat) (hd : d.length = 12) :
    newMrw (file [⟨WBG, d⟩] pic) = .ok { dataOffset := 28, wb := [0, 0, 0, 0] } := by
  have h4 : (file [⟨WBG, d⟩] pic).drop 4 = w32 20 ++ (bytes [⟨WBG, d⟩] ++ pic) := by
    simp [file, bytes, Block.bytes, w32, hd, List.append_assoc]
  rw [newMrw, beU32_at h4]
  simp only [Verif.Orf.ok_bind]
  rw [assert', if_pos (by decide), Verif.Orf.ok_bind, show 20 + 8 = 27 + 1 from rfl, blocks, if_neg (by decide), Verif.Orf.ok_bind, if_pos (Nat.zero_le _)]

/-- A file of less than eight bytes panics, even one recognised as MRW. -/
theorem C77_short_panics (file : List Nat) (h : file.length < 8) : newMrw file = panic' := by
  rw [newMrw, beU32, slice, if_neg (by omega)]
  rfl

example : isMrw [0, 0x4D, 0x52, 0x4D] = true := by decide

/-- So does one cut off in the blocks: the length of the blocks is not compared with the length of the file. -/
theorem C77_cut_panics (total : Nat) (h : 20 < total) (h2 : total + 8 < 2 ^ 32) (cut : List Nat) (hc : cut.length < 8) :
    newMrw ([0, 0x4D, 0x52, 0x4D] ++ w32 total ++ cut) = panic' := by
  have h4 : ([0, 0x4D, 0x52, 0x4D] ++ w32 total ++ cut).drop 4 = w32 total ++ cut := by simp
  have h8 : ([0, 0x4D, 0x52, 0x4D] ++ w32 total ++ cut).length = 8 + cut.length := by simp [w32]; omega
  rw [newMrw, beU32_at h4]
  simp only [Verif.Orf.ok_bind]
  rw [assert', if_pos (by simpa using h2), Verif.Orf.ok_bind, blocks, if_pos (by show 8 + 20 < total + 8; omega), block]
  have : ∀ p : Nat, ([0, 0x4D, 0x52, 0x4D] ++ w32 total ++ cut).length < p + 4 →
      beU32 ([0, 0x4D, 0x52, 0x4D] ++ w32 total ++ cut) p = panic' := by
    intro p hp
    rw [beU32, slice, if_neg (by omega)]
    rfl
  cases h1 : beU32 ([0, 0x4D, 0x52, 0x4D] ++ w32 total ++ cut) 8 with
  | error e =>
    rw [beU32, slice] at h1
    split at h1
    · have hl : ((([0, 0x4D, 0x52, 0x4D] ++ w32 total ++ cut).drop 8).take (8 + 4 - 8)).length = 4 := by
        rw [List.length_take, List.length_drop]; omega
      rw [Verif.Orf.ok_bind] at h1
      match hm : (([0, 0x4D, 0x52, 0x4D] ++ w32 total ++ cut).drop 8).take (8 + 4 - 8), hl with
      | [x, y, z, w], _ => rw [hm] at h1; cases h1
    · cases h1; rfl
  | ok v =>
    rw [Verif.Orf.ok_bind, this (8 + 4) (by omega)]
    rfl

/-! ## Concrete cases -/

/-- A file with size, white balance, TIFF data and an unknown block, the picture packed: 2 x 1 samples. -/
def mrwExample : List Block :=
  [⟨PRD, [50, 49, 56, 56, 0, 0, 0, 0, 0, 1, 0, 2, 0, 1, 0, 2, 12, 12, 0x59, 1, 0, 0, 0, 0]⟩, ⟨TTW, [0x4D, 0x4D, 0, 42, 0, 0, 0, 8, 0, 0, 0, 0, 0, 0]⟩,
   ⟨WBG, [2, 2, 2, 2, 1, 200, 1, 0, 1, 0, 2, 7]⟩, ⟨0x504144, [0, 0, 0, 0]⟩]

example : Good mrwExample ∧ (bytes mrwExample).length + 8 < 2 ^ 32 ∧ (lastOf PRD mrwExample).isSome ∧ (lastOf WBG mrwExample).isSome ∧
    lastAt TTW 8 mrwExample = some 48 := by
  refine ⟨?_, by decide, by decide, by decide, by decide⟩
  simp only [mrwExample, Good, Block.Ok]
  decide

example : newMrw (file mrwExample [0x12, 0x34, 0x56]) =
    .ok { dataOffset := 94, rawHeight := 1, rawWidth := 2, packed := true, wb := [456, 256, 256, 519], tiffpos := 48 } := by decide +kernel

example : rawImage (file mrwExample [0x12, 0x34, 0x56])
    { dataOffset := 94, rawHeight := 1, rawWidth := 2, packed := true, wb := [456, 256, 256, 519], tiffpos := 48 } = .ok [0x123, 0x456] := by
  decide +kernel

example : mlyWb [0, 7, 1, 44, 1, 94, 1, 0, 1, 0, 0, 9] 12 = [300, 256, 256, 350] ∧ Quad (words [0, 7, 1, 44, 1, 94, 1, 0, 1, 0, 0, 9] 12) 1 300 350 := by
  unfold Quad
  decide

end Verif.Props
