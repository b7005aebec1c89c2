import Verif.Proofs.TiffFile
/-! # C52: files of either byte order are read as the format says -/

namespace Verif.Props
open Verif Verif.Spec Verif.Tiff

/-- **C52.** A file of either byte order in which a chain of directories stands (with sub-directories, values inside and outside the entries,
pointers shifted by a correction, some entries and sub-directory offsets broken) is read as exactly these directories, entries and values.
`fuel` is a number of rounds that suffices; the reader needs no more rounds than there are directories. Files are shorter than 4 GiB and have their
sub-directory offsets in LONG values (see `C52_ifd_type_lost` for the IFD type). -/
theorem C52_reads_file_partial (utf8 : List Nat → Bool) (F : List Nat) (hF : F.length < 2 ^ 32) (e : Endian) (corr : Int) (subTags : List Nat)
    (ds : List FileIfd) (h : FileAt utf8 F e corr subTags ds) (max : Option Nat) (hmax : ∀ m, max = some m → ds.length ≤ m) (fuel : Nat)
    (hfuel : ds.length ≤ fuel) :
    parseFile utf8 F corr max subTags fuel = some (.ok (ds.map fun d => d.ifd corr)) := by
  obtain ⟨hmark, ⟨m, hm, hmagic⟩, o, ho0, ho, hat, hne, hch⟩ := h
  have hgo : parseFile.go utf8 F corr max subTags fuel e = some (.ok (ds.map fun d => d.ifd corr)) := by
    rw [parseFile.go, At.rd hmagic (bytesOf_length _ _ _).symm, At.rd hat (bytesOf_length _ _ _).symm]
    simp only []
    have hm' : m < 2 ^ 16 ∧ (m = 42 ∨ m = 85 ∨ m = 21330 ∨ m = 20306) := by
      simp only [List.mem_cons, List.not_mem_nil, or_false] at hm
      omega
    rw [num_bytesOf e 2 m (by simpa using hm'.1), num_bytesOf e 4 o (by simpa using ho), if_neg (by omega), if_neg ho0,
      show applyCorr o corr = shifted o corr from rfl, file_chain subTags hF max ds _ fuel [] hch (by simpa using hmax) hfuel]
    cases ds with
    | nil => exact absurd rfl hne
    | cons d ds => rfl
  rw [parseFile]
  cases e with
  | little => rw [At.rd (b := [0x49, 0x49]) (n := 2) hmark rfl]; exact hgo
  | big => rw [At.rd (b := [0x4d, 0x4d]) (n := 2) hmark rfl]; exact hgo

/-- One directory at any base: its entries, the pointer behind it and, for the tags asked for, the offsets of sub-directories. -/
theorem C52_reads_directory (utf8 : List Nat → Bool) (F : List Nat) (hF : F.length < 2 ^ 32) (e : Endian) (base : Nat) (corr : Int) (subTags : List Nat)
    (d : FileIfd) (h : IfdAt utf8 F e base corr subTags d) : readIfd utf8 F e base corr subTags d.main.off = .ok (d.ifd corr) :=
  file_ifd subTags hF d h

/-- A Motorola file with a sub-directory, a broken entry and one sub-directory offset outside the file -/
def motorolaFile : List Nat :=
  [0x4d, 0x4d, 0, 42, 0, 0, 0, 8,
   0, 4, 1, 0, 0, 3, 0, 0, 0, 2, 0x17, 0x70, 0, 9, 1, 0x0f, 0, 2, 0, 0, 0, 6, 0, 0, 0, 62, 1, 0x10, 0, 2, 0, 0, 0, 9, 0, 0, 1, 0,
   1, 0x4a, 0, 4, 0, 0, 0, 2, 0, 0, 0, 68, 0, 0, 0, 0,
   67, 97, 110, 111, 110, 0, 0, 0, 0, 76, 0, 0, 1, 0,
   0, 1, 1, 0x1a, 0, 5, 0, 0, 0, 1, 0, 0, 0, 94, 0, 0, 0, 0, 0, 0, 0, 1, 0, 0, 0, 2]

def motorolaSub : FileDir := { off := 76, entries := [some (0x11a, .rational [(1, 2)], 94)], next := 0 }
def motorolaMain : FileDir :=
  { off := 8, entries := [some (0x100, .short [6000, 9], 18), some (0x10f, .ascii { strings := [[67, 97, 110, 111, 110]], plain := [67, 97, 110, 111, 110, 0] }, 62), none,
      some (0x14a, .long [76, 256], 68)], next := 0 }
def motorola : FileIfd := { main := motorolaMain, subs := [(0x14a, [some motorolaSub, none])] }

example : FileAt (fun _ => true) motorolaFile .big 0 [0x14a] [motorola] := by
  have hsub : DirAt (fun _ => true) motorolaFile .big 0 0 motorolaSub := by
    refine ⟨by decide, by decide, by decide, ?_, ?_, by decide, by simp [Ascending, motorolaSub, kept]⟩
    · intro i x hx
      match i with
      | 0 =>
        cases hx
        exact ⟨by decide, by simp [Readable], by decide, by decide, by decide, by decide, by
          rw [if_neg (by decide)]; exact ⟨94, by decide, by decide, by decide⟩⟩
      | i + 1 => simp [motorolaSub] at hx
    · intro i hx
      match i with
      | 0 => cases hx
      | i + 1 => simp [motorolaSub] at hx
  refine ⟨by decide, ⟨42, by decide, by decide⟩, 8, by decide, by decide, by decide, by decide, by decide, by decide, ⟨⟨by decide, by decide, by decide, ?_, ?_, by decide,
    by simp [Ascending, motorola, motorolaMain, kept]⟩, ?_⟩, by decide, rfl⟩
  · intro i x hx
    match i with
    | 0 => cases hx; exact ⟨by decide, by simp [Readable], by decide, by decide, by decide, by decide, by rw [if_pos (by decide)]; decide⟩
    | 1 =>
      cases hx
      exact ⟨by decide, by simp [Readable], by decide, by decide, by decide, by decide, by
        rw [if_neg (by decide)]; exact ⟨62, by decide, by decide, by decide⟩⟩
    | 2 => cases hx
    | 3 =>
      cases hx
      exact ⟨by decide, by simp [Readable], by decide, by decide, by decide, by decide, by
        rw [if_neg (by decide)]; exact ⟨68, by decide, by decide, by decide⟩⟩
    | i + 4 => simp [motorola, motorolaMain] at hx
  · intro i hx
    match i with
    | 0 | 1 | 3 => cases hx
    | 2 => exact ⟨0x110, 2, 9, 256, by decide, by decide, by decide, by decide, by decide, by decide, by decide, by decide⟩
    | i + 4 => simp [motorola, motorolaMain] at hx
  · refine List.Forall₂.cons ⟨rfl, [76, 256], rfl, ?_⟩ List.Forall₂.nil
    exact List.Forall₂.cons ⟨by decide, hsub⟩ (List.Forall₂.cons ⟨by decide, by decide⟩ List.Forall₂.nil)

/-- A sub-directory whose offset has the type IFD (13), which TIFF allows, is lost: the reader takes the first byte of the offset for the offset and
files the result under the type instead of the tag. -/
theorem C52_ifd_type_lost : ∃ F : List Nat, F.length = 44 ∧ At F 0 [0x49, 0x49, 42, 0, 8, 0, 0, 0, 1, 0, 0x4a, 1, 13, 0, 4, 0, 0, 0, 26, 0, 0, 0] ∧
    DirAt (fun _ => true) F .little 0 0 { off := 26, entries := [some (256, .short [7], 36)], next := 0 } ∧
    parseFile (fun _ => true) F 0 (some 1) [330] 1 =
      some (.ok [({ offset := 8, next := 0, entries := [(330, .unknown 13 [26, 0, 0, 0], 18)] }, [(13, [{ offset := 26, next := 0, entries := [(256, .short [7], 36)] }])])]) := by
  refine ⟨[0x49, 0x49, 42, 0, 8, 0, 0, 0, 1, 0, 0x4a, 1, 13, 0, 4, 0, 0, 0, 26, 0, 0, 0, 0, 0, 0, 0,
    1, 0, 0, 1, 3, 0, 1, 0, 0, 0, 7, 0, 0, 0, 0, 0, 0, 0], rfl, by decide, ⟨by decide, by decide, by decide, ?_, ?_, by decide, by simp [Ascending, kept]⟩, by decide +kernel⟩
  · intro i x hx
    match i with
    | 0 => cases hx; exact ⟨by decide, by simp [Readable], by decide, by decide, by decide, by decide, by rw [if_pos (by decide)]; decide⟩
    | i + 1 => simp at hx
  · intro i hx
    match i with
    | 0 => cases hx
    | i + 1 => simp at hx

end Verif.Props
