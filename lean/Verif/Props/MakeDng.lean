import Verif.Proofs.MakeDng
/-! # C81: `makedng` builds the file from the inputs the user named -/

namespace Verif.Props
open Verif Verif.Path Verif.Cli Verif.MakeDng Verif.Spec.MakeDng

/-! ## The command line -/

/-- A map is accepted exactly if it is a number, a colon and the name of a usage, with spaces around each of them if one likes; and it means just that. -/
theorem C81_map (s : List Char) (n : Nat) (u : Usage) :
    parseMap s = some (n, u) ↔ ∃ a b, s = a ++ ':' :: b ∧ Numeral a n ∧ n < 2 ^ 64 ∧ Named b u := by
  unfold parseMap
  constructor
  · intro h
    rcases splitAt_cases ':' s with ⟨_, e⟩ | ⟨a, t, e, ha, e2⟩
    · rw [e] at h; cases h
    rcases splitAt_cases ':' t with ⟨_, e3⟩ | ⟨b, t2, e3, _, e4⟩
    · rw [e2, e3] at h
      simp only [List.map_cons, List.map_nil] at h
      cases h1 : parseNum (2 ^ 64) (trim a) with
      | none => rw [h1] at h; cases h
      | some n1 =>
        cases h2 : parseUsage (trim t) with
        | none => rw [h1, h2] at h; cases h
        | some u1 =>
          rw [h1, h2] at h
          cases h
          obtain ⟨h3, h4⟩ := (parseNum_trim _ _ _).mp h1
          exact ⟨a, t, e, h3, h4, (parseUsage_trim _ _).mp h2⟩
    · rw [e2, e4] at h
      cases hs : splitAt ':' t2 with
      | nil => exact absurd hs (splitAt_ne_nil _ _)
      | cons q qs => rw [hs] at h; cases h
  · rintro ⟨a, b, e, h1, h2, h3⟩
    have ha : ':' ∉ a := numeral_free ':' (by decide) (by decide) (by decide) h1
    rw [e, splitAt_append ':' a b ha, splitAt_free ':' b (named_free h3)]
    simp only [List.map_cons, List.map_nil]
    rw [(parseNum_trim _ _ _).mpr ⟨h1, h2⟩, (parseUsage_trim _ _).mpr h3]

example : parseMap " 1 :exif".toList = some (1, .exif) := by decide
example : parseMap "1:exif:raw".toList = none := by decide
example : Numeral " +12 ".toList 12 := ⟨[' '], ['+'], ['1', '2'], [' '], rfl, by unfold Blank; decide, by unfold Blank; decide, .inr rfl, ⟨by simp, by decide⟩, by decide⟩

/-- A table of numbers is accepted exactly if it is a list of numbers below 65536 with commas between them, and it means these numbers in this order. -/
theorem C81_table (s : List Char) (l : List Nat) :
    parseTable s = some l ↔ ∃ parts, parts ≠ [] ∧ s = [','].intercalate parts ∧ List.Forall₂ (fun p n => Numeral p n ∧ n < 65536) parts l := by
  unfold parseTable
  rw [mapM_some_iff, List.forall₂_map_left_iff]
  simp only [parseNum_trim]
  constructor
  · intro h
    exact ⟨splitAt ',' s, splitAt_ne_nil _ _, (join_splitAt ',' s.length s (Nat.le_refl _)).symm, h⟩
  · rintro ⟨parts, hp, e, h⟩
    have hfree : ∀ p ∈ parts, ',' ∉ p := by
      clear e hp
      induction h with
      | nil => intro p hp; cases hp
      | cons h1 _ ih =>
        intro p hp
        cases hp with
        | head => exact numeral_free ',' (by decide) (by decide) (by decide) h1.1
        | tail _ hp => exact ih p hp
    rw [e, splitAt_join ',' parts hp hfree]
    exact h

example : parseTable "0, 17,65535".toList = some [0, 17, 65535] := by decide
example : parseTable "0,,1".toList = none := by decide
example : parseTable "65536".toList = none := by decide

/-- The input for a usage is the one that the first map with this usage names. -/
theorem C81_source (inputs : List Path) (maps : List (Nat × Usage)) (u : Usage) (p : Path) : getInput inputs maps u = some p ↔ Source inputs maps u p :=
  getInput_iff inputs maps u p

/-- There is at most one. -/
theorem C81_one_source (inputs : List Path) (maps : List (Nat × Usage)) (u : Usage) (p q : Path) (h1 : Source inputs maps u p) (h2 : Source inputs maps u q) :
    p = q := source_unique h1 h2

/-! ## The file -/

/-- Only the output is touched, whatever happens. -/
theorem C81_output_only (c : Cmd) (w : World) (make) (fs : Fs) (hf : Fresh fs) (p : Path) (h : ¬ SameFile fs p c.output) :
    (run c w make fs).2.content p = fs.content p := by
  have hb := body_other (c := c) (w := w) (make := make) hf h
  have hne : p ≠ c.output := fun e => h (.inl e)
  unfold run
  split
  · rename_i f e
    rw [e] at hb
    exact hb
  · rename_i f e
    rw [e] at hb
    simp only []
    split
    · rw [unlink_other hne]; exact hb
    · exact hb

/-- After an error there is no output, provided that it can be removed. -/
theorem C81_no_rest (c : Cmd) (w : World) (make) (fs : Fs) (hu : w.unlinks = true) (h : (run c w make fs).1 = false) : (run c w make fs).2.dir c.output = none := by
  unfold run at h ⊢
  split
  · rename_i f e
    rw [e] at h
    cases h
  · simp only []
    rw [if_pos hu]
    simp [Fs.unlink, Fs.setDir]

/-- When it works: there is an input for every map, the output is new or may be replaced and can be created, the inputs that are used exist and the DNG file can be
made from them. -/
theorem C81_works (c : Cmd) (w : World) (make) (fs : Fs) (hf : Fresh fs) (ha : ∀ u p, Source c.inputs c.maps u p → ¬ SameFile fs p c.output)
    (parts : Usage → Option (List Nat)) (hp : Parts fs c.inputs c.maps parts) :
    (run c w make fs).1 = true ↔
      c.inputs ≠ [] ∧ (∀ m ∈ c.maps, m.1 < c.inputs.length) ∧ (fs.dir c.output = none ∨ c.replace = true) ∧ w.creates = true ∧
        (∀ u p, Source c.inputs c.maps u p → fs.content p ≠ none) ∧ ∃ full, make parts = .ok full := by
  have hrun : (run c w make fs).1 = (body c w make fs).1 := by
    unfold run
    split <;> (rename_i e; rw [e])
  rw [hrun]
  unfold body
  split
  · rename_i h
    rw [maxSource_ge] at h
    constructor
    · intro h; cases h
    · rintro ⟨h1, h2, _⟩
      rcases h with h | ⟨m, hm, h⟩
      · exact absurd (List.length_eq_zero_iff.mp h) h1
      · have := h2 m hm
        omega
  · rename_i h
    rw [maxSource_ge, not_or] at h
    have h1 : c.inputs ≠ [] := fun e => h.1 (by rw [e]; rfl)
    have h2 : ∀ m ∈ c.maps, m.1 < c.inputs.length := fun m hm => by
      rcases Nat.lt_or_ge m.1 c.inputs.length with hl | hl
      · exact hl
      · exact absurd ⟨m, hm, hl⟩ h.2
    split
    · rename_i h3
      constructor
      · intro h; cases h
      · rintro ⟨_, _, h4 | h4, _⟩
        · exact absurd h4 h3.1
        · rw [h3.2] at h4; cases h4
    · rename_i h3
      have h3' : fs.dir c.output = none ∨ c.replace = true := by
        cases hr : c.replace with
        | true => exact .inr rfl
        | false =>
          left
          cases hd : fs.dir c.output with
          | none => rfl
          | some i => exact absurd ⟨by rw [hd]; simp, hr⟩ h3
      split
      · rename_i h4
        constructor
        · intro h; cases h
        · rintro ⟨_, _, _, h5, _⟩
          rw [h4] at h5
          cases h5
      · rename_i h4
        have h4' : w.creates = true := by
          cases hc : w.creates with
          | true => rfl
          | false => exact absurd hc h4
        simp only []
        rw [parts_eq hf ha hp]
        split
        · rename_i h5
          constructor
          · intro h; cases h
          · rintro ⟨_, _, _, _, h6, _⟩
            rw [(inputsThere_iff hf ha).mpr h6] at h5
            cases h5
        · rename_i h5
          have h5' := (inputsThere_iff hf ha).mp (by
            cases hi : inputsThere (openTrunc fs c.output).2 c with
            | true => rfl
            | false => exact absurd hi h5)
          split
          · rename_i e
            constructor
            · intro h; cases h
            · rintro ⟨_, _, _, _, _, full, h⟩
              rw [h] at e
              cases e
          · rename_i full e
            exact ⟨fun _ => ⟨h1, h2, h3', h4', h5', full, e⟩, fun _ => rfl⟩

/-- What is in the output then: the DNG file made from the contents of the inputs named, if all of it reaches the file. -/
theorem C81_written (c : Cmd) (w : World) (make) (fs : Fs) (hf : Fresh fs) (ha : ∀ u p, Source c.inputs c.maps u p → ¬ SameFile fs p c.output)
    (parts : Usage → Option (List Nat)) (hp : Parts fs c.inputs c.maps parts) (hw : w.flushes = true) (h : (run c w make fs).1 = true) (full : List Nat)
    (hm : make parts = .ok full) : (run c w make fs).2.content c.output = some full := by
  have hrun : (body c w make fs).1 = true ∧ (run c w make fs).2 = (body c w make fs).2 := by
    unfold run at h ⊢
    split
    · rename_i e; rw [e]; exact ⟨rfl, rfl⟩
    · rename_i e; rw [e] at h; cases h
  rw [hrun.2]
  have hb := hrun.1
  unfold body at hb ⊢
  split
  · rename_i h; rw [if_pos h] at hb; cases hb
  rename_i h1
  rw [if_neg h1] at hb
  split
  · rename_i h; rw [if_pos h] at hb; cases hb
  rename_i h2
  rw [if_neg h2] at hb
  split
  · rename_i h; rw [if_pos h] at hb; cases hb
  rename_i h3
  rw [if_neg h3] at hb
  simp only [] at hb ⊢
  split
  · rename_i h; rw [if_pos h] at hb; cases hb
  rw [parts_eq hf ha hp, hm]
  simp only [hw, if_true]
  exact write_content fs c.output full

/-! ## Examples -/

/-- The path of a file in the current directory. -/
def C81_file (s : String) : Path := [.normal s.toList]

/-- Two files: a raw file and a picture. -/
def C81_fs : Fs :=
  { dir := fun p => if p = C81_file "a.cr2" then some 0 else if p = C81_file "b.jpg" then some 1 else none
    data := fun i => if i = 0 then [1, 2] else if i = 1 then [3] else []
    next := 2 }

/-- Stands for the making of the file: what the raw image, then what the preview image contains. -/
def C81_make (parts : Usage → Option (List Nat)) : Except (List Nat) (List Nat) :=
  match parts .raw with
  | some (x :: l) => .ok (x :: l ++ (parts .preview).getD [])
  | _ => .error [9]

/-- A world in which everything works. -/
def C81_fine : World := { creates := true, flushes := true, part := [], unlinks := true }

def C81_cmd : Cmd :=
  { output := C81_file "x.dng", inputs := [C81_file "a.cr2", C81_file "b.jpg"], maps := [(0, .raw), (1, .preview), (0, .exif), (0, .preview)], replace := false }

theorem C81_fs_fresh : Fresh C81_fs := by
  intro p i h
  simp only [C81_fs] at h ⊢
  split at h
  · cases h; decide
  split at h
  · cases h; decide
  · cases h

theorem C81_cmd_apart : ∀ u p, Source C81_cmd.inputs C81_cmd.maps u p → ¬ SameFile C81_fs p C81_cmd.output := by
  rintro u p ⟨_, n, _, _, _, h⟩
  have hm : p ∈ C81_cmd.inputs := List.mem_of_getElem? h
  have : p = C81_file "a.cr2" ∨ p = C81_file "b.jpg" := by
    simp only [C81_cmd, List.mem_cons, List.not_mem_nil, or_false] at hm
    exact hm
  rintro (e | ⟨i, _, h2⟩)
  · rcases this with h | h <;> (rw [h] at e; exact absurd e (by decide))
  · exact absurd h2 (by
      have : C81_fs.dir C81_cmd.output = none := by decide
      rw [this]; simp)

example : (run C81_cmd C81_fine C81_make C81_fs).1 = true ∧ (run C81_cmd C81_fine C81_make C81_fs).2.content (C81_file "x.dng") = some [1, 2, 3] := by decide

example : ∃ parts, Parts C81_fs C81_cmd.inputs C81_cmd.maps parts :=
  ⟨_, fun u => ⟨fun p h => by
      have := (getInput_iff _ _ _ _).mpr h
      show (getInput C81_cmd.inputs C81_cmd.maps u).bind C81_fs.content = _
      rw [this]; rfl, fun h => by
      cases hg : getInput C81_cmd.inputs C81_cmd.maps u with
      | none => rfl
      | some p => exact absurd ((getInput_iff _ _ _ _).mp hg) (h p)⟩⟩

example : Source C81_cmd.inputs C81_cmd.maps .preview (C81_file "b.jpg") := ⟨[(0, .raw)], 1, _, rfl, by decide, rfl⟩

/-! ## What goes wrong -/

/-- An output that is there already and must not be replaced is not left alone: the error is reported and the file is removed. -/
theorem C81_existing_removed (c : Cmd) (w : World) (make) (fs : Fs) (hu : w.unlinks = true) (he : fs.dir c.output ≠ none) (hr : c.replace = false) :
    (run c w make fs).1 = false ∧ (run c w make fs).2.dir c.output = none := by
  have h : (run c w make fs).1 = false := by
    unfold run body
    split
    · rename_i e
      split at e
      · cases e
      · rw [if_pos ⟨he, hr⟩] at e
        cases e
    · rfl
  exact ⟨h, C81_no_rest c w make fs hu h⟩

example : (run { C81_cmd with output := C81_file "b.jpg" } C81_fine C81_make C81_fs).2.content (C81_file "b.jpg") = none := by decide

/-- So is one for which a map names an input that was not given, even if it may be replaced. -/
theorem C81_bad_map_removed (c : Cmd) (w : World) (make) (fs : Fs) (hu : w.unlinks = true) (hm : ∃ m ∈ c.maps, m.1 ≥ c.inputs.length) :
    (run c w make fs).1 = false ∧ (run c w make fs).2.dir c.output = none := by
  have h : (run c w make fs).1 = false := by
    unfold run body
    rw [if_pos ((maxSource_ge _ _).mpr (.inr hm))]
  exact ⟨h, C81_no_rest c w make fs hu h⟩

/-- An input that is the output as well, and may be replaced, is emptied before it is read. -/
theorem C81_input_emptied (c : Cmd) (w : World) (fs : Fs) (u : Usage) (hs : Source c.inputs c.maps u c.output)
    (hr : c.replace = true) (hc : w.creates = true)
    (make) (hmake : ∀ parts : Usage → Option (List Nat), parts u = some [] → ∃ e, make parts = .error e) (hu : w.unlinks = true) :
    (run c w make fs).1 = false ∧ (run c w make fs).2.dir c.output = none := by
  have hg := (getInput_iff _ _ _ _).mpr hs
  have h : (run c w make fs).1 = false := by
    obtain ⟨e, he⟩ := hmake (fun u => (getInput c.inputs c.maps u).bind (openTrunc fs c.output).2.content) (by
      show (getInput c.inputs c.maps u).bind _ = _
      rw [hg, Option.bind_some, openTrunc_same])
    unfold run body
    split
    · rename_i f hb
      split at hb
      · cases hb
      rw [if_neg (by rw [hr]; simp), if_neg (by rw [hc]; simp)] at hb
      simp only [] at hb
      rw [he] at hb
      split at hb <;> cases hb
    · rfl
  exact ⟨h, C81_no_rest c w make fs hu h⟩

example : (run { C81_cmd with output := C81_file "a.cr2", replace := true } C81_fine C81_make C81_fs).2.content (C81_file "a.cr2") = none := by decide

/-- If the last bytes do not reach the file, success is reported all the same. -/
theorem C81_unflushed : (run C81_cmd { C81_fine with flushes := false, part := [1] } C81_make C81_fs).1 = true ∧
    (run C81_cmd { C81_fine with flushes := false, part := [1] } C81_make C81_fs).2.content (C81_file "x.dng") = some [1] := by decide

/-! ## Tags -/

variable {V : Type}

/-- Which value every tag gets. A user's matrix replaces that of the raw image together with its light; a white point given as neutral values is replaced by one given as
coordinates, and each of them replaces that of the raw image. -/
theorem C81_tags (o : Opts V) (raw : RawTags V) (md : MetaTags V) (xp : Option V) (f : Tag → Option V) (h : rootTags o raw md xp = some f) :
    f .make = o.make ∧ f .model = o.model ∧ f .uniqueModel = o.uniqueModel ∧ f .colorRef = o.colorRef ∧ f .xpacket = xp ∧
    f .orientation = md.orientation ∧ f .copyright = md.copyright ∧
    f .matrix1 = o.matrix1.or (raw.first.map (·.1)) ∧ f .illu1 = (if o.matrix1.isSome then o.illu1 else raw.first.map (·.2)) ∧
    f .matrix2 = o.matrix2.or (if raw.first.isSome then raw.second.map (·.1) else none) ∧
    f .illu2 = (if o.matrix2.isSome then o.illu2 else if raw.first.isSome then raw.second.map (·.2) else none) ∧
    f .whiteXY = o.whiteXY ∧ f .neutral = (if o.whiteXY.isSome then none else o.neutral.or raw.neutral) := by
  obtain ⟨m1, m2, m3, h1, h2, h3, rfl⟩ := rootTags_some h
  simp only [rootTags_at, after_wb, after_m3 h3, after_matrixOps (by decide : Tag.matrix2 ≠ Tag.illu2) h2, after_matrixOps (by decide : Tag.matrix1 ≠ Tag.illu1) h1,
    after_data, after_pic, after_start]
  simp

/-- There is no file exactly if a matrix was given without its light. -/
theorem C81_light_needed (o : Opts V) (raw : RawTags V) (md : MetaTags V) (xp : Option V) :
    rootTags o raw md xp = none ↔ (o.matrix1.isSome ∧ o.illu1 = none) ∨ (o.matrix2.isSome ∧ o.illu2 = none) ∨ (o.version16 = true ∧ o.matrix3.isSome ∧ o.illu3 = none) := by
  rw [rootTags_none, matrixOps_none, matrixOps_none]
  cases o.version16 with
  | true => simp [matrixOps_none]
  | false => simp

/-- The third matrix is written if the file need not be readable by old programs... -/
theorem C81_matrix3 (o : Opts V) (raw : RawTags V) (md : MetaTags V) (xp : Option V) (f : Tag → Option V) (h : rootTags o raw md xp = some f)
    (hv : o.version16 = true) : f .matrix3 = o.matrix3 ∧ f .illu3 = (if o.matrix3.isSome then o.illu3 else none) := by
  obtain ⟨m1, m2, m3, h1, h2, h3, rfl⟩ := rootTags_some h
  simp only [rootTags_at, after_wb, after_m3 h3, after_matrixOps (by decide : Tag.matrix2 ≠ Tag.illu2) h2, after_matrixOps (by decide : Tag.matrix1 ≠ Tag.illu1) h1,
    after_data, after_pic, after_start]
  simp [hv]

/-- ... and otherwise silently dropped. -/
theorem C81_matrix3_dropped (o : Opts V) (raw : RawTags V) (md : MetaTags V) (xp : Option V) (f : Tag → Option V) (h : rootTags o raw md xp = some f)
    (hv : o.version16 = false) : f .matrix3 = none ∧ f .illu3 = none := by
  obtain ⟨m1, m2, m3, h1, h2, h3, rfl⟩ := rootTags_some h
  simp only [rootTags_at, after_wb, after_m3 h3, after_matrixOps (by decide : Tag.matrix2 ≠ Tag.illu2) h2, after_matrixOps (by decide : Tag.matrix1 ≠ Tag.illu1) h1,
    after_data, after_pic, after_start]
  simp [hv]

/-- The artist is the one the metadata of an input name; that of the command line counts only if there is none. -/
theorem C81_artist (o : Opts V) (raw : RawTags V) (md : MetaTags V) (xp : Option V) (f : Tag → Option V) (h : rootTags o raw md xp = some f) :
    f .artist = md.artist.or o.artist := by
  obtain ⟨m1, m2, m3, h1, h2, h3, rfl⟩ := rootTags_some h
  simp only [rootTags_at, after_wb, after_m3 h3, after_matrixOps (by decide : Tag.matrix2 ≠ Tag.illu2) h2, after_matrixOps (by decide : Tag.matrix1 ≠ Tag.illu1) h1,
    after_data, after_pic, after_start]
  simp

/-- So what the user asked for can get lost. -/
theorem C81_artist_lost : ∃ f, rootTags ({ artist := some 1 } : Opts Nat) {} { artist := some 2 } none = some f ∧ f .artist = some 2 := ⟨_, rfl, rfl⟩

example : ∃ f, rootTags ({ matrix1 := some 1, illu1 := some 2, whiteXY := some 3, make := some 4 } : Opts Nat) { neutral := some 5, first := some (6, 7), second := some (8, 9) }
    { orientation := some 10 } (some 11) = some f ∧ f .matrix1 = some 1 ∧ f .illu1 = some 2 ∧ f .matrix2 = some 8 ∧ f .neutral = none ∧ f .whiteXY = some 3 :=
  ⟨_, rfl, rfl, rfl, rfl, rfl, rfl⟩

end Verif.Props
