import Verif.Proofs.ExifRoot
/-! # C75: EXIF and GPS metadata arrive in the DNG -/

namespace Verif.Props
open Verif Verif.Tiff Verif.Spec Verif.Spec.Exif
open Verif.Exif (metadata convert exifOps gpsOps rootOps loadMetadata Job Lens)

/-- C75. The EXIF directory of the DNG holds exactly: its version, every tag of `exifTable` with the value it has in the EXIF directory of the raw file
or else in its main directory, and the lens the decoder has found. -/
theorem C75_exif_directory (trim : List Nat → List Nat) (s : Source) (hs : s.Valid) (lens : Option Lens) :
    mapOf (exifOps (metadata trim s.main s.exif s.gps lens)) = s.exifDir trim lens := Verif.Exif.exifOps_map trim s hs lens

/-- C75. The GPS directory holds exactly the tags of `gpsTable` that the GPS directory of the raw file holds. -/
theorem C75_gps_directory (trim : List Nat → List Nat) (s : Source) (hs : s.Valid) (lens : Option Lens) :
    mapOf (gpsOps (metadata trim s.main s.exif s.gps lens)) = s.gpsDir := Verif.Exif.gpsOps_map trim s hs lens

/-- The value of a tag in a directory that was read -/
def valueOf (d : Dir) (t : Nat) : Option Value := (find d.entries t).map fun x => content x.1

/-- Beyond the EXIF and the GPS directory, what the main directory holds: orientation, copyright and artist of the raw file, the artist of the
user before that of the file, the time of conversion, and the lens. A file without orientation gets that of the image. -/
def MainOk (trim : List Nat → List Nat) (s : Source) (lens : Option Lens) (j : Job) (d : Dir) : Prop :=
  (∀ t κ, (t, κ) ∈ mainTable → t ≠ 0x0132 → (t = 0x013b → j.artist = none) → ∀ v, s.value trim t κ = some v → valueOf d t = some (content v)) ∧
  (∀ a, j.artist = some a → valueOf d 0x013b = some (.ascii { strings := [a] })) ∧
  valueOf d 0x0132 = some (.ascii { strings := [j.now] }) ∧
  (∀ l, lens = some l → valueOf d 0xc630 = some (.rational [l.focal0, l.focal1, l.aperture0, l.aperture1])) ∧
  (s.value trim 0x0112 .short = none → mapOf j.before 0x0112 = none → valueOf d 0x0112 = some (.short [j.orientation]))

/-- The directory that the tag of the main directory points to -/
def PointsTo (utf8 : List Nat → Bool) (F : List Nat) (d : Dir) (t : Nat) (m : Nat → Option Value) : Prop :=
  ∃ off e subs, valueOf d t = some (.long [off]) ∧ readDir utf8 F .little 0 0 [] off = .ok (e, subs) ∧ IsMap e m

/-- C75. The conversion writes a file which a reader finds to hold the metadata. -/
theorem C75_metadata_partial (utf8 : List Nat → Bool) (trim : List Nat → List Nat) (ht : TrimOk utf8 trim) (s : Source) (hv : s.Valid)
    (hs : s.Writable utf8) (lens : Option Lens) (hl : ∀ l, lens = some l → LensOk utf8 l) (j : Job) (hj : JobOk utf8 j) :
    ∃ F, convert (metadata trim s.main s.exif s.gps lens) j = .ok F ∧ (F.length < 2 ^ 32 → ∀ max fuel, ∃ d,
      parseFile utf8 F 0 max [] (fuel + 1) = some (.ok [(d, [])]) ∧ PointsTo utf8 F d 0x8769 (s.exifDir trim lens) ∧
      ((∃ t, s.gpsDir t ≠ none) → PointsTo utf8 F d 0x8825 s.gpsDir) ∧ MainOk trim s lens j d) := by
  generalize he : metadata trim s.main s.exif s.gps lens = e
  have hex : mapOf (exifOps e) = s.exifDir trim lens := by rw [← he]; exact C75_exif_directory trim s hv lens
  have hgp : mapOf (gpsOps e) = s.gpsDir := by rw [← he]; exact C75_gps_directory trim s hv lens
  -- the directories can be written
  have w1 : WritableDir utf8 (exifOps e) := by
    refine Verif.Exif.writable_of utf8 _ 0x9000 (by rw [hex]; simp [Source.exifDir]) ?_ ?_
    · have := Verif.Exif.fields_length (Verif.Exif.exifTags e)
      have h40 : (Verif.Exif.exifTags e).length = 40 := rfl
      simp only [exifOps, List.flatMap_cons, List.flatMap_append, List.length_append, given, List.flatMap_nil, List.length_cons, List.length_nil]
      omega
    · intro x hx
      simp only [exifOps, List.flatMap_cons, List.flatMap_append, List.mem_append, given, List.flatMap_nil, List.mem_singleton, List.append_nil,
        List.not_mem_nil, or_false] at hx
      rcases hx with rfl | hx
      · refine ⟨by show (0x9000 : Nat) < 2 ^ 16; decide, ?_, by show 0 < 4; decide, by show 4 < 2 ^ 32; decide⟩
        intro y hy
        simp only [List.mem_cons, List.not_mem_nil, or_false] at hy
        rcases hy with rfl | rfl | rfl | rfl <;> decide
      · rw [← he, Verif.Exif.metadata_exif trim s hv lens] at hx
        refine Verif.Exif.fields_entries utf8 _ (by decide) _ (fun t r h => Verif.Exif.wantExif_good utf8 trim ht s hs lens hl t r h) x hx
  have w2 : entriesOf (gpsOps e) ≠ [] → WritableDir utf8 (gpsOps e) := by
    intro hne
    refine ⟨hne, ?_, ?_⟩
    · have h1 := Verif.Exif.foldl_length (gpsOps e) []
      have h2 := Verif.Exif.fields_length (Verif.Exif.gfields e)
      have h32 : (Verif.Exif.gfields e).length = 32 := rfl
      rw [← Verif.Exif.gpsOps_eq] at h2
      show ((gpsOps e).foldl applyDirOp []).length ≤ 4096
      rw [List.length_nil] at h1
      omega
    · intro x hx
      have hx := Verif.Exif.entries_mem _ x hx
      rw [Verif.Exif.gpsOps_eq, ← he, Verif.Exif.metadata_gps trim s hv lens] at hx
      exact Verif.Exif.fields_entries utf8 _ (by decide) _ (fun t r h => Verif.Exif.gpsWant_good utf8 s hs t r h) x hx
  have hw : ∀ o ∈ Verif.Exif.writes e j, Writable utf8 o := by
    intro o ho
    rw [Verif.Exif.writes, List.mem_append, List.mem_append] at ho
    rcases ho with (ho | ho) | ho
    · exact hj.1 o ho
    · split at ho
      · simp at ho
      · next h => rw [List.mem_singleton.1 ho]; exact w2 h
    · rw [List.mem_singleton.1 ho]; exact w1
  obtain ⟨gps, off, hoff, hgps, hcon⟩ := Verif.Exif.convert_session utf8 e j hw
  have hgive : ∀ x ∈ gps.flatMap given, Entry utf8 x := by
    intro x hx
    split at hgps
    · rw [hgps] at hx; simp at hx
    · obtain ⟨g, hg, rfl⟩ := hgps
      simp only [List.flatMap_cons, List.flatMap_nil, given, List.append_nil, List.mem_singleton] at hx
      subst hx
      exact ⟨by show (0x8825 : Nat) < 2 ^ 16; decide, by intro y hy; rw [List.mem_singleton.1 hy]; exact hg, Nat.one_pos, by show 1 < 2 ^ 32; decide⟩
  have hglen : (gps.flatMap given).length ≤ 1 := by
    split at hgps
    · rw [hgps]; exact Nat.zero_le _
    · obtain ⟨g, _, rfl⟩ := hgps; exact Nat.le_refl _
  have w3 : WritableDir utf8 (rootOps e j gps off) := by
    refine Verif.Exif.writable_of utf8 _ 0x8769 (by rw [Verif.Exif.root_exif]; simp) ?_ ?_
    · have h1 := Verif.Exif.root_given_length e j gps off
      have h2 := hj.2.2
      omega
    · intro x hx
      rcases Verif.Exif.root_given e j gps off x hx with h | h | h | h | h
      · exact hj.2.1 x h
      · rw [← he, Verif.Exif.metadata_root trim s hv lens] at h
        exact Verif.Exif.fields_entries utf8 _ (by decide) _ (fun t r h => Verif.Exif.want_good utf8 trim ht s hs t r h) x h
      · exact hgive x h
      · have hls := Verif.Exif.lensSpec_eq trim s hv lens
        rw [he] at hls
        obtain ⟨l, hl1, rfl⟩ := Option.map_eq_some_iff.1 h
        rw [hl1] at hls
        exact ⟨by show (0xc630 : Nat) < 2 ^ 16; decide, Verif.Exif.lens_good utf8 lens hl 0xa432 _ hls.symm⟩
      · subst h
        exact ⟨by show (0x8769 : Nat) < 2 ^ 16; decide, by intro y hy; rw [List.mem_singleton.1 hy]; exact hoff, Nat.one_pos, by show 1 < 2 ^ 32; decide⟩
  -- the session
  obtain ⟨F, offs, h1, h2⟩ := C19_directory_partial utf8 (Verif.Exif.writes e j) (rootOps e j gps off) hw w3
  obtain ⟨hc, ho1, ho2⟩ := hcon F offs h1
  refine ⟨F, hc, fun hF max fuel => ?_⟩
  obtain ⟨hroot, hdirs⟩ := h2 hF
  obtain ⟨d, hp, hm⟩ := hroot max fuel
  have hval : ∀ t, valueOf d t = (mapOf (rootOps e j gps off) t).map content := fun t => hm.2.2 t
  have hgk : ∀ t, t ≠ 0x8825 → ∀ o ∈ gps, Verif.Exif.Keep t o := by
    intro t htt o ho
    split at hgps
    · rw [hgps] at ho; simp at ho
    · obtain ⟨g, _, rfl⟩ := hgps
      rw [List.mem_singleton.1 ho]
      exact Ne.symm htt
  refine ⟨d, hp, ?_, ?_, ?_, ?_, ?_, ?_, ?_⟩
  · have hi : (Verif.Exif.writes e j)[(Verif.Exif.writes e j).length - 1]? = some (.dir (exifOps e)) := by
      rw [Verif.Exif.writes, List.length_append, List.length_singleton, Nat.add_sub_cancel, List.getElem?_append_right (Nat.le_refl _), Nat.sub_self]
      rfl
    obtain ⟨off', ex, subs, a, b, c⟩ := hdirs _ _ hi
    rw [ho1] at a
    rw [← Option.some.inj a] at b
    exact ⟨off, ex, subs, by rw [hval, Verif.Exif.root_exif]; rfl, b, hex ▸ c⟩
  · intro hsome
    have hne : entriesOf (gpsOps e) ≠ [] := by
      intro h0
      obtain ⟨t, htn⟩ := hsome
      rw [← hgp, ← (entriesOf_spec _).2, h0] at htn
      exact htn rfl
    rw [if_neg hne] at hgps
    obtain ⟨g, _, hgeq⟩ := hgps
    have hi : (Verif.Exif.writes e j)[j.written.length]? = some (.dir (gpsOps e)) := by
      rw [Verif.Exif.writes, if_neg hne, List.append_assoc, List.getElem?_append_right (Nat.le_refl _), Nat.sub_self]
      rfl
    obtain ⟨off', ex, subs, a, b, c⟩ := hdirs _ _ hi
    rw [ho2 g hgeq] at a
    rw [← Option.some.inj a] at b
    exact ⟨g, ex, subs, by rw [hval, hgeq, Verif.Exif.root_gps]; rfl, b, hgp ▸ c⟩
  · intro t κ htk hne hart v hvv
    have hkk : Verif.Exif.kindOf t = some κ := by
      have : ∀ x ∈ mainTable, Verif.Exif.kindOf x.1 = some x.2 := by decide
      exact this (t, κ) htk
    have hmem : t ∈ (Verif.Exif.rootTags {}).map (·.1) := by
      have : ∀ x ∈ mainTable, x.1 ∈ (Verif.Exif.rootTags {}).map (·.1) := by decide
      exact this (t, κ) htk
    have hnes : ∀ x ∈ mainTable, x.1 ≠ 0x8825 ∧ x.1 ≠ 0x02bc ∧ x.1 ≠ 0xc68c ∧ x.1 ≠ 0xc68b ∧ x.1 ≠ 0xc71d ∧ x.1 ≠ 0x0131 ∧ x.1 ≠ 0x8769 ∧ x.1 ≠ 0x014a := by decide
    obtain ⟨n0, n1, n2, n3, n4, n5, n6, n7⟩ := hnes (t, κ) htk
    have hld := Verif.Exif.load_map trim s hv lens j gps t hmem (hgk t n0) v (by rw [Verif.Exif.want, hkk]; exact hvv)
    rw [he] at hld
    rw [hval, Verif.Exif.root_keep e j gps off t ⟨n1, n2, n3, n4, hart, n5, hne, n6, n7⟩ v hld]
    rfl
  · intro a ha
    rw [hval, Verif.Exif.root_artist e j gps off a ha]
    rfl
  · rw [hval, Verif.Exif.root_date]
    rfl
  · intro l hll
    subst hll
    rw [hval, ← he, Verif.Exif.root_lens trim s hv l]
    rfl
  · intro h0 hb
    rw [hval, Verif.Exif.root_orientation]
    · rfl
    · have hgk' : ∀ m : Nat → Option Value, gps.foldl applyMap m 0x0112 = m 0x0112 := by
        intro m
        split at hgps
        · rw [hgps]; rfl
        · obtain ⟨g, _, rfl⟩ := hgps; rfl
      have htr : ∀ (k : Nat) (o : Option Value) (m : Nat → Option Value), k ≠ 0x0112 → (Verif.Exif.transfer (k, o)).foldl applyMap m 0x0112 = m 0x0112 := by
        intro k o m hk
        cases o with
        | none => rfl
        | some w => show (if 0x0112 = k then some w else m 0x0112) = _; rw [if_neg (Ne.symm hk)]
      unfold loadMetadata mapOf
      rw [List.foldl_append, List.foldl_append, List.foldl_append, List.foldl_append, htr _ _ _ (by decide), htr _ _ _ (by decide), hgk', ← he,
        Verif.Exif.metadata_root trim s hv lens, Verif.Exif.fold_transfer]
      · simp only [Verif.Exif.find_map]
        rw [if_pos (by decide)]
        show ((some (Verif.Exif.want trim s 0x0112)).bind id).or _ = _
        have : Verif.Exif.want trim s 0x0112 = none := h0
        rw [this]
        exact hb
      · rw [List.map_map]
        show ((Verif.Exif.rootTags {}).map (·.1)).Nodup
        decide

/-- C75. A value that was carried over is carried over unchanged by a further conversion. -/
theorem C75_again (trim : List Nat → List Nat) (hid : ∀ x, trim (trim x) = trim x) (κ : Kind) (v r : Value) (h : κ.take trim v = some (some r)) :
    κ.take trim r = some (some r) := by
  cases κ <;> cases v <;> simp only [Kind.take, Option.some.injEq, reduceCtorEq, Option.map_eq_some_iff] at h
  case trimmed.ascii a => obtain ⟨x, _, rfl⟩ := h; simp only [Kind.take, List.head?_cons, Option.map_some, hid]
  case sshorts.sshort l => subst h; rfl
  case undefined.undefined l => subst h; rfl
  case bytes4.byte l =>
    split at h
    · next hl => rw [Option.some.injEq] at h; subst h; simp only [Kind.take, hl, if_true]
    · simp at h
  case rational3.rational l =>
    split at h
    · next hl => rw [Option.some.injEq] at h; subst h; simp only [Kind.take, hl, if_true]
    · simp at h
  all_goals (obtain ⟨x, _, rfl⟩ := h; rfl)

/-! ## What is lost -/

/-- The lens that a raw file names in its own EXIF directory is lost, unless the decoder knows it: also when a DNG is converted to DNG, for
which no decoder looks it up. -/
theorem C75_lens_of_file_lost (trim : List Nat → List Nat) (s : Source) (hs : s.Valid) (t : Nat) (ht : t = 0xa432 ∨ t = 0xa433 ∨ t = 0xa434) :
    mapOf (exifOps (metadata trim s.main s.exif s.gps none)) t = none := by
  rw [C75_exif_directory trim s hs]
  rcases ht with rfl | rfl | rfl <;> rfl

/-- A user comment is lost if it is stored as the standard demands, as type UNDEFINED. -/
theorem C75_user_comment_lost (trim : List Nat → List Nat) (main exif : List (Nat × Value)) (gps : Option (List (Nat × Value))) (lens : Option Lens)
    (hs : Source.Valid ⟨main, some exif, gps⟩) (c : List Nat) (h1 : find exif 0x9286 = some (.undefined c)) (h2 : find main 0x9286 = none) :
    mapOf (exifOps (metadata trim main (some exif) gps lens)) 0x9286 = none := by
  rw [C75_exif_directory trim ⟨main, some exif, gps⟩ hs]
  show Source.value trim ⟨main, some exif, gps⟩ 0x9286 .trimmed = none
  simp only [Source.value, taken, Option.bind_some, h1, h2]
  rfl

/-- A small conversion -/
def smallJob : Job := { before := [.add 0xc612 (.byte [1, 6, 0, 0])], written := [.data [1, 2, 3]], orientation := 1, software := [100], now := [50, 48] }

/-- An empty area information makes the conversion panic. -/
theorem C75_empty_area_panics : convert (metadata id [] none (some [(0x1c, .undefined [])]) none) smallJob = .error .panic := by decide +kernel

/-- The value of a tag of the EXIF directory of a file -/
def readExif (F : List Nat) (t : Nat) : Option Value :=
  match parseFile (fun _ => true) F 0 none [] 1 with
  | some (.ok [(d, _)]) => match valueOf d 0x8769 with
    | some (.long [off]) => match readDir (fun _ => true) F .little 0 0 [] off with
      | .ok (e, _) => valueOf e t
      | _ => none
    | _ => none
  | _ => none

/-- The time zones -5 and 0 of original and change arrive as -5 and -1. -/
theorem C75_time_zone_changed :
    (match convert (metadata id [] (some [(0x882a, .sshort [0xfffb, 0])]) none none) smallJob with
      | .ok F => readExif F 0x882a
      | _ => none) = some (.sshort [0xfffb, 0xffff]) := by decide +kernel

/-! ## The hypotheses are met -/

/-- A source with tags in all three directories -/
def sampleSource : Source :=
  { main := [(0x0112, .short [6]), (0x013b, .ascii { strings := [[74, 111]] })]
    exif := some [(0x829a, .rational [(1, 250)]), (0x882a, .sshort [1, 2]), (0x9003, .ascii { strings := [[50, 48]] })]
    gps := some [(0x00, .byte [2, 3, 0, 0]), (0x02, .rational [(1, 1), (2, 1), (3, 1)])] }

example : sampleSource.Valid := by
  refine ⟨by decide, ?_, ?_⟩ <;> (intro d hd; simp only [sampleSource, Option.some.injEq] at hd; subst hd; decide)

example : sampleSource.Writable (fun _ => true) := by
  intro d hd x hx
  simp only [sampleSource, Option.some.injEq] at hd
  rcases hd with rfl | rfl | rfl <;> simp only [List.mem_cons, List.not_mem_nil, or_false] at hx
  · rcases hx with rfl | rfl <;> simp [Typed, Value.count, Ascii.count]
  · rcases hx with rfl | rfl | rfl <;> simp [Typed, Value.count, Ascii.count, Storable]
  · rcases hx with rfl | rfl <;> simp [Typed, Value.count]

example : JobOk (fun _ => true) smallJob := by
  refine ⟨?_, ?_, by decide⟩
  · intro o ho
    simp only [smallJob, List.mem_singleton] at ho
    subst ho; trivial
  · intro x hx
    simp [smallJob, Job.values, given, originalValues] at hx
    rcases hx with rfl | rfl | rfl | rfl <;> simp [Entry, Typed, Storable, Value.count, Ascii.count]

example : TrimOk (fun _ => true) id := fun _ h => ⟨h, Nat.le_refl _⟩

example : sampleSource.exifDir id none 0x829a = some (.rational [(1, 250)]) ∧ sampleSource.gpsDir 0x02 = some (.rational [(1, 1), (2, 1), (3, 1)]) ∧
    sampleSource.value id 0x0112 .short = some (.short [6]) := by decide

end Verif.Props
