import Verif.Proofs.Loader
/-! # C80: every file gets the decoder and the camera settings meant for it -/

namespace Verif.Props
open Verif Verif.Loader
open Verif.Spec.Loader

variable {V : Type}

/-! ## The camera database -/

/-- Every name and mode of every entry is found, with the settings of the mode over those of the entry, unless a later entry has the same key. -/
theorem C80_camera (d1 d2 : List (Entry V)) (e : Entry V) (hb : Keyed e.base) (hm : ∀ t ∈ e.modes, Keyed t) (hu : (keys e).Nodup)
    (n : String × String) (t : Table V) (hn : n ∈ names e) (ht : t ∈ tables e) (hl : ∀ e' ∈ d2, keyOf e n t ∉ keys e') :
    ∃ c, checkEverything (newLoader (d1 ++ e :: d2)) (keyOf e n t).1 (keyOf e n t).2.1 (keyOf e n t).2.2 = .ok c ∧ Is e n t c := by
  have hk : Keyed t := by
    rcases List.mem_cons.1 ht with rfl | h
    · exact hb
    · exact hm t h
  refine ⟨camOf e n t, ?_, camOf_is e n t hb hk⟩
  obtain ⟨a, b, hab⟩ := List.append_of_mem ((mem_expand e _).2 ⟨n, hn, t, ht, rfl⟩)
  have hz : ∀ x ∈ b, Camera.key x ≠ Camera.key (camOf e n t) := by
    intro x hx he
    rw [← expand_keys, hab, List.map_append, List.map_cons] at hu
    have := (List.nodup_append.1 hu).2.1
    rw [List.nodup_cons] at this
    exact this.1 (he ▸ List.mem_map_of_mem hx)
  have hlast := fill_last (W := Camera V) Camera.key (fun _ => True) (d1.flatMap expand ++ a) (b ++ d2.flatMap expand) (camOf e n t) (fun _ => none) trivial (by
    intro x hx _
    rcases List.mem_append.1 hx with hx | hx
    · exact hz x hx
    · obtain ⟨e', he', hx⟩ := List.mem_flatMap.1 hx
      intro heq
      apply hl e' he'
      rw [← expand_keys, ← camOf_key, ← heq]
      exact List.mem_map_of_mem hx)
  have heq : (d1 ++ e :: d2).flatMap expand = (d1.flatMap expand ++ a) ++ camOf e n t :: (b ++ d2.flatMap expand) := by
    simp [hab]
  rw [checkEverything]
  have : (newLoader (d1 ++ e :: d2)).cameras (keyOf e n t) = some (camOf e n t) := by
    rw [cameras_eq, heq, ← camOf_key]; exact hlast
  rw [show ((keyOf e n t).1, (keyOf e n t).2.1, (keyOf e n t).2.2) = keyOf e n t from rfl, this]

/-- In a database in which no key occurs twice every camera is found. -/
theorem C80_every_camera (db : List (Entry V)) (hd : (db.flatMap keys).Nodup) (hk : ∀ e ∈ db, Keyed e.base ∧ ∀ t ∈ e.modes, Keyed t)
    (e : Entry V) (he : e ∈ db) (n : String × String) (t : Table V) (hn : n ∈ names e) (ht : t ∈ tables e) :
    ∃ c, checkEverything (newLoader db) (keyOf e n t).1 (keyOf e n t).2.1 (keyOf e n t).2.2 = .ok c ∧ Is e n t c := by
  obtain ⟨d1, d2, rfl⟩ := List.append_of_mem he
  rw [List.flatMap_append, List.flatMap_cons, List.nodup_append] at hd
  obtain ⟨-, hd, -⟩ := hd
  rw [List.nodup_append] at hd
  refine C80_camera d1 d2 e (hk e he).1 (hk e he).2 hd.1 n t hn ht fun e' he' hmem => ?_
  exact hd.2.2 _ (mem_keys e n t hn ht) _ (List.mem_flatMap.2 ⟨e', he', hmem⟩) rfl

/-- A camera found is in the database under this maker, model and mode; if the database has none there is an error, never another camera. -/
theorem C80_only (db : List (Entry V)) (hk : ∀ e ∈ db, Keyed e.base ∧ ∀ t ∈ e.modes, Keyed t) (make model mode : String) :
    match checkEverything (newLoader db) make model mode with
    | .ok c => ∃ e ∈ db, ∃ n ∈ names e, ∃ t ∈ tables e, keyOf e n t = (make, model, mode) ∧ Is e n t c
    | .error x => x = Err.fail ∧ ∀ e ∈ db, (make, model, mode) ∉ keys e := by
  rw [checkEverything, cameras_eq]
  cases h : (db.flatMap expand).foldl (fun m c => if True then ins m (Camera.key c, c) else m) (fun _ => none) (make, model, mode) with
  | some c =>
    simp only
    rcases fill_some Camera.key (fun _ => True) _ _ _ _ h with ⟨hm, -, hkey⟩ | h'
    · obtain ⟨e, he, hm⟩ := List.mem_flatMap.1 hm
      obtain ⟨n, hn, t, ht, rfl⟩ := (mem_expand e c).1 hm
      have hkt : Keyed t := by
        rcases List.mem_cons.1 ht with rfl | h
        · exact (hk e he).1
        · exact (hk e he).2 t h
      exact ⟨e, he, n, hn, t, ht, by rw [← camOf_key, hkey], camOf_is e n t (hk e he).1 hkt⟩
    · exact absurd h' (by simp)
  | none =>
    refine ⟨rfl, fun e he hmem => ?_⟩
    rw [keys, List.mem_flatMap] at hmem
    obtain ⟨n, hn, hmem⟩ := hmem
    obtain ⟨t, ht, hkey⟩ := List.mem_map.1 hmem
    -- the last camera with this key would be found
    have hex : ∃ c ∈ db.flatMap expand, Camera.key c = (make, model, mode) :=
      ⟨camOf e n t, List.mem_flatMap.2 ⟨e, he, (mem_expand e _).2 ⟨n, hn, t, ht, rfl⟩⟩, by rw [camOf_key, hkey]⟩
    have : ∀ (l : List (Camera V)) (f : String × String × String → Option (Camera V)), (∃ c ∈ l, Camera.key c = (make, model, mode)) →
        l.foldl (fun m c => if True then ins m (Camera.key c, c) else m) f (make, model, mode) ≠ none := by
      intro l
      induction l with
      | nil => rintro f ⟨c, hc, _⟩; simp at hc
      | cons a l ih =>
        intro f hc
        rw [List.foldl_cons]
        by_cases hl : ∃ c ∈ l, Camera.key c = (make, model, mode)
        · exact ih _ hl
        · obtain ⟨c, hc, hck⟩ := hc
          rcases List.mem_cons.1 hc with rfl | hc
          · rw [fill_none Camera.key (fun _ => True) l _ _ (fun w hw _ hkw => hl ⟨w, hw, hkw⟩), if_pos trivial, ins, if_pos hck.symm]
            simp
          · exact absurd ⟨c, hc, hck⟩ hl
    exact this _ _ hex h

/-- White space behind maker and model in a file does not matter. -/
theorem C80_padded (l : Loader V) (make model make' model' mode : String) (h1 : Padded make make') (h2 : Padded model model')
    (t1 : Tight make) (t2 : Tight model) : checkMode l (some make') (some model') mode = checkEverything l make model mode := by
  simp only [checkMode]
  rw [trimEnd_padded _ _ h1, trimEnd_padded _ _ h2, trimEnd_tight _ t1, trimEnd_tight _ t2]

/-- A camera found by the size of a file alone has this size in the database. -/
theorem C80_naked (db : List (Entry V)) (hk : ∀ e ∈ db, Keyed e.base ∧ ∀ t ∈ e.modes, Keyed t) (size : Nat) (c : Camera V)
    (h : (newLoader db).naked size = some c) : 0 < size ∧ ∃ e ∈ db, ∃ n ∈ names e, ∃ t ∈ tables e, Is e n t c ∧ (over t.filesize e.base.filesize) = some size := by
  rw [naked_eq] at h
  rcases fill_some (W := Camera V) (fun c => c.filesize) (fun c => c.filesize > 0) _ _ _ _ h with ⟨hm, hp, hkey⟩ | h'
  · obtain ⟨e, he, hm⟩ := List.mem_flatMap.1 hm
    obtain ⟨n, hn, t, ht, rfl⟩ := (mem_expand e c).1 hm
    have hkt : Keyed t := by
      rcases List.mem_cons.1 ht with rfl | h
      · exact (hk e he).1
      · exact (hk e he).2 t h
    have hi := camOf_is e n t (hk e he).1 hkt
    have hs := hi.filesize
    refine ⟨by omega, e, he, n, hn, t, ht, hi, ?_⟩
    cases ho : over t.filesize e.base.filesize with
    | none => rw [ho, Option.getD_none] at hs; omega
    | some s => rw [ho, Option.getD_some] at hs; rw [← hkey, hs]
  · exact absurd h' (by simp)

/-- A camera with a file size of its own, one name and no modes is found by it. -/
theorem C80_naked_found (d1 d2 : List (Entry V)) (e : Entry V) (size : Nat) (hs : 0 < size) (hb : Keyed e.base) (he : e.base.filesize = some size)
    (hm : e.modes = []) (ha : e.aliases = []) (hl : ∀ e' ∈ d2, ∀ t ∈ tables e', over t.filesize e'.base.filesize ≠ some size) :
    ∃ c, (newLoader (d1 ++ e :: d2)).naked size = some c ∧ Is e ((e.base.model).getD "", (e.base.cleanModel).getD "") e.base c := by
  have hc := camOf_is e ((e.base.model).getD "", (e.base.cleanModel).getD "") e.base hb hb
  refine ⟨camOf e ((e.base.model).getD "", (e.base.cleanModel).getD "") e.base, ?_, hc⟩
  have hx : expand e = [camOf e ((e.base.model).getD "", (e.base.cleanModel).getD "") e.base] := by
    rw [expand_eq, names, tables, hm, ha]; rfl
  have hfs : (camOf e ((e.base.model).getD "", (e.base.cleanModel).getD "") e.base).filesize = size := by
    rw [hc.filesize, he]; rfl
  have hlast := fill_last (W := Camera V) (fun c => c.filesize) (fun c => c.filesize > 0) (d1.flatMap expand) (d2.flatMap expand)
    (camOf e ((e.base.model).getD "", (e.base.cleanModel).getD "") e.base) (fun _ => none) (by rw [hfs]; exact hs) (by
      intro x hx hp heq
      obtain ⟨e', he', hx⟩ := List.mem_flatMap.1 hx
      obtain ⟨n, hn, t, ht, rfl⟩ := (mem_expand e' x).1 hx
      apply hl e' he' t ht
      rw [hfs] at heq
      have hval : (camOf e' n t).filesize = (over t.filesize e'.base.filesize).getD 0 := by
        simp only [camOf, Camera.update, Camera.new]
        cases t.filesize <;> simp [over]
      rw [hval] at heq hp
      cases ho : over t.filesize e'.base.filesize with
      | none => rw [ho] at hp; simp at hp
      | some v => rw [ho] at heq; simp only [Option.getD_some] at heq; rw [heq])
  rw [naked_eq, List.flatMap_append, List.flatMap_cons, hx]
  rw [hfs] at hlast
  exact hlast

/-! ## The decoder -/

/-- At most one of the signatures at the beginning of a file is there. -/
theorem C80_signatures_exclude (file : List Nat) :
    ([isMrw file, isRaf file, isAri file, isQtk file, isExif file, isX3f file].filter (· = true)).length ≤ 1 := by
  have d1 : ∀ {a b : List Nat}, Begins file a → a.take b.length ≠ b.take a.length → ¬ Begins file b := fun h hn => not_begins file _ _ h hn
  by_cases h1 : Begins file (0 :: bytes "MRM")
  · simp [(isMrw_iff file).2 h1, Bool.eq_false_iff.2 (mt (isRaf_iff file).1 (d1 h1 (by decide))), Bool.eq_false_iff.2 (mt (isAri_iff file).1 (d1 h1 (by decide))),
      Bool.eq_false_iff.2 (mt (isQtk_iff file).1 (not_or.2 ⟨d1 h1 (by decide), d1 h1 (by decide)⟩)),
      Bool.eq_false_iff.2 (mt (isExif_iff file).1 (d1 h1 (by decide))), Bool.eq_false_iff.2 (mt (isX3f_iff file).1 (d1 h1 (by decide)))]
  rw [Bool.eq_false_iff.2 (mt (isMrw_iff file).1 h1)]
  by_cases h2 : Begins file (bytes "FUJIFILM")
  · simp [(isRaf_iff file).2 h2, Bool.eq_false_iff.2 (mt (isAri_iff file).1 (d1 h2 (by decide))),
      Bool.eq_false_iff.2 (mt (isQtk_iff file).1 (not_or.2 ⟨d1 h2 (by decide), d1 h2 (by decide)⟩)),
      Bool.eq_false_iff.2 (mt (isExif_iff file).1 (d1 h2 (by decide))), Bool.eq_false_iff.2 (mt (isX3f_iff file).1 (d1 h2 (by decide)))]
  rw [Bool.eq_false_iff.2 (mt (isRaf_iff file).1 h2)]
  by_cases h3 : Begins file (bytes "ARRI")
  · simp [(isAri_iff file).2 h3, 
      Bool.eq_false_iff.2 (mt (isQtk_iff file).1 (not_or.2 ⟨d1 h3 (by decide), d1 h3 (by decide)⟩)),
      Bool.eq_false_iff.2 (mt (isExif_iff file).1 (d1 h3 (by decide))), Bool.eq_false_iff.2 (mt (isX3f_iff file).1 (d1 h3 (by decide)))]
  rw [Bool.eq_false_iff.2 (mt (isAri_iff file).1 h3)]
  by_cases h4 : Begins file [0xff, 0xd8, 0xff, 0xe1]
  · simp [(isExif_iff file).2 h4, 
      Bool.eq_false_iff.2 (mt (isQtk_iff file).1 (not_or.2 ⟨d1 h4 (by decide), d1 h4 (by decide)⟩)),
      Bool.eq_false_iff.2 (mt (isX3f_iff file).1 (d1 h4 (by decide)))]
  rw [Bool.eq_false_iff.2 (mt (isExif_iff file).1 h4)]
  by_cases h5 : Begins file (bytes "FOVb")
  · simp [(isX3f_iff file).2 h5, 
      Bool.eq_false_iff.2 (mt (isQtk_iff file).1 (not_or.2 ⟨d1 h5 (by decide), d1 h5 (by decide)⟩))]
  rw [Bool.eq_false_iff.2 (mt (isX3f_iff file).1 h5)]
  cases isQtk file <;> decide

/-- No signature is there. -/
theorem none_of (file : List Nat) (h : ∀ s ∈ signature, ¬ Begins file s.1) :
    isMrw file = false ∧ isRaf file = false ∧ isAri file = false ∧ isQtk file = false ∧ isX3f file = false := by
  refine ⟨Bool.eq_false_iff.2 (mt (isMrw_iff file).1 (h (_, .mrw) (.head _))),
    Bool.eq_false_iff.2 (mt (isRaf_iff file).1 (h (_, .raf) (.tail _ (.head _)))), Bool.eq_false_iff.2 (mt (isAri_iff file).1 (h (_, .ari) (.tail _ (.tail _ (.head _))))),
    Bool.eq_false_iff.2 (mt (isQtk_iff file).1 ?_), Bool.eq_false_iff.2 (mt (isX3f_iff file).1 (h (_, .x3f) (.tail _ (.tail _ (.tail _ (.tail _ (.tail _ (.head _))))))))⟩
  exact not_or.2 ⟨h (_, .qtk) (.tail _ (.tail _ (.tail _ (.head _)))), h (_, .qtk) (.tail _ (.tail _ (.tail _ (.tail _ (.head _)))))⟩

/-- A file that begins with the signature of a container gets the decoder for this container, whatever comes after and whatever other readers say of
it, unless it has the CIFF signature too. -/
theorem C80_signature (naked : Nat → Bool) (p : Probe) (file sig : List Nat) (d : Dec) (hs : (sig, d) ∈ signature) (hb : Begins file sig)
    (hc : ¬ Has file 6 (bytes "HEAPCCDR")) : choose naked file p = .ok d := by
  have hciff : isCiff file = false := Bool.eq_false_iff.2 (mt (isCiff_iff file).1 hc)
  have hx := C80_signatures_exclude file
  simp only [signature, List.mem_cons, List.not_mem_nil, or_false, Prod.mk.injEq] at hs
  unfold choose
  rw [hciff]
  rcases hs with ⟨rfl, rfl⟩ | ⟨rfl, rfl⟩ | ⟨rfl, rfl⟩ | ⟨rfl, rfl⟩ | ⟨rfl, rfl⟩ | ⟨rfl, rfl⟩
  · rw [(isMrw_iff file).2 hb]; rfl
  · rw [(isRaf_iff file).2 hb] at hx ⊢
    cases h1 : isMrw file
    · rfl
    · rw [h1] at hx; simp at hx
  · rw [(isAri_iff file).2 hb] at hx ⊢
    cases h1 : isMrw file <;> cases h2 : isRaf file <;> simp_all
  · rw [(isQtk_iff file).2 (.inl hb)] at hx ⊢
    cases h1 : isMrw file <;> cases h2 : isRaf file <;> cases h3 : isAri file <;> simp_all
  · rw [(isQtk_iff file).2 (.inr hb)] at hx ⊢
    cases h1 : isMrw file <;> cases h2 : isRaf file <;> cases h3 : isAri file <;> simp_all
  · rw [(isX3f_iff file).2 hb] at hx ⊢
    cases h1 : isMrw file <;> cases h2 : isRaf file <;> cases h3 : isAri file <;> cases h4 : isQtk file <;> cases h5 : isExif file <;> simp_all

/-- A CIFF file gets the CIFF decoder, unless it begins with one of these signatures. -/
theorem C80_ciff (naked : Nat → Bool) (p : Probe) (file : List Nat) (hc : Has file 6 (bytes "HEAPCCDR")) (h : ∀ s ∈ signature, ¬ Begins file s.1) :
    choose naked file p = .ok .crw := by
  obtain ⟨h1, h2, h3, h4, -⟩ := none_of file h
  unfold choose
  rw [h1, h2, h3, h4, (isCiff_iff file).2 hc]
  rfl

/-- Files that begin as TIFF files do are never taken for another container, if they don't have the CIFF signature: what the TIFF and BMFF readers say
decides. -/
theorem C80_tiff (naked : Nat → Bool) (p : Probe) (file sig : List Nat) (hs : sig ∈ tiffHeads) (hb : Begins file sig)
    (hc : ¬ Has file 6 (bytes "HEAPCCDR")) : choose naked file p = chooseRest naked file p := by
  have hciff : isCiff file = false := Bool.eq_false_iff.2 (mt (isCiff_iff file).1 hc)
  obtain ⟨h1, h2, h3, h4, h5⟩ := none_of file fun s hm => not_begins file sig s.1 hb (by
    have key : ∀ x ∈ tiffHeads, ∀ y ∈ signature, x.take y.1.length ≠ y.1.take x.length := by decide
    exact key sig hs s hm)
  have h6 : isExif file = false := Bool.eq_false_iff.2 (mt (isExif_iff file).1 (not_begins file sig _ hb (by
    have key : ∀ x ∈ tiffHeads, x.take 4 ≠ [0xff, 0xd8, 0xff, 0xe1].take x.length := by decide
    exact key sig hs)))
  unfold choose
  rw [h1, h2, h3, h4, h5, h6, hciff]
  rfl

/-- A TIFF file with a DNG version is read as DNG file, whoever made the camera. -/
theorem C80_dng (naked : Nat → Bool) (file : List Nat) (p : Probe) (t : TiffInfo) (hp : p.tiff = some t) (hb : p.brands = none) (h : t.dngVersion = true) :
    chooseRest naked file p = .ok .dng := by
  simp [chooseRest, hb, hp, chooseTiff, h]

/-- A BMFF file with the brand `crx ` is read as CR3 file, whatever the TIFF reader says. -/
theorem C80_cr3 (naked : Nat → Bool) (file : List Nat) (p : Probe) (l : List String) (hb : p.brands = some l) (h : "crx " ∈ l) :
    chooseRest naked file p = .ok .cr3 := by
  simp [chooseRest, hb, h]

/-- A BMFF file without it is not. -/
theorem C80_not_cr3 (naked : Nat → Bool) (file : List Nat) (p : Probe) (l : List String) (hb : p.brands = some l) (h : "crx " ∉ l) :
    chooseRest naked file p = chooseRest naked file { p with brands := none } := by
  simp [chooseRest, hb, h]

/-- One Kodak camera wrote Canon files: it is known by its model, whoever the maker is. -/
theorem C80_dcs560c (naked : Nat → Bool) (file : List Nat) (p : Probe) (t : TiffInfo) (hp : p.tiff = some t) (hb : p.brands = none)
    (h : t.dngVersion = false) (hm : t.model = some "DCS560C") : chooseRest naked file p = .ok .cr2 := by
  simp [chooseRest, hb, hp, chooseTiff, h, hm]

/-- A TIFF file without a maker is a Leaf file if the Leaf software wrote it; any other is known by its size or not at all. -/
theorem C80_mos (naked : Nat → Bool) (file : List Nat) (p : Probe) (t : TiffInfo) (hp : p.tiff = some t) (hb : p.brands = none)
    (h : t.dngVersion = false) (hm : t.model ≠ some "DCS560C") (hk : t.make = none) :
    chooseRest naked file p =
      if t.software = some "Camera Library" then .ok .mos else if naked file.length = true then .ok .nkd else .error Err.fail := by
  simp only [chooseRest, hb, hp, chooseTiff, h, hm, hk, byFilesize]
  rfl

/-- Any other TIFF file is read by the decoder for its maker, with or without white space behind the name. -/
theorem C80_maker (naked : Nat → Bool) (file : List Nat) (p : Probe) (t : TiffInfo) (hp : p.tiff = some t) (hb : p.brands = none)
    (h : t.dngVersion = false) (hm : t.model ≠ some "DCS560C") (d : Dec) (m m' : String) (hd : m ∈ makers d) (hpad : Padded m m') (ht : t.make = some m') :
    chooseRest naked file p = .ok d := by
  have tight : ∀ x ∈ makeTable.map (·.1), trimEnd x = x := by decide
  have hin : (m, d) ∈ makeTable := by
    cases d <;> simp only [makers, List.mem_cons, List.not_mem_nil, or_false] at hd <;>
      (first | exact hd.elim | (rcases hd with rfl | rfl | rfl | rfl <;> decide) | (rcases hd with rfl | rfl | rfl <;> decide) |
        (rcases hd with rfl | rfl <;> decide) | (subst hd; decide))
  have hfind : ∀ x ∈ makeTable, makeTable.find? (fun y => y.1 == x.1) = some x := by decide
  simp only [chooseRest, hb, hp, chooseTiff, h, hm, ht, trimEnd_padded _ _ hpad, tight m (List.mem_map.2 ⟨_, hin, rfl⟩), hfind _ hin]
  rfl

/-- A TIFF file of a maker who is not in the list is refused, also if its size is known. -/
theorem C80_unknown_maker (naked : Nat → Bool) (file : List Nat) (p : Probe) (t : TiffInfo) (hp : p.tiff = some t) (hb : p.brands = none)
    (h : t.dngVersion = false) (hm : t.model ≠ some "DCS560C") (m : String) (ht : t.make = some m) (hd : ∀ d, trimEnd m ∉ makers d) :
    chooseRest naked file p = .error Err.fail := by
  have hnone : makeTable.find? (fun y => y.1 == trimEnd m) = none := by
    rw [List.find?_eq_none]
    intro x hx
    have key : ∀ x ∈ makeTable, x.1 ∈ makers x.2 := by decide
    have := key x hx
    intro he
    rw [beq_iff_eq] at he
    exact hd x.2 (he ▸ this)
  simp only [chooseRest, hb, hp, chooseTiff, h, hm, ht, hnone]
  rfl

/-- Each maker belongs to one decoder. -/
theorem C80_makers_exclude (a b : Dec) (m : String) (ha : m ∈ makers a) (hb : m ∈ makers b) : a = b := by
  have key : ∀ d : Dec, m ∈ makers d → makeTable.lookup m = some d := by
    intro d hd
    cases d <;> simp only [makers, List.mem_cons, List.not_mem_nil, or_false] at hd <;>
      (first | exact hd.elim | (rcases hd with rfl | rfl | rfl | rfl <;> decide) | (rcases hd with rfl | rfl | rfl <;> decide) |
        (rcases hd with rfl | rfl <;> decide) | (subst hd; decide))
  have := (key a ha).symm.trans (key b hb)
  simpa using this

/-- Files no reader knows are taken by their size, if the database has it, and else refused. -/
theorem C80_by_size (naked : Nat → Bool) (file : List Nat) (p : Probe) (hb : p.brands = none) (ht : p.tiff = none) :
    chooseRest naked file p = if naked file.length then .ok .nkd else .error Err.fail := by
  simp only [chooseRest, hb, ht, byFilesize]
  rfl

/-- A JPEG file is read by the Minolta decoder if, and only if, its EXIF data names this maker. -/
theorem C80_jpeg (naked : Nat → Bool) (file : List Nat) (p : Probe) (hb : Begins file [0xff, 0xd8, 0xff, 0xe1]) (hc : ¬ Has file 6 (bytes "HEAPCCDR"))
    (make : String) (hm : p.exifMake = .ok (some make)) :
    (Padded "Konica Minolta Photo Imaging, Inc." make → choose naked file p = .ok .mrwJfif) ∧
      (trimEnd make ≠ "Konica Minolta Photo Imaging, Inc." → choose naked file p = chooseRest naked file p) := by
  have hciff : isCiff file = false := Bool.eq_false_iff.2 (mt (isCiff_iff file).1 hc)
  obtain ⟨h1, h2, h3, h4, h5⟩ := none_of file fun s hs => not_begins file _ s.1 hb (by
    have key : ∀ y ∈ signature, [0xff, 0xd8, 0xff, 0xe1].take y.1.length ≠ y.1.take 4 := by decide
    exact key s hs)
  have e : choose naked file p = if trimEnd make = "Konica Minolta Photo Imaging, Inc." then .ok .mrwJfif else chooseRest naked file p := by
    unfold choose
    rw [h1, h2, h3, h4, hciff, (isExif_iff file).2 hb, hm]
    simp
  refine ⟨fun h => ?_, fun h => ?_⟩
  · rw [e, if_pos]
    rw [trimEnd_padded _ _ h]
    decide
  · rw [e, if_neg h]

/-! ## Levels -/

/-- One level is the level of every plane. As many levels as planes are the levels of the planes. -/
theorem C80_levels (x : Nat) (l : List Nat) (cpp w h : Nat) :
    makeWhitelevel (some [x]) cpp = .ok (some (List.replicate cpp x)) ∧ makeBlacklevel (some [x]) w h cpp = .ok (some (List.replicate cpp x, 1, 1)) ∧
    (l.length = cpp → makeWhitelevel (some l) cpp = .ok (some l)) ∧
    (l.length = w * h * cpp → 1 < l.length → makeBlacklevel (some l) w h cpp = .ok (some (l, w, h))) := by
  refine ⟨rfl, rfl, fun hl => ?_, fun hl h1 => ?_⟩
  · match l, hl with
    | [], hl => simp [makeWhitelevel, ← hl]
    | [a], hl => subst hl; rfl
    | a :: b :: r, hl => simp [makeWhitelevel, hl]
  · match l, hl, h1 with
    | a :: b :: r, hl, _ => simp [makeBlacklevel, hl]

/-! ## What the claim doesn't hold for -/

/-- A file with the CIFF signature that begins with the Minolta signature is not read as CIFF file. -/
theorem C80_two_signatures : ∃ file, Has file 6 (bytes "HEAPCCDR") ∧ ∀ naked p, choose naked file p = .ok .mrw :=
  ⟨[0, 0x4D, 0x52, 0x4D, 0, 0] ++ bytes "HEAPCCDR", ⟨[0, 0x4D, 0x52, 0x4D, 0, 0], [], rfl, by rw [List.append_nil]⟩, fun _ _ => rfl⟩

/-- Two cameras of one file size (PowerShot SX260 HS and SX40 HS in the shipped data): the first is never found by it. -/
theorem C80_shared_size : ∃ a b : Entry Nat, (keys a ++ keys b).Nodup ∧ a.base.filesize = some 19167840 ∧ b.base.filesize = some 19167840 ∧
    ((newLoader [a, b]).naked 19167840).map (·.model) = b.base.model ∧ a.base.model ≠ b.base.model :=
  ⟨{ base := { make := some "Canon", model := some "Canon PowerShot SX260 HS", filesize := some 19167840 } },
    { base := { make := some "Canon", model := some "Canon PowerShot SX40 HS", filesize := some 19167840 } }, by decide, rfl, rfl, by decide, by decide⟩

/-- Two entries of one name (the alias DMC-FZ2000 of one entry and another entry in the shipped data): the settings of the first are lost. -/
theorem C80_shadowed : ∃ a b : Entry Nat, ∃ c, checkEverything (newLoader [a, b]) "Panasonic" "DMC-FZ2000" "" = .ok c ∧
    value a.base.other "whitepoint" = some 2095 ∧ c.other "whitepoint" = some 4095 ∧ ("Panasonic", "DMC-FZ2000", "") ∈ keys a := by
  refine ⟨{ base := { make := some "Panasonic", model := some "DMC-FZ2000", other := [("whitepoint", 2095)] } },
    { base := { make := some "Panasonic", model := some "DMC-FZ2500", other := [("whitepoint", 4095)] }, aliases := [("DMC-FZ2000", "DMC-FZ2000")] },
    _, rfl, by decide, by decide, by decide⟩

/-! ## A camera with a mode and an alias -/

def exEntry : Entry Nat where
  base := { make := some "SONY", model := some "ILCE-7", other := [("whitepoint", 16300), ("bps", 14)], params := [("a", 1), ("b", 2)] }
  modes := [{ mode := some "12bit", other := [("whitepoint", 4095)], params := [("b", 3)] }]
  aliases := [("ILCE-7R", "A7R")]

example : (keys exEntry).Nodup := by decide
example : Keyed exEntry.base ∧ ∀ t ∈ exEntry.modes, Keyed t := by
  refine ⟨by unfold Keyed; decide, ?_⟩
  intro t ht
  simp only [exEntry, List.mem_singleton] at ht
  subst ht
  unfold Keyed; decide
example : (checkEverything (newLoader [exEntry]) "SONY" "ILCE-7R" "12bit").toOption.map
    (fun c => (c.cleanModel, c.other "whitepoint", c.other "bps", c.params "a", c.params "b")) = some ("A7R", some 4095, some 14, some 1, some 3) := by decide
example : (checkEverything (newLoader [exEntry]) "SONY" "ILCE-7" "").toOption.map
    (fun c => (c.other "whitepoint", c.params "b")) = some (some 16300, some 2) := by decide
example : checkMode (newLoader [exEntry]) (some "SONY  ") (some "ILCE-7 ") "" = checkEverything (newLoader [exEntry]) "SONY" "ILCE-7" "" :=
  C80_padded _ _ _ _ _ _ ⟨[' ', ' '], by decide, by decide⟩ ⟨[' '], by decide, by decide⟩ (by unfold Tight; decide) (by unfold Tight; decide)
example : choose (fun _ => false) (bytes "II" ++ [42, 0, 8, 0, 0, 0]) ⟨.ok none, none, some ⟨false, some "NIKON D1", some "NIKON CORPORATION ", none⟩⟩ = .ok .nef := by
  decide
example : Begins (bytes "FUJIFILMCCD-RAW 0201") (bytes "FUJIFILM") ∧ ¬ Has (bytes "FUJIFILMCCD-RAW 0201") 6 (bytes "HEAPCCDR") := by
  refine ⟨⟨bytes "CCD-RAW 0201", by decide⟩, ?_⟩
  rw [← isCiff_iff]; decide

/-- White levels of a wrong number, neither one nor one for each component, stop the program. -/
theorem C80_levels_refused (l : List Nat) (cpp : Nat) (h : l.length ≠ cpp) (h1 : l.length ≠ 1) : makeWhitelevel (some l) cpp = .error Err.panic := by
  match l, h, h1 with
  | [], h, _ => simp only [makeWhitelevel]; rw [if_neg h]
  | [x], _, h1 => exact absurd rfl h1
  | x :: y :: l, h, _ => simp only [makeWhitelevel]; rw [if_neg h]

example : makeWhitelevel (some [4095, 4095]) 3 = .error Err.panic := C80_levels_refused _ _ (by decide) (by decide)

end Verif.Props
