import Verif.Spec.Cli
import Verif.Proofs.Cli
/-! # C32, C36, C38: planning of batches -/

namespace Verif.Props
open Verif Verif.Path Verif.Cli

/-! ## C32 -/

/-- **C32 (termination).** For every output, frame count and set of claimed paths the search for a free name ends, after at most one round for every
claimed path, and any larger bound on the rounds gives the same names. -/
theorem C32_terminates (output : Path) (base : Name) (multi : Bool) (count : Nat) (claimed : List Path) (fuel : Nat) (hf : claimed.length + 2 ≤ fuel) :
    ∃ r, findSuffix output base multi count claimed fuel 0 = some r ∧ findSuffix output base multi count claimed (claimed.length + 2) 0 = some r := by
  have h : ∀ f, claimed.length + 2 ≤ f → ∃ r, findSuffix output base multi count claimed f 0 = some r := by
    intro f hf
    obtain ⟨g, rfl⟩ : ∃ g, f = g + 1 := ⟨f - 1, by omega⟩
    unfold findSuffix
    dsimp only
    split
    · exact findSuffix_some output base multi count claimed g 1 (by omega) [] List.nodup_nil (by simp) (by simp) (by simp; omega)
    · exact ⟨_, rfl⟩
  obtain ⟨r, hr⟩ := h fuel hf
  obtain ⟨r', hr'⟩ := h (claimed.length + 2) (Nat.le_refl _)
  obtain ⟨l, _, e, hn, hm⟩ := findSuffix_spec hr
  obtain ⟨l', _, e', hn', hm'⟩ := findSuffix_spec hr'
  have : l = l' := by
    rcases Nat.lt_trichotomy l l' with h | h | h
    · obtain ⟨p, hp, hc⟩ := hm' l (by omega) h
      exact absurd hc (hn p (e ▸ hp))
    · exact h
    · obtain ⟨p, hp, hc⟩ := hm l' (by omega) h
      exact absurd hc (hn' p (e' ▸ hp))
  exact ⟨r, hr, by rw [hr', e', e, this]⟩

theorem mapIdx_output (outs : List Path) (f : Nat → Path → Job) (hf : ∀ i p, (f i p).output = p) : (outs.mapIdx f).map (·.output) = outs := by
  apply List.ext_getElem (by simp)
  intro i h1 h2
  simp [hf]

theorem generateJob_spec {batch : Bool} {index : Nat} {s : Source} {claimed claimed' : List Path} {jobs : List Job}
    (h : generateJob batch index s claimed = .ok (jobs, claimed')) :
    (jobs.map (·.output)).Nodup ∧ (∀ p ∈ jobs.map (·.output), p ∉ claimed) ∧ claimed' = jobs.map (·.output) ++ claimed := by
  unfold generateJob at h
  cases hc : batchCount batch s with
  | error e => rw [hc] at h; cases h
  | ok count =>
    rw [hc] at h
    dsimp only [bind, Except.bind] at h
    cases hd : dngOutput s with
    | error e => rw [hd] at h; cases h
    | ok output =>
      rw [hd] at h
      dsimp only at h
      split at h
      · cases h
      · split at h
        · cases h
        · rename_i outs hs
          split at h
          · cases h
          · injection h with h
            injection h with h1 h2
            obtain ⟨l, _, rfl, hn, _⟩ := findSuffix_spec hs
            subst h1 h2
            rw [mapIdx_output _ _ (fun _ _ => rfl)]
            refine ⟨candidates_nodup _ _ _ _ _ fun hm => ?_, hn, rfl⟩
            cases batch
            · simp only [batchCount, Bool.false_eq_true, if_false, Except.ok.injEq] at hc
              omega
            · simpa using hm

theorem plan_distinct {batch : Bool} {index : Nat} {ss : List Source} {claimed : List Path} {jobs : List Job}
    (h : planConvert batch index ss claimed = .ok jobs) : (jobs.map (·.output)).Nodup ∧ ∀ p ∈ jobs.map (·.output), p ∉ claimed := by
  induction ss generalizing claimed jobs with
  | nil => simp only [planConvert, Except.ok.injEq] at h; subst h; exact ⟨List.nodup_nil, by simp⟩
  | cons s ss ih =>
    unfold planConvert at h
    cases hg : generateJob batch index s claimed with
    | error e => rw [hg] at h; cases h
    | ok r =>
      obtain ⟨js, cl⟩ := r
      rw [hg] at h
      dsimp only [bind, Except.bind] at h
      cases hp : planConvert batch index ss cl with
      | error e => rw [hp] at h; cases h
      | ok rest =>
        rw [hp] at h
        injection h with h
        subst h
        obtain ⟨h1, h2, h3⟩ := generateJob_spec hg
        obtain ⟨h4, h5⟩ := ih hp
        rw [List.map_append]
        refine ⟨List.nodup_append.mpr ⟨h1, h4, fun a ha b hb hab => ?_⟩, fun p hp hc => ?_⟩
        · exact h5 b hb (by rw [h3, ← hab]; exact List.mem_append_left _ ha)
        · rcases List.mem_append.mp hp with hp | hp
          · exact h2 p hp hc
          · exact h5 p hp (by rw [h3]; exact List.mem_append_right _ hc)

/-- **C32.** Whatever the inputs of a run are - any list of files, with any destinations and any number of frames each - no two jobs of the run have the
same output path, and none has a path that was claimed before. -/
theorem C32_distinct {batch : Bool} {index : Nat} {ss : List Source} {claimed : List Path} {jobs : List Job}
    (h : planConvert batch index ss claimed = .ok jobs) : (jobs.map (·.output)).Nodup ∧ ∀ p ∈ jobs.map (·.output), p ∉ claimed := plan_distinct h

theorem fileName_push (d : Path) (n : Name) : fileName (push d [.normal n]) = some n := by
  unfold push
  by_cases hd : d = [] <;> simp [isAbs, hd, fileName]

theorem dngOutput_ok (s : Source) (hs : (fileName s.map.src).isSome) (hd : s.destIsDir = false → (fileName s.map.dest).isSome) :
    ∃ p n, dngOutput s = .ok p ∧ fileName p = some n ∧
      p.dropLast = (if s.destIsDir then s.map.dest else s.map.dest.dropLast) := by
  obtain ⟨a, ha⟩ := Option.isSome_iff_exists.mp hs
  have key : ∀ q n, fileName q = some n → ∃ p m, (if (match (fileName q).bind ext with
      | some e => eqIgnoreCase e "dng".toList
      | none => false) = true then (Except.ok q : R Path)
      else match setExt q "dng".toList with
        | none => fail'
        | some p => .ok p) = .ok p ∧ fileName p = some m ∧ p.dropLast = q.dropLast := by
    intro q n hq
    by_cases hc : (match (fileName q).bind ext with
      | some e => eqIgnoreCase e "dng".toList
      | none => false) = true
    · exact ⟨q, n, by rw [if_pos hc], hq, rfl⟩
    · refine ⟨q.dropLast ++ [.normal (stem n ++ '.' :: "dng".toList)], stem n ++ '.' :: "dng".toList, ?_, ?_, ?_⟩
      · rw [if_neg hc]; simp [setExt, hq]
      · simp [fileName]
      · simp
  unfold dngOutput destFile
  cases hdir : s.destIsDir
  · obtain ⟨n, hn⟩ := Option.isSome_iff_exists.mp (hd hdir)
    obtain ⟨p, m, h1, h2, h3⟩ := key s.map.dest n hn
    exact ⟨p, m, h1, h2, by simpa using h3⟩
  · obtain ⟨p, m, h1, h2, h3⟩ := key (push s.map.dest [.normal a]) a (fileName_push _ _)
    refine ⟨p, m, ?_, h2, ?_⟩
    · rw [ha]; exact h1
    · rw [h3]
      unfold push
      by_cases he : s.map.dest = [] <;> simp [isAbs, he]

/-- What is asked of a run: for every source file the frames to convert, in order. -/
def wanted (batch : Bool) (index : Nat) (frames : Source → Nat) (ss : List Source) : List (Path × Nat) :=
  ss.flatMap fun s => if batch then (List.range (frames s)).map fun i => (s.map.src, i) else [(s.map.src, index)]

theorem mapIdx_inputs (outs : List Path) (src : Path) (batch : Bool) (index : Nat) :
    (outs.mapIdx fun i p => ({ input := src, output := p, index := if batch then i else index } : Job)).map (fun j => (j.input, j.index))
      = (List.range outs.length).map fun i => (src, if batch then i else index) := by
  apply List.ext_getElem (by simp)
  intro i h1 h2
  simp

/-- **C32 (nothing is lost).** If every source has a file name and at least one frame, planning succeeds, and the jobs are exactly the wanted frames of
the sources, in order. -/
theorem C32_complete (batch : Bool) (index : Nat) (frames : Source → Nat) (ss : List Source) (claimed : List Path)
    (hf : ∀ s ∈ ss, s.count = .ok (frames s) ∧ 0 < frames s) (hs : ∀ s ∈ ss, (fileName s.map.src).isSome)
    (hd : ∀ s ∈ ss, s.destIsDir = false → (fileName s.map.dest).isSome) :
    ∃ jobs, planConvert batch index ss claimed = .ok jobs ∧ jobs.map (fun j => (j.input, j.index)) = wanted batch index frames ss := by
  induction ss generalizing claimed with
  | nil => exact ⟨[], rfl, rfl⟩
  | cons s ss ih =>
    obtain ⟨p, n, h1, h2, _⟩ := dngOutput_ok s (hs s (by simp)) (hd s (by simp))
    obtain ⟨hc, hpos⟩ := hf s (by simp)
    obtain ⟨outs, ho, _⟩ := C32_terminates p (stem n) (batch && decide (1 < (if batch then frames s else 1))) (if batch then frames s else 1) claimed
      (claimed.length + 2) (Nat.le_refl _)
    have hcount : batchCount batch s = (Except.ok (if batch then frames s else 1) : R Nat) := by
      rw [batchCount, hc]; cases batch <;> rfl
    have hlen : outs.length = if batch then frames s else 1 := by
      obtain ⟨l, _, rfl, _⟩ := findSuffix_spec ho
      simp [candidates]
    have hne : outs ≠ [] := by
      intro h
      rw [h] at hlen
      cases batch <;> simp at hlen
      omega
    obtain ⟨jobs, hj, hm⟩ := ih (outs ++ claimed) (fun s' hs' => hf s' (by simp [hs'])) (fun s' hs' => hs s' (by simp [hs']))
      (fun s' hs' => hd s' (by simp [hs']))
    refine ⟨(outs.mapIdx fun i q => { input := s.map.src, output := q, index := if batch then i else index }) ++ jobs, ?_, ?_⟩
    · unfold planConvert generateJob
      rw [hcount, h1]
      simp only [bind, Except.bind, h2, ho, if_neg hne, hj]
    · rw [List.map_append, mapIdx_inputs, hm, hlen]
      cases batch <;> simp [wanted]

/-- **C32 (counter-example to totality).** With `--index all` a source that has no image at all makes planning panic instead of reporting an error. -/
theorem C32_no_image_panics : planConvert true 0
    [{ map := { src := parse "/in/a.cr3".toList, dest := parse "/out/a.cr3".toList }, destIsDir := false, count := .ok 0 }] [] = panic' := by decide +kernel

/-- Non-vacuity: two sources with one stem, one single and one of two frames, and a third whose plain name is taken by a disambiguated one. -/
example : (planConvert false 0
    [{ map := { src := parse "/in/a.cr3".toList, dest := parse "/out/a.cr3".toList }, destIsDir := false, count := .ok 1 },
     { map := { src := parse "/in/a.NEF".toList, dest := parse "/out/a.NEF".toList }, destIsDir := false, count := .ok 1 },
     { map := { src := parse "/in/a_1.DNG".toList, dest := parse "/out/a_1.DNG".toList }, destIsDir := false, count := .ok 1 }] []).map (·.map (·.output))
    = .ok [parse "/out/a.dng".toList, parse "/out/a_1.dng".toList, parse "/out/a_1_1.dng".toList] := by decide +kernel

example : (planConvert true 0
    [{ map := { src := parse "/in/a.cr3".toList, dest := parse "/out/a.cr3".toList }, destIsDir := false, count := .ok 2 },
     { map := { src := parse "/in/b/a.cr3".toList, dest := parse "/out".toList }, destIsDir := true, count := .ok 2 }] []).map (·.map (·.output))
    = .ok [parse "/out/a_0000.dng".toList, parse "/out/a_0001.dng".toList, parse "/out/a_1_0000.dng".toList, parse "/out/a_1_0001.dng".toList] := by
  decide +kernel

/-! ## C38 -/

/-- **C38 (which files).** Scanning a directory lists exactly the regular files in it that pass the filter - in sub-directories too if that was asked for,
to any depth. -/
theorem C38_listed (recursive : Bool) (filter : Path → Bool) (base : Path) (es : List (Name × Node)) (p : Path) :
    p ∈ readFiltered recursive filter base es ↔ ∃ ns, FileAt recursive es ns ∧ p = base ++ ns.map .normal ∧ filter p = true := by
  have mono : ∀ {e es ns}, FileAt recursive es ns → FileAt recursive (e :: es) ns := by
    intro e es ns h
    cases h with
    | here h => exact .here (List.mem_cons_of_mem _ h)
    | sub hr h h' => exact .sub hr (List.mem_cons_of_mem _ h) h'
  induction base, es using readFiltered.induct (recursive := recursive) (filter := filter) with
  | case1 base =>
    simp only [readFiltered, List.not_mem_nil, false_iff, not_exists, not_and]
    intro ns h
    cases h with
    | here h => simp at h
    | sub _ h _ => simp at h
  | case2 base n es hf ih =>
    rw [readFiltered]
    simp only [hf, if_true, List.mem_cons, ih]
    constructor
    · rintro (rfl | ⟨ns, h, rfl, hp⟩)
      · exact ⟨[n], .here (by simp), rfl, hf⟩
      · exact ⟨ns, mono h, rfl, hp⟩
    · rintro ⟨ns, h, rfl, hp⟩
      cases h with
      | here h =>
        rcases List.mem_cons.mp h with h | h
        · injection h with h; subst h; exact .inl rfl
        · exact .inr ⟨_, .here h, rfl, hp⟩
      | sub hr h h' =>
        rcases List.mem_cons.mp h with h | h
        · injection h with _ h; cases h
        · exact .inr ⟨_, .sub hr h h', rfl, hp⟩
  | case3 base n es hf ih =>
    rw [readFiltered]
    rw [if_neg hf]
    refine Iff.trans ih ?_
    constructor
    · rintro ⟨ns, h, rfl, hp⟩
      exact ⟨ns, mono h, rfl, hp⟩
    · rintro ⟨ns, h, rfl, hp⟩
      cases h with
      | here h =>
        rcases List.mem_cons.mp h with h | h
        · injection h with h; subst h; exact absurd hp hf
        · exact ⟨_, .here h, rfl, hp⟩
      | sub hr h h' =>
        rcases List.mem_cons.mp h with h | h
        · injection h with _ h; cases h
        · exact ⟨_, .sub hr h h', rfl, hp⟩
  | case4 base n sub es hr ih1 ih2 =>
    rw [readFiltered]
    rw [if_pos hr, List.mem_append]
    refine (or_congr ih2 ih1).trans ?_
    constructor
    · rintro (⟨ns, h, rfl, hp⟩ | ⟨ns, h, rfl, hp⟩)
      · exact ⟨n :: ns, .sub hr (by simp) h, by simp, hp⟩
      · exact ⟨ns, mono h, rfl, hp⟩
    · rintro ⟨ns, h, rfl, hp⟩
      cases h with
      | here h =>
        rcases List.mem_cons.mp h with h | h
        · injection h with _ h; cases h
        · exact .inr ⟨_, .here h, rfl, hp⟩
      | sub hr' h h' =>
        rcases List.mem_cons.mp h with h | h
        · injection h with h1 h2; injection h2 with h2; subst h1 h2
          exact .inl ⟨_, h', by simp, hp⟩
        · exact .inr ⟨_, .sub hr' h h', rfl, hp⟩
  | case5 base n sub es hr ih =>
    rw [readFiltered]
    rw [if_neg hr]
    refine Iff.trans ih ?_
    constructor
    · rintro ⟨ns, h, rfl, hp⟩
      exact ⟨ns, mono h, rfl, hp⟩
    · rintro ⟨ns, h, rfl, hp⟩
      cases h with
      | here h =>
        rcases List.mem_cons.mp h with h | h
        · injection h with _ h; cases h
        · exact ⟨_, .here h, rfl, hp⟩
      | sub hr' h h' => exact absurd hr' hr
  | case6 base n es ih =>
    rw [readFiltered]
    refine Iff.trans ih ?_
    constructor
    · rintro ⟨ns, h, rfl, hp⟩
      exact ⟨ns, mono h, rfl, hp⟩
    · rintro ⟨ns, h, rfl, hp⟩
      cases h with
      | here h =>
        rcases List.mem_cons.mp h with h | h
        · injection h with _ h; cases h
        · exact ⟨_, .here h, rfl, hp⟩
      | sub hr' h h' =>
        rcases List.mem_cons.mp h with h | h
        · injection h with _ h; cases h
        · exact ⟨_, .sub hr' h h', rfl, hp⟩

theorem readFiltered_prefix (recursive : Bool) (filter : Path → Bool) (base : Path) (es : List (Name × Node)) (p : Path)
    (h : p ∈ readFiltered recursive filter base es) : ∃ ns : List Name, ns ≠ [] ∧ p = base ++ ns.map .normal := by
  obtain ⟨ns, hf, rfl, _⟩ := (C38_listed recursive filter base es p).mp h
  refine ⟨ns, ?_, rfl⟩
  cases hf <;> simp

theorem mapping_ok (src dest : Path) (hd : dest ≠ []) (ns : List Name) :
    makeMapping src dest (src ++ ns.map .normal) = .ok { src := src ++ ns.map .normal, dest := dest ++ ns.map .normal } := by
  unfold makeMapping stripPrefix
  have h1 : src.isPrefixOf (src ++ ns.map .normal) = true := by simp
  rw [if_pos h1, List.drop_left]
  dsimp only
  unfold push
  have h2 : isAbs (ns.map Comp.normal) = false := by cases ns <;> simp [isAbs]
  have h3 : (ns.map Comp.normal).filter (· ≠ .cur) = ns.map .normal := by
    apply List.filter_eq_self.mpr
    intro c hc
    obtain ⟨n, _, rfl⟩ := List.mem_map.mp hc
    simp
  rw [h2, if_neg (by simp), if_neg hd, h3]

/-- **C38.** Listing a directory with its mapping never fails; it maps the listed files one for one, in order, and every one of them, at `src/x/y/…`, is
mapped to `dest/x/y/…` with the same names. -/
theorem C38_mirror (src dest : Path) (hd : dest ≠ []) (es : List (Name × Node)) (recursive : Bool) (filter : Path → Bool) :
    ∃ maps, fileList src dest es recursive filter = .ok maps
      ∧ maps.map (·.src) = readFiltered recursive filter src es
      ∧ ∀ m ∈ maps, ∃ ns : List Name, ns ≠ [] ∧ m.src = src ++ ns.map .normal ∧ m.dest = dest ++ ns.map .normal := by
  have key : ∀ l : List Path, (∀ p ∈ l, ∃ ns : List Name, ns ≠ [] ∧ p = src ++ ns.map .normal) →
      ∃ maps, l.mapM (makeMapping src dest) = .ok maps ∧ maps.map (·.src) = l
        ∧ ∀ m ∈ maps, ∃ ns : List Name, ns ≠ [] ∧ m.src = src ++ ns.map .normal ∧ m.dest = dest ++ ns.map .normal := by
    intro l
    induction l with
    | nil => exact fun _ => ⟨[], rfl, rfl, by simp⟩
    | cons p l ih =>
      intro h
      obtain ⟨maps, h1, h2, h3⟩ := ih fun q hq => h q (by simp [hq])
      obtain ⟨ns, hne, rfl⟩ := h p (by simp)
      refine ⟨{ src := src ++ ns.map .normal, dest := dest ++ ns.map .normal } :: maps, ?_, ?_, ?_⟩
      · rw [List.mapM_cons, mapping_ok src dest hd, h1]; rfl
      · simp [h2]
      · intro m hm
        rcases List.mem_cons.mp hm with rfl | hm
        · exact ⟨ns, hne, rfl, rfl⟩
        · exact h3 m hm
  exact key _ fun p hp => readFiltered_prefix recursive filter src es p hp

/-- **C38 (injective).** Files at different paths are mapped to different paths. -/
theorem C38_injective {src dest : Path} (hd : dest ≠ []) {es : List (Name × Node)} {recursive : Bool} {filter : Path → Bool} {maps : List FileMap}
    (h : fileList src dest es recursive filter = .ok maps) {a b : FileMap} (ha : a ∈ maps) (hb : b ∈ maps) (hab : a.dest = b.dest) : a = b := by
  obtain ⟨maps', h1, _, h3⟩ := C38_mirror src dest hd es recursive filter
  rw [h] at h1
  injection h1 with h1
  subst h1
  obtain ⟨ns, _, hs, hd1⟩ := h3 a ha
  obtain ⟨ms, _, hs', hd2⟩ := h3 b hb
  rw [hd1, hd2] at hab
  have := List.append_cancel_left hab
  cases a; cases b
  simp_all

theorem nodup_readFiltered (recursive : Bool) (filter : Path → Bool) (base : Path) (es : List (Name × Node)) (h : Tree es) :
    (readFiltered recursive filter base es).Nodup := by
  have head : ∀ {es ns}, FileAt recursive es ns → ∃ n ms e, e ∈ es ∧ e.1 = n ∧ ns = n :: ms := by
    intro es ns h
    cases h with
    | here h => exact ⟨_, [], _, h, rfl, rfl⟩
    | sub hr h h' => exact ⟨_, _, _, h, rfl, rfl⟩
  have notin : ∀ {base es n rest}, (∀ e ∈ es, e.1 ≠ n) → (base ++ Comp.normal n :: rest) ∉ readFiltered recursive filter base es := by
    intro base es n rest hne hm
    obtain ⟨ns, h, he, _⟩ := (C38_listed _ _ _ _ _).mp hm
    obtain ⟨m, ms, e, hm, he', rfl⟩ := head h
    have := List.append_cancel_left he
    simp only [List.map_cons, List.cons.injEq, Comp.normal.injEq] at this
    exact hne e hm (he'.trans this.1.symm)
  induction h generalizing base with
  | nil => simp [readFiltered]
  | file hne _ ih =>
    rw [readFiltered]
    split
    · exact List.nodup_cons.mpr ⟨notin hne, ih base⟩
    · exact ih base
  | other hne _ ih => rw [readFiltered]; exact ih base
  | dir hne _ _ ih1 ih2 =>
    rw [readFiltered]
    split
    · refine List.nodup_append.mpr ⟨ih1 _, ih2 base, fun a ha b hb hab => ?_⟩
      subst hab
      obtain ⟨ns, _, he, _⟩ := (C38_listed _ _ _ _ _).mp ha
      rw [he, List.append_assoc] at hb
      exact notin hne hb
    · exact ih2 base

/-- **C38 (distinct).** If, as in any file system, no directory has two entries of one name, all mapped destinations of a directory are different. -/
theorem C38_distinct {src dest : Path} (hd : dest ≠ []) {es : List (Name × Node)} (ht : Tree es) {recursive : Bool} {filter : Path → Bool}
    {maps : List FileMap} (h : fileList src dest es recursive filter = .ok maps) : (maps.map (·.dest)).Nodup := by
  obtain ⟨maps', h1, h2, _⟩ := C38_mirror src dest hd es recursive filter
  rw [h] at h1
  injection h1 with h1
  subst h1
  have hn : (maps.map (·.src)).Nodup := by rw [h2]; exact nodup_readFiltered recursive filter src es ht
  exact (List.Nodup.of_map _ hn).map_on fun a ha b hb hab => C38_injective hd h ha hb hab

/-- Non-vacuity: a tree with a nested directory, a socket and a file that is filtered out -/
def sampleTree : List (Name × Node) :=
  [("a.cr3".toList, .file), ("x".toList, .dir [("a.cr3".toList, .file), ("y".toList, .dir [("b.nef".toList, .file)]), ("n.txt".toList, .file)]),
   ("s".toList, .other)]

example : Tree sampleTree ∧ ((fileList (parse "/in".toList) (parse "/out".toList) sampleTree true
    fun p => ((fileName p).bind ext) ≠ some "txt".toList).map (·.map (·.dest)))
    = .ok [parse "/out/a.cr3".toList, parse "/out/x/a.cr3".toList, parse "/out/x/y/b.nef".toList] := by
  refine ⟨?_, by simp only [fileList, sampleTree, readFiltered, if_true]; decide +kernel⟩
  exact .file (by decide) (.dir (by decide) (.file (by decide) (.dir (by decide) (.file (by simp) .nil) (.file (by simp) .nil))) (.other (by simp) .nil))

/-! ## C36 -/

theorem splitSlash_plain {s : List Char} (h : '/' ∉ s) : splitSlash s = [s] := by
  induction s with
  | nil => rfl
  | cons c s ih =>
    rw [splitSlash, ih fun hm => h (by simp [hm])]
    have : c ≠ '/' := fun hc => h (by simp [hc])
    simp [this]

theorem parse_plain {s : List Char} (h : Plain s) : parse s = [.normal s] := by
  obtain ⟨h1, h2, h3, h4⟩ := h
  have hr : (splitSlash s).filterMap compOf = [.normal s] := by
    rw [splitSlash_plain h2]
    simp [compOf, h1, h3, h4]
  unfold parse
  rw [hr]
  dsimp only
  split
  · simp at h2
  · exact absurd rfl h3
  · simp at h2
  · rfl

theorem resolve_push (cwd : List Name) (d : Path) (n : Name) : resolve cwd (push d [.normal n]) = resolve cwd d ++ [n] := by
  unfold push
  by_cases hd : d = [] <;> simp [isAbs, hd, resolve]

/-- **C36 (partial).** If the name stored in the DNG is a plain file name, extraction into a directory writes to a file of that name directly in that
directory; for a file below the output directory of a batch, directly in the directory it is mapped to.

Missing: names that are not plain, for which the property is false (`C36_absolute_escapes`, `C36_parent_escapes`): nothing checks them. -/
theorem C36_plain_partial (cwd : List Name) (dest : Path) (orig : List Char) (h : Plain orig) :
    resolve cwd (extractOutput dest true false orig) = resolve cwd dest ++ [orig]
    ∧ resolve cwd (extractOutput dest true true orig) = resolve cwd dest ++ [orig]
    ∧ ((fileName dest).isSome → resolve cwd (extractOutput dest false true orig) = resolve cwd dest.dropLast ++ [orig])
    ∧ Below (resolve cwd dest) (resolve cwd (extractOutput dest true false orig)) := by
  have h1 : ∀ b, resolve cwd (extractOutput dest true b orig) = resolve cwd dest ++ [orig] := by
    intro b
    unfold extractOutput
    rw [if_pos rfl, parse_plain h, resolve_push]
  refine ⟨h1 _, h1 _, fun hf => ?_, [orig], by simp, h1 _⟩
  unfold extractOutput withFileName
  rw [if_neg (by simp), if_pos rfl, if_pos hf, parse_plain h, resolve_push]

/-- **C36 (counter-example).** An absolute name in the DNG replaces the chosen directory: whatever the destination is, the file is written where the name
says. -/
theorem C36_absolute_escapes (cwd : List Name) (dest : Path) :
    resolve cwd (extractOutput dest true false "/home/u/.bashrc".toList) = ["home".toList, "u".toList, ".bashrc".toList] := by
  have h : parse "/home/u/.bashrc".toList = [.root, .normal "home".toList, .normal "u".toList, .normal ".bashrc".toList] := by decide
  unfold extractOutput
  rw [if_pos rfl, h]
  rfl

/-- **C36 (counter-example).** `..` in the name leads out of the chosen directory. -/
theorem C36_parent_escapes : ¬ Below (resolve [] (parse "/data/out".toList))
    (resolve [] (extractOutput (parse "/data/out".toList) true false "../x.cr3".toList)) := by
  have h : resolve [] (extractOutput (parse "/data/out".toList) true false "../x.cr3".toList) = ["data".toList, "x.cr3".toList] := by decide +kernel
  have h' : resolve [] (parse "/data/out".toList) = ["data".toList, "out".toList] := by decide +kernel
  rw [h, h']
  rintro ⟨rest, _, he⟩
  simp at he

example : Plain "IMG_0001.CR3".toList := by
  refine ⟨?_, ?_, ?_, ?_⟩ <;> decide

end Verif.Props
