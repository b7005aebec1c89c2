import Verif.Proofs.CliJobs
import Verif.Props.CliPlan
/-! # C33-C35, C37: jobs on the file system, under every schedule and every failure -/

namespace Verif.Props
open Verif Verif.Path Verif.Cli

/-! ## C33 -/

/-- What C33 rests on: files of the run are new, and what a job works on is at its output. -/
structure NoClobberInv (ws : List Work) (first : Nat) (s : Sys) : Prop where
  wf : ∀ p i, s.fs.dir p = some i → i < s.fs.next
  next : first ≤ s.fs.next
  held : ∀ n i w, holds (s.pc n) = some i → ws[n]? = some w → s.fs.dir w.output = some i ∧ first ≤ i
  out : ∀ n, ws[n]? = none → s.pc n = .start
  norem : ∀ n, s.pc n ≠ .removing
  uniq : ∀ n m i, holds (s.pc n) = some i → holds (s.pc m) = some i → n = m

theorem dng_holds (w : Work) (c : Choice) (pc : Pc) (fs : Fs) (i : Nat) (h : holds (dngStep w c pc fs).1 = some i) : holds pc = some i ∨ i = fs.next := by
  cases pc with
  | start => unfold dngStep at h; dsimp only at h; split at h <;> cases h
  | removing => unfold dngStep at h; dsimp only at h; split at h <;> cases h
  | creating =>
    unfold dngStep at h
    dsimp only at h
    split at h
    · cases h
    · simp only [holds, Option.some.injEq] at h; exact .inr h.symm
  | locking j => unfold dngStep at h; dsimp only at h; split at h <;> first | cases h; done | exact .inl h
  | reading j =>
    unfold dngStep at h
    dsimp only at h
    split at h
    · exact .inl h
    · split at h <;> exact .inl h
  | writing j res =>
    unfold dngStep at h
    dsimp only at h
    split at h
    · exact .inl h
    · exact .inl h
    · exact .inl h
    · split at h <;> exact .inl h
  | flushing j full => unfold dngStep at h; dsimp only at h; split at h <;> first | cases h; done | exact .inl h
  | mtime j => unfold dngStep at h; dsimp only at h; split at h <;> cases h
  | cleanup j => unfold dngStep at h; dsimp only at h; split at h <;> cases h
  | done b => cases h

theorem dng_frame {ws : List Work} {first : Nat} {s : Sys} (h : NoClobberInv ws first s) {n : Nat} {w : Work} (hw : ws[n]? = some w) (hr : w.replace = false)
    (c : Choice) :
    (∀ p k, s.fs.dir p = some k → holds (s.pc n) ≠ some k →
      (dngStep w c (s.pc n) s.fs).2.1.dir p = some k ∧ (dngStep w c (s.pc n) s.fs).2.1.data k = s.fs.data k)
    ∧ (∀ p i, (dngStep w c (s.pc n) s.fs).2.1.dir p = some i → i < (dngStep w c (s.pc n) s.fs).2.1.next)
    ∧ first ≤ (dngStep w c (s.pc n) s.fs).2.1.next
    ∧ (∀ i, holds (dngStep w c (s.pc n) s.fs).1 = some i → (dngStep w c (s.pc n) s.fs).2.1.dir w.output = some i ∧ first ≤ i)
    ∧ (dngStep w c (s.pc n) s.fs).1 ≠ .removing := by
  have hh := h.held n
  have same : (∀ p k, s.fs.dir p = some k → holds (s.pc n) ≠ some k → s.fs.dir p = some k ∧ s.fs.data k = s.fs.data k)
      ∧ (∀ p i, s.fs.dir p = some i → i < s.fs.next) ∧ first ≤ s.fs.next := ⟨fun p k hp _ => ⟨hp, rfl⟩, h.wf, h.next⟩
  cases hpc : s.pc n with
  | start =>
    unfold dngStep
    dsimp only
    rw [if_neg (by rw [hr]; simp)]
    dsimp only
    exact ⟨fun p k hp _ => ⟨hp, rfl⟩, h.wf, h.next, fun i hi => (nomatch hi), fun e => nomatch e⟩
  | removing => exact absurd hpc (h.norem n)
  | creating =>
    unfold dngStep
    dsimp only
    split
    · exact ⟨fun p k hp _ => ⟨hp, rfl⟩, h.wf, h.next, fun i hi => (nomatch hi), fun e => nomatch e⟩
    · rename_i hc
      have hnone : s.fs.dir w.output = none := by
        cases hd : s.fs.dir w.output with
        | none => rfl
        | some i => exact absurd (Or.inr (by rw [hd]; simp)) hc
      refine ⟨fun p k hp _ => ?_, fun p i hp => ?_, ?_, fun i hi => ?_, fun e => nomatch e⟩
      · have hne : p ≠ w.output := fun e => by rw [e, hnone] at hp; cases hp
        have := h.wf p k hp
        have hk : k ≠ s.fs.next := by omega
        exact ⟨by simp [Fs.create, hne, hp], by simp [Fs.create, hk]⟩
      · show i < s.fs.next + 1
        by_cases e : p = w.output
        · simp [Fs.create, e] at hp; omega
        · have := h.wf p i (by simpa [Fs.create, e] using hp); omega
      · have := h.next
        show first ≤ s.fs.next + 1
        omega
      · have hi' : s.fs.next = i := by simpa [holds] using hi
        exact ⟨by simp [Fs.create, hi'], hi' ▸ h.next⟩
  | locking i =>
    obtain ⟨h1, h2⟩ := hh i w (by rw [hpc]; rfl) hw
    unfold dngStep
    dsimp only
    split
    · exact ⟨fun p k hp _ => ⟨hp, rfl⟩, h.wf, h.next, fun i hi => (nomatch hi), fun e => nomatch e⟩
    · refine ⟨fun p k hp _ => ⟨hp, rfl⟩, h.wf, h.next, fun j hj => ?_, fun e => nomatch e⟩
      simp only [holds, Option.some.injEq] at hj
      exact hj ▸ ⟨h1, h2⟩
  | reading i =>
    obtain ⟨h1, h2⟩ := hh i w (by rw [hpc]; rfl) hw
    unfold dngStep
    dsimp only
    split
    · refine ⟨fun p k hp _ => ⟨hp, rfl⟩, h.wf, h.next, fun j hj => ?_, fun e => nomatch e⟩
      simp only [holds, Option.some.injEq] at hj
      exact hj ▸ ⟨h1, h2⟩
    · split <;>
      · refine ⟨fun p k hp _ => ⟨hp, rfl⟩, h.wf, h.next, fun j hj => ?_, fun e => nomatch e⟩
        simp only [holds, Option.some.injEq] at hj
        exact hj ▸ ⟨h1, h2⟩
  | writing i res =>
    obtain ⟨h1, h2⟩ := hh i w (by rw [hpc]; rfl) hw
    unfold dngStep
    dsimp only
    split
    · refine ⟨fun p k hp hk => ⟨hp, ?_⟩, h.wf, h.next, fun j hj => ?_, fun e => nomatch e⟩
      · have : k ≠ i := fun e => hk (by rw [e]; rfl)
        simp [Fs.write, this]
      · simp only [holds, Option.some.injEq] at hj
        exact hj ▸ ⟨h1, h2⟩
    · refine ⟨fun p k hp _ => ⟨hp, rfl⟩, h.wf, h.next, fun j hj => ?_, fun e => nomatch e⟩
      simp only [holds, Option.some.injEq] at hj
      exact hj ▸ ⟨h1, h2⟩
    · refine ⟨fun p k hp _ => ⟨hp, rfl⟩, h.wf, h.next, fun j hj => ?_, fun e => nomatch e⟩
      simp only [holds, Option.some.injEq] at hj
      exact hj ▸ ⟨h1, h2⟩
    · split <;>
      · refine ⟨fun p k hp _ => ⟨hp, rfl⟩, h.wf, h.next, fun j hj => ?_, fun e => nomatch e⟩
        simp only [holds, Option.some.injEq] at hj
        exact hj ▸ ⟨h1, h2⟩
  | flushing i full =>
    obtain ⟨h1, h2⟩ := hh i w (by rw [hpc]; rfl) hw
    unfold dngStep
    dsimp only
    split
    · exact ⟨fun p k hp _ => ⟨hp, rfl⟩, h.wf, h.next, fun i hi => (nomatch hi), fun e => nomatch e⟩
    · refine ⟨fun p k hp hk => ⟨hp, ?_⟩, h.wf, h.next, fun j hj => ?_, fun e => nomatch e⟩
      · have : k ≠ i := fun e => hk (by rw [e]; rfl)
        simp [Fs.write, this]
      · simp only [holds, Option.some.injEq] at hj
        exact hj ▸ ⟨h1, h2⟩
  | mtime i =>
    unfold dngStep
    dsimp only
    split <;> exact ⟨fun p k hp _ => ⟨hp, rfl⟩, h.wf, h.next, fun i hi => (nomatch hi), fun e => nomatch e⟩
  | cleanup i =>
    obtain ⟨h1, h2⟩ := hh i w (by rw [hpc]; rfl) hw
    unfold dngStep
    dsimp only
    split
    · exact ⟨fun p k hp _ => ⟨hp, rfl⟩, h.wf, h.next, fun i hi => (nomatch hi), fun e => nomatch e⟩
    · refine ⟨fun p k hp hk => ⟨?_, rfl⟩, fun p i hp => ?_, h.next, fun i hi => (nomatch hi), fun e => nomatch e⟩
      · have hne : p ≠ w.output := fun e => hk (by rw [e, h1] at hp; injection hp with hp; rw [hp]; rfl)
        simp [Fs.unlink, Fs.setDir, hne, hp]
      · by_cases e : p = w.output
        · simp [Fs.unlink, Fs.setDir, e] at hp
        · exact h.wf p i (by simpa [Fs.unlink, Fs.setDir, e] using hp)
  | done b => exact ⟨fun p k hp _ => ⟨hp, rfl⟩, h.wf, h.next, fun i hi => (nomatch hi), fun e => nomatch e⟩

/-- All jobs convert to DNG without `--override`. -/
def Careful (ws : List Work) : Prop := ∀ w ∈ ws, w.kind = .dng ∧ w.replace = false

theorem NoClobberInv.job {ws : List Work} (hk : Careful ws) {first : Nat} {s : Sys} (h : NoClobberInv ws first s) (n : Nat) (c : Choice) :
    NoClobberInv ws first (sysStep ws s (.job n c)) ∧
      ∀ p k, s.fs.dir p = some k → holds (s.pc n) ≠ some k →
        (sysStep ws s (.job n c)).fs.dir p = some k ∧ (sysStep ws s (.job n c)).fs.data k = s.fs.data k := by
  unfold sysStep
  dsimp only
  cases hw : ws[n]? with
  | none => exact ⟨h, fun p k hp _ => ⟨hp, rfl⟩⟩
  | some w =>
    dsimp only
    split
    · exact ⟨h, fun p k hp _ => ⟨hp, rfl⟩⟩
    · obtain ⟨hkind, hrep⟩ := hk w (List.mem_of_getElem? hw)
      have hj : jobStep w c (s.pc n) s.fs = dngStep w c (s.pc n) s.fs := by simp [jobStep, hkind]
      rw [hj]
      obtain ⟨h1, h2, h3, h4, h5⟩ := dng_frame h hw hrep c
      refine ⟨⟨h2, h3, fun m i v hm hv => ?_, fun m hm => ?_, fun m => ?_, ?_⟩, h1⟩
      · dsimp only at hm
        by_cases e : m = n
        · subst e
          rw [if_pos rfl] at hm
          rw [hw] at hv
          injection hv with hv
          subst hv
          exact h4 i hm
        · rw [if_neg e] at hm
          obtain ⟨ho, hi⟩ := h.held m i v hm hv
          refine ⟨?_, hi⟩
          exact (h1 _ _ ho fun e' => e (h.uniq m n i hm e')).1
      · dsimp only
        have : m ≠ n := fun e => by rw [e, hw] at hm; cases hm
        rw [if_neg this]
        exact h.out m hm
      · dsimp only
        split
        · exact h5
        · exact h.norem m
      · have fresh : ∀ l i, holds (s.pc l) = some i → i ≠ s.fs.next := by
          intro l i hl
          cases hv : ws[l]? with
          | none => rw [h.out l hv] at hl; cases hl
          | some v => have := h.wf _ _ (h.held l i v hl hv).1; omega
        intro m l i hm hl
        dsimp only at hm hl
        split at hm <;> split at hl
        · rename_i e e'; rw [e, e']
        · rename_i e e'
          rcases dng_holds _ _ _ _ _ hm with h' | h'
          · exact e.trans (h.uniq n l i h' hl)
          · exact absurd h' (fresh l i hl)
        · rename_i e e'
          rcases dng_holds _ _ _ _ _ hl with h' | h'
          · exact (h.uniq m n i hm h').trans e'.symm
          · exact absurd h' (fresh m i hm)
        · exact h.uniq m l i hm hl

theorem NoClobberInv.env {ws : List Work} {first : Nat} {s : Sys} (h : NoClobberInv ws first s) (op : EnvOp)
    (hp : match op with
      | .unlink p => ¬ InWork s p
      | .rename p q => ¬ InWork s p ∧ ¬ InWork s q
      | _ => True) : NoClobberInv ws first (sysStep ws s (.env op)) := by
  have keep : ∀ fs' : Fs, (∀ p i, fs'.dir p = some i → i < fs'.next) → s.fs.next ≤ fs'.next →
      (∀ p, InWork s p → fs'.dir p = s.fs.dir p) → NoClobberInv ws first { s with fs := fs' } := by
    intro fs' h1 h2 h3
    refine ⟨h1, Nat.le_trans h.next h2, fun n i w hn hw => ?_, h.out, h.norem, h.uniq⟩
    obtain ⟨ho, hi⟩ := h.held n i w hn hw
    exact ⟨(h3 _ ⟨n, i, hn, ho⟩).trans ho, hi⟩
  have set_wf : ∀ (fs : Fs) (p : Path) (v : Option Nat), (∀ q i, fs.dir q = some i → i < fs.next) → (∀ i, v = some i → i < fs.next) →
      ∀ q i, (fs.setDir p v).dir q = some i → i < (fs.setDir p v).next := by
    intro fs p v h1 h2 q i hq
    by_cases e : q = p
    · exact h2 i (by simpa [Fs.setDir, e] using hq)
    · exact h1 q i (by simpa [Fs.setDir, e] using hq)
  unfold sysStep
  dsimp only
  cases op with
  | create p =>
    unfold envStep
    dsimp only
    split
    · rename_i hn
      refine keep _ (fun q i hq => ?_) (Nat.le_succ _) fun q hq => ?_
      · show i < s.fs.next + 1
        by_cases e : q = p
        · simp [Fs.create, e] at hq; omega
        · have := h.wf q i (by simpa [Fs.create, e] using hq); omega
      · obtain ⟨_, i, _, hi⟩ := hq
        have : q ≠ p := fun e => by rw [e, hn] at hi; cases hi
        simp [Fs.create, this]
    · exact keep _ h.wf (Nat.le_refl _) fun _ _ => rfl
  | put p c =>
    unfold envStep
    dsimp only
    split
    · exact keep _ h.wf (Nat.le_refl _) fun _ _ => rfl
    · exact keep _ h.wf (Nat.le_refl _) fun _ _ => rfl
  | unlink p =>
    refine keep _ (set_wf _ _ _ h.wf (by simp)) (Nat.le_refl _) fun q hq => ?_
    have : q ≠ p := fun e => hp (e ▸ hq)
    simp [envStep, Fs.unlink, Fs.setDir, this]
  | rename p q =>
    unfold envStep
    dsimp only
    split
    · exact keep _ h.wf (Nat.le_refl _) fun _ _ => rfl
    · rename_i i hi
      refine keep _ (set_wf _ _ _ (set_wf _ _ _ h.wf (by simp)) fun j hj => ?_) (Nat.le_refl _) fun r hr => ?_
      · injection hj with hj
        exact hj ▸ h.wf p i hi
      · have h1 : r ≠ p := fun e => hp.1 (e ▸ hr)
        have h2 : r ≠ q := fun e => hp.2 (e ▸ hr)
        simp [Fs.setDir, h1, h2]

theorem NoClobberInv.run {ws : List Work} (hk : Careful ws) {first : Nat} {es : List Event} {s : Sys} (h : NoClobberInv ws first s) (hp : Polite ws s es) :
    NoClobberInv ws first (runSys ws s es) := by
  induction es generalizing s with
  | nil => exact h
  | cons e es ih =>
    refine ih ?_ hp.2
    cases e with
    | job n c => exact (h.job hk n c).1
    | env op => exact h.env op (by have := hp.1; cases op <;> exact this)

/-- Every directory entry of a file system leads to a file that exists. -/
def FsWf (fs : Fs) : Prop := ∀ p i, fs.dir p = some i → i < fs.next

theorem NoClobberInv.init {ws : List Work} {fs : Fs} (h : FsWf fs) : NoClobberInv ws fs.next (initSys fs) :=
  ⟨h, Nat.le_refl _, fun _ _ _ hn _ => (nomatch hn), fun _ _ => rfl, fun _ => fun h => (nomatch h), fun _ _ _ h _ => (nomatch h)⟩

/-- **C33.** Take any file system, any set of conversions without override - the outputs may even coincide with each other or with inputs - and any
schedule of their steps, with any failures, interleaved with any actions of other processes that leave alone what the jobs are working on. Whenever a
job makes a step, every file that was there before the run started, and is still there, keeps its place and its content. -/
theorem C33_existing (ws : List Work) (hk : Careful ws) (fs0 : Fs) (hf : FsWf fs0) (es : List Event) (hp : Polite ws (initSys fs0) es) (n : Nat) (c : Choice)
    (p : Path) (k : Nat) (hk0 : k < fs0.next) (hd : (runSys ws (initSys fs0) es).fs.dir p = some k) :
    (sysStep ws (runSys ws (initSys fs0) es) (.job n c)).fs.dir p = some k ∧
    (sysStep ws (runSys ws (initSys fs0) es) (.job n c)).fs.data k = (runSys ws (initSys fs0) es).fs.data k := by
  have h := (NoClobberInv.init (ws := ws) hf).run hk hp
  refine (h.job hk n c).2 p k hd fun hh => ?_
  cases hw : ws[n]? with
  | none => rw [h.out n hw] at hh; cases hh
  | some w =>
    have := (h.held n k w hh hw).2
    omega

/-- **C33 (files made meanwhile).** A step of a job changes no other file either, whoever made it and whenever: only the one this job itself has created. -/
theorem C33_only_own (ws : List Work) (hk : Careful ws) (fs0 : Fs) (hf : FsWf fs0) (es : List Event) (hp : Polite ws (initSys fs0) es) (n : Nat) (c : Choice)
    (p : Path) (k : Nat) (hd : (runSys ws (initSys fs0) es).fs.dir p = some k) (ho : holds ((runSys ws (initSys fs0) es).pc n) ≠ some k) :
    (sysStep ws (runSys ws (initSys fs0) es) (.job n c)).fs.dir p = some k ∧
    (sysStep ws (runSys ws (initSys fs0) es) (.job n c)).fs.data k = (runSys ws (initSys fs0) es).fs.data k :=
  (((NoClobberInv.init (ws := ws) hf).run hk hp).job hk n c).2 p k hd ho

theorem polite_jobs {ws : List Work} {es : List Event} (hj : JobsOnly es) (s : Sys) : Polite ws s es := by
  induction es generalizing s with
  | nil => trivial
  | cons e es ih =>
    obtain ⟨n, c, rfl⟩ := hj e (by simp)
    exact ⟨trivial, ih (fun e he => hj e (by simp [he])) _⟩

/-- **C33 (whole run).** A run of conversions without override leaves every file that existed at the start in place with its content. -/
theorem C33_run (ws : List Work) (hk : Careful ws) (fs0 : Fs) (hf : FsWf fs0) (es : List Event) (hj : JobsOnly es) (p : Path) (h0 : fs0.dir p ≠ none) :
    Same fs0 (runSys ws (initSys fs0) es).fs p := by
  have key : ∀ es, JobsOnly es → ∀ s, NoClobberInv ws fs0.next s → (∃ k, k < fs0.next ∧ fs0.dir p = some k ∧ s.fs.dir p = some k ∧ s.fs.data k = fs0.data k) →
      ∃ k, k < fs0.next ∧ fs0.dir p = some k ∧ (runSys ws s es).fs.dir p = some k ∧ (runSys ws s es).fs.data k = fs0.data k := by
    intro es
    induction es with
    | nil => exact fun _ _ _ h => h
    | cons e es ih =>
      intro hj s hs ⟨k, hk0, h0, h1, h2⟩
      obtain ⟨n, c, rfl⟩ := hj e (by simp)
      obtain ⟨hs', hfr⟩ := hs.job hk n c
      refine ih (fun e he => hj e (by simp [he])) _ hs' ⟨k, hk0, h0, ?_⟩
      have := hfr p k h1 fun hh => by
        cases hw : ws[n]? with
        | none => rw [hs.out n hw] at hh; cases hh
        | some w =>
          have := (hs.held n k w hh hw).2
          omega
      exact ⟨this.1, this.2.trans h2⟩
  obtain ⟨k, hk⟩ := Option.ne_none_iff_exists'.mp h0
  obtain ⟨k', _, h1, h2, h3⟩ := key es hj (initSys fs0) (NoClobberInv.init hf) ⟨k, hf p k hk, hk, hk, rfl⟩
  exact ⟨h2.trans h1.symm, by simp [Fs.content, h1, h2, h3]⟩

/-! ### Sample file system and jobs -/

/-- One file `/in` with content `[7]` and one file `/old` with content `[9]` -/
def sampleFs : Fs :=
  { dir := fun p => if p = [.normal "in".toList] then some 0 else if p = [.normal "old".toList] then some 1 else none,
    data := fun i => if i = 0 then [7] else if i = 1 then [9] else [], next := 2 }

/-- A conversion of `/in` that yields `[1, 2]`; files that do not start with `7` cannot be read. -/
def sampleWork (kind : Kind) (replace : Bool) (output : String) : Work :=
  { kind := kind, input := [.normal "in".toList], output := [.normal output.toList], replace := replace,
    conv := fun b => if b = [7] then some [1, 2] else none }

theorem sampleFs_ok : FsOk sampleFs := by
  refine ⟨fun p i h => ?_, fun p q i hp hq => ?_⟩
  · simp only [sampleFs] at h ⊢
    split at h
    · injection h; omega
    · split at h
      · injection h; omega
      · cases h
  · simp only [sampleFs] at hp hq
    split at hp <;> split at hq
    · simp_all
    · split at hq <;> simp_all <;> omega
    · split at hp <;> simp_all <;> omega
    · split at hp <;> split at hq <;> simp_all

/-- All steps of job `n` when everything works -/
def allOk (n : Nat) : List Event := List.replicate 10 (.job n .ok)

/-- Non-vacuity of C33: a job that ends at an existing file, and one that creates a new one. -/
example : Careful [sampleWork .dng false "old", sampleWork .dng false "new"] ∧ FsWf sampleFs ∧ JobsOnly (allOk 0 ++ allOk 1)
    ∧ (runSys [sampleWork .dng false "old", sampleWork .dng false "new"] (initSys sampleFs) (allOk 0 ++ allOk 1)).pc 0 = .done false
    ∧ (runSys [sampleWork .dng false "old", sampleWork .dng false "new"] (initSys sampleFs) (allOk 0 ++ allOk 1)).pc 1 = .done true
    ∧ (runSys [sampleWork .dng false "old", sampleWork .dng false "new"] (initSys sampleFs) (allOk 0 ++ allOk 1)).fs.content [.normal "new".toList]
      = some [1, 2] := by
  refine ⟨?_, sampleFs_ok.1, ?_, by decide, by decide, by decide⟩
  · intro w hw
    simp only [List.mem_cons, List.not_mem_nil, or_false] at hw
    rcases hw with rfl | rfl <;> exact ⟨rfl, rfl⟩
  · intro e he
    simp only [allOk, List.mem_append, List.mem_replicate] at he
    rcases he with ⟨_, rfl⟩ | ⟨_, rfl⟩ <;> exact ⟨_, _, rfl⟩

/-- **C33 (limit).** The restriction on other processes is needed: if another process moves a file onto the output of a running conversion, and the
conversion then fails, its cleanup removes that file. -/
theorem C33_rename_race :
    let s := runSys [sampleWork .dng false "new"] (initSys sampleFs)
      ([.job 0 .ok, .job 0 .ok, .job 0 .ok, .env (.rename [.normal "old".toList] [.normal "new".toList]), .job 0 .fail, .job 0 .ok])
    sampleFs.content [.normal "old".toList] = some [9] ∧ s.pc 0 = .done false
      ∧ s.fs.content [.normal "old".toList] = none ∧ s.fs.content [.normal "new".toList] = none := by decide

/-- **C33 (developing).** Development to TIFF has no such guarantee: it looks whether the output exists and then creates it. A file that another process
puts there in between is overwritten. -/
theorem C33_develop_race :
    let s := runSys [sampleWork .tif false "new"] (initSys sampleFs)
      ([.job 0 .ok, .env (.rename [.normal "old".toList] [.normal "new".toList])] ++ allOk 0)
    s.pc 0 = .done true ∧ s.fs.dir [.normal "new".toList] = some 1 ∧ sampleFs.data 1 = [9] ∧ s.fs.data 1 = [1, 2] := by decide

/-! ## C34, C35, C37 -/

/-- **C34 (success).** In a run of jobs with distinct outputs, none of them an input: under every schedule and every combination of failures, every job
that reports success has at its output the complete result for the content its input had at the start. -/
theorem C34_success (ws : List Work) (hd : Distinct ws) (ha : Apart ws) (fs0 : Fs) (hf : FsOk fs0) (es : List Event) (hj : JobsOnly es) (n : Nat) (w : Work)
    (hw : ws[n]? = some w) (hdone : (runSys ws (initSys fs0) es).pc n = .done true) :
    ∃ b full, fs0.content w.input = some b ∧ w.conv b = some full ∧ (runSys ws (initSys fs0) es).fs.content w.output = some full := by
  have h := (GInv.run hd ha hj (GInv.init hf)).jobs n w hw
  rw [hdone] at h
  exact h

/-- **C34 (failure, partial).** A job of such a run that reports failure leaves nothing of its own: at its output there is no file, or the one that was
there before the run, unchanged - provided that no job panics and the lock, the final flush, the time stamp and the removal itself do not fail.

Missing: those failures, for which the claim is false (`C34_lock_leaves_file`, `C34_flush_leaves_file`, `C34_mtime_leaves_file`, `C34_panic_leaves_file`). -/
theorem C34_failure_partial (ws : List Work) (hd : Distinct ws) (ha : Apart ws) (fs0 : Fs) (hf : FsOk fs0) (es : List Event) (hj : JobsOnly es)
    (hc : Clean ws (initSys fs0) es) (n : Nat) (w : Work) (hw : ws[n]? = some w) (hdone : (runSys ws (initSys fs0) es).pc n = .done false) :
    Same fs0 (runSys ws (initSys fs0) es).fs w.output ∨ (runSys ws (initSys fs0) es).fs.dir w.output = none := by
  have h := (GInv.run hd ha hj (GInv.init hf)).jobs n w hw
  rw [hdone] at h
  exact h hc

/-- Non-vacuity: two jobs run alternately; one succeeds, the other's conversion fails after some bytes were written. -/
def sampleMix : List Event :=
  [.job 0 .ok, .job 1 .ok, .job 1 .ok, .job 0 .ok, .job 0 .ok, .job 1 .ok, .job 1 .ok, .job 1 (.put [1]), .job 0 .ok, .job 1 .fail, .job 0 (.put [5]),
   .job 0 .ok, .job 1 .ok, .job 0 .ok, .job 0 .ok, .job 0 .ok]

example :
    let ws := [sampleWork .dng false "a", sampleWork .dng true "old"]
    let s := runSys ws (initSys sampleFs) sampleMix
    s.pc 0 = .done true ∧ s.fs.content [.normal "a".toList] = some [1, 2]
      ∧ s.pc 1 = .done false ∧ s.fs.content [.normal "old".toList] = none ∧ Clean ws (initSys sampleFs) sampleMix := by
  exact ⟨by decide, by decide, by decide, by decide, by decide⟩

/-- **C34 (counter-example).** If the new file cannot be locked the job reports failure and leaves it, empty. -/
theorem C34_lock_leaves_file :
    let s := runSys [sampleWork .dng false "new"] (initSys sampleFs) [.job 0 .ok, .job 0 .ok, .job 0 .fail]
    s.pc 0 = .done false ∧ s.fs.content [.normal "new".toList] = some [] := by decide

/-- **C34 (counter-example).** If the last bytes cannot be written - the disk is full - the job reports failure and leaves a truncated DNG. -/
theorem C34_flush_leaves_file :
    let s := runSys [sampleWork .dng false "new"] (initSys sampleFs) [.job 0 .ok, .job 0 .ok, .job 0 .ok, .job 0 .ok, .job 0 (.put [1]), .job 0 .ok, .job 0 .fail]
    s.pc 0 = .done false ∧ s.fs.content [.normal "new".toList] = some [1] := by decide

/-- **C34 (counter-example).** If the time stamp cannot be set the job reports failure and leaves the DNG. -/
theorem C34_mtime_leaves_file :
    let s := runSys [sampleWork .dng false "new"] (initSys sampleFs) [.job 0 .ok, .job 0 .ok, .job 0 .ok, .job 0 .ok, .job 0 .ok, .job 0 .ok, .job 0 .fail]
    s.pc 0 = .done false ∧ s.fs.content [.normal "new".toList] = some [1, 2] := by decide

/-- **C34 (counter-example).** A panic in one conversion aborts the process: its own output and that of another job in work stay behind incomplete. -/
theorem C34_panic_leaves_file :
    let s := runSys [sampleWork .dng false "new", sampleWork .dng false "b"] (initSys sampleFs)
      [.job 1 .ok, .job 1 .ok, .job 0 .ok, .job 0 .ok, .job 0 .ok, .job 0 .ok, .job 0 (.put [1]), .job 0 .panic, .job 1 .ok]
    s.aborted = true ∧ s.fs.content [.normal "new".toList] = some [1] ∧ s.fs.content [.normal "b".toList] = some [] := by decide

/-- **C35 (partial).** If no output of the run is one of its inputs, then under every schedule and every combination of failures all inputs - and all other
files that are not outputs - stay in place with their content.

Missing: an output that is the input itself, for which the claim is false (`C35_override_destroys_source`, `C35_planned_onto_source`). -/
theorem C35_apart_partial (ws : List Work) (hd : Distinct ws) (ha : Apart ws) (fs0 : Fs) (hf : FsOk fs0) (es : List Event) (hj : JobsOnly es) :
    (∀ w ∈ ws, Same fs0 (runSys ws (initSys fs0) es).fs w.input)
    ∧ ∀ p, (∀ w ∈ ws, w.output ≠ p) → Same fs0 (runSys ws (initSys fs0) es).fs p := by
  have h := (GInv.run hd ha hj (GInv.init hf)).frame
  exact ⟨fun w hw => h _ fun v hv e => ha w hw v hv e.symm, h⟩

/-- **C35 (without override).** Without override the sources of conversions are safe in any case, also if an output is an input. -/
theorem C35_careful (ws : List Work) (hk : Careful ws) (fs0 : Fs) (hf : FsWf fs0) (es : List Event) (hj : JobsOnly es) (w : Work)
    (h0 : fs0.dir w.input ≠ none) : Same fs0 (runSys ws (initSys fs0) es).fs w.input := C33_run ws hk fs0 hf es hj w.input h0

/-- **C35 (counter-example).** With override and the output being the input, the job removes its source, then fails to read it, and leaves nothing. -/
theorem C35_override_destroys_source :
    let s := runSys [sampleWork .dng true "in"] (initSys sampleFs) (allOk 0)
    sampleFs.content [.normal "in".toList] = some [7] ∧ s.pc 0 = .done false ∧ s.fs.content [.normal "in".toList] = none := by decide

/-- **C35 (counter-example, planning).** Such a job is planned when a DNG is converted into its own directory. -/
theorem C35_planned_onto_source :
    planConvert false 0 [{ map := { src := parse "/d/a.dng".toList, dest := parse "/d".toList }, destIsDir := true, count := .ok 1 }] []
      = .ok [{ input := parse "/d/a.dng".toList, output := parse "/d/a.dng".toList, index := 0 }] := by decide +kernel

/-- **C37 (partial).** When several raws are developed to different files, none of them an input, every job that reports success has its own complete
result in its output at the end, under every schedule and all failures.

Missing: outputs that coincide, for which the claim is false (`C37_same_output_planned`, `C37_result_lost`). -/
theorem C37_distinct_partial (ws : List Work) (_hk : ∀ w ∈ ws, w.kind = .tif) (hd : Distinct ws) (ha : Apart ws) (fs0 : Fs) (hf : FsOk fs0) (es : List Event)
    (hj : JobsOnly es) (n : Nat) (w : Work) (hw : ws[n]? = some w) (hdone : (runSys ws (initSys fs0) es).pc n = .done true) :
    ∃ b full, fs0.content w.input = some b ∧ w.conv b = some full ∧ (runSys ws (initSys fs0) es).fs.content w.output = some full :=
  C34_success ws hd ha fs0 hf es hj n w hw hdone

/-- **C37 (counter-example, planning).** Two raws that differ in the extension only are given the same output, and so are files already named alike. -/
theorem C37_same_output_planned :
    (planTif false 0
      [{ map := { src := parse "/d/a.CR2".toList, dest := parse "/o/a.CR2".toList }, destIsDir := false, count := .ok 1 },
       { map := { src := parse "/d/a.NEF".toList, dest := parse "/o/a.NEF".toList }, destIsDir := false, count := .ok 1 }]).map (·.map (·.output))
      = .ok [parse "/o/a.tif".toList, parse "/o/a.tif".toList] := by decide +kernel

/-- **C37 (counter-example).** Two such jobs can both report success although only one result exists in the end: without override, since both look for the
output before either creates it. -/
theorem C37_result_lost :
    let w2 : Work := { sampleWork .tif false "a" with input := [.normal "old".toList], conv := fun _ => some [3, 4] }
    let s := runSys [sampleWork .tif false "a", w2] (initSys sampleFs) ([.job 0 .ok, .job 1 .ok] ++ allOk 0 ++ allOk 1)
    s.pc 0 = .done true ∧ s.pc 1 = .done true ∧ s.fs.content [.normal "a".toList] = some [3, 4] := by decide

example :
    let ws := [sampleWork .tif true "a", sampleWork .tif true "old"]
    let s := runSys ws (initSys sampleFs) ([.job 1 .ok, .job 0 .ok, .job 1 .ok, .job 1 .ok, .job 1 (.put [8])] ++ allOk 0 ++ allOk 1)
    s.pc 0 = .done true ∧ s.pc 1 = .done true ∧ s.fs.content [.normal "a".toList] = some [1, 2]
      ∧ s.fs.content [.normal "old".toList] = some [1, 2] := by decide

example : Distinct [sampleWork .tif true "a", sampleWork .dng true "old"] ∧ Apart [sampleWork .tif true "a", sampleWork .dng true "old"] := by
  constructor
  · intro n m w v hn hm h
    match n, m with
    | 0, 0 => rfl
    | 1, 1 => rfl
    | 0, 1 => simp at hn hm; subst hn hm; exact absurd h (by decide)
    | 1, 0 => simp at hn hm; subst hn hm; exact absurd h (by decide)
    | 0, k + 2 => simp at hm
    | 1, k + 2 => simp at hm
    | k + 2, _ => simp at hn
  · intro w hw v hv
    simp only [List.mem_cons, List.not_mem_nil, or_false] at hw hv
    rcases hw with rfl | rfl <;> rcases hv with rfl | rfl <;> decide

end Verif.Props
