import Verif.Spec.CliJobs
import Mathlib.Tactic.Tauto
/-! # Invariants of concurrent jobs -/

namespace Verif.Cli
open Verif Verif.Path

/-- `p` names the same file with the same content. -/
def Agree (fs fs' : Fs) (p : Path) : Prop := fs'.dir p = fs.dir p ∧ ∀ i, fs.dir p = some i → fs'.data i = fs.data i

theorem Agree.same {fs fs' : Fs} {p : Path} (h : Agree fs fs' p) : Same fs fs' p := by
  refine ⟨h.1, ?_⟩
  unfold Fs.content
  rw [h.1]
  cases hd : fs.dir p with
  | none => rfl
  | some i => simp [h.2 i hd]

theorem Agree.refl (fs : Fs) (p : Path) : Agree fs fs p := ⟨rfl, fun _ _ => rfl⟩

/-- Only the file at `out` may have changed. -/
def Upd (fs fs' : Fs) (out : Path) : Prop := FsOk fs' ∧ ∀ p, p ≠ out → Agree fs fs' p

theorem Upd.refl {fs : Fs} (h : FsOk fs) (out : Path) : Upd fs fs out := ⟨h, fun p _ => Agree.refl fs p⟩

theorem upd_write {fs : Fs} (h : FsOk fs) {out : Path} {i : Nat} (ho : fs.dir out = some i) (d : List Nat) : Upd fs (fs.write i d) out := by
  refine ⟨h, fun p hp => ⟨rfl, fun k hk => ?_⟩⟩
  have : k ≠ i := fun e => hp (h.2 p out i (e ▸ hk) ho)
  simp [Fs.write, this]

theorem upd_unlink {fs : Fs} (h : FsOk fs) (out : Path) : Upd fs (fs.unlink out) out := by
  refine ⟨⟨fun p i hp => ?_, fun p q i hp hq => ?_⟩, fun p hp => ⟨by simp [Fs.unlink, Fs.setDir, hp], fun _ _ => rfl⟩⟩
  · by_cases e : p = out
    · simp [Fs.unlink, Fs.setDir, e] at hp
    · exact h.1 p i (by simpa [Fs.unlink, Fs.setDir, e] using hp)
  · by_cases e : p = out
    · simp [Fs.unlink, Fs.setDir, e] at hp
    · by_cases e' : q = out
      · simp [Fs.unlink, Fs.setDir, e'] at hq
      · exact h.2 p q i (by simpa [Fs.unlink, Fs.setDir, e] using hp) (by simpa [Fs.unlink, Fs.setDir, e'] using hq)

theorem unlink_dir (fs : Fs) (out : Path) : (fs.unlink out).dir out = none := by simp [Fs.unlink, Fs.setDir]

theorem create_dir (fs : Fs) (out : Path) : (fs.create out).dir out = some fs.next := by simp [Fs.create]

theorem upd_create {fs : Fs} (h : FsOk fs) (out : Path) : Upd fs (fs.create out) out := by
  refine ⟨⟨fun p i hp => ?_, fun p q i hp hq => ?_⟩, fun p hp => ⟨by simp [Fs.create, hp], fun i hi => ?_⟩⟩
  · show i < fs.next + 1
    by_cases e : p = out
    · simp [Fs.create, e] at hp; omega
    · have := h.1 p i (by simpa [Fs.create, e] using hp); omega
  · by_cases e : p = out <;> by_cases e' : q = out
    · rw [e, e']
    · have := h.1 q i (by simpa [Fs.create, e'] using hq)
      simp [Fs.create, e] at hp; omega
    · have := h.1 p i (by simpa [Fs.create, e] using hp)
      simp [Fs.create, e'] at hq; omega
    · exact h.2 p q i (by simpa [Fs.create, e] using hp) (by simpa [Fs.create, e'] using hq)
  · have := h.1 p i hi
    have : i ≠ fs.next := by omega
    simp [Fs.create, this]

/-- What holds of a job's output at each point of its execution; `strict`: no unclean failure has happened. -/
def JobInv (strict : Prop) (fs0 fs : Fs) (w : Work) : Pc → Prop
  | .start => Same fs0 fs w.output
  | .removing => Same fs0 fs w.output
  | .creating => Same fs0 fs w.output ∨ fs.dir w.output = none
  | .locking i => fs.dir w.output = some i
  | .reading i => fs.dir w.output = some i
  | .cleanup i => fs.dir w.output = some i
  | .writing i res => fs.dir w.output = some i ∧ ∃ b, fs0.content w.input = some b ∧ res = w.conv b
  | .flushing i full => fs.dir w.output = some i ∧ ∃ b, fs0.content w.input = some b ∧ w.conv b = some full
  | .mtime i => fs.dir w.output = some i ∧ ∃ b full, fs0.content w.input = some b ∧ w.conv b = some full ∧ fs.data i = full
  | .done true => ∃ b full, fs0.content w.input = some b ∧ w.conv b = some full ∧ fs.content w.output = some full
  | .done false => strict → Same fs0 fs w.output ∨ fs.dir w.output = none

theorem JobInv.agree {strict : Prop} {fs0 fs fs' : Fs} {w : Work} {pc : Pc} (ha : Agree fs fs' w.output) (h : JobInv strict fs0 fs w pc) :
    JobInv strict fs0 fs' w pc := by
  have hs := ha.same
  have hsame : Same fs0 fs w.output → Same fs0 fs' w.output := fun h => ⟨hs.1.trans h.1, hs.2.trans h.2⟩
  cases pc with
  | start => exact hsame h
  | removing => exact hsame h
  | creating => exact h.imp hsame fun h => ha.1.trans h
  | locking i => exact ha.1.trans h
  | reading i => exact ha.1.trans h
  | cleanup i => exact ha.1.trans h
  | writing i res => exact ⟨ha.1.trans h.1, h.2⟩
  | flushing i full => exact ⟨ha.1.trans h.1, h.2⟩
  | mtime i =>
    obtain ⟨h1, b, full, h2, h3, h4⟩ := h
    exact ⟨ha.1.trans h1, b, full, h2, h3, (ha.2 i h1).trans h4⟩
  | done ok =>
    cases ok with
    | true =>
      obtain ⟨b, full, h2, h3, h4⟩ := h
      exact ⟨b, full, h2, h3, hs.2.trans h4⟩
    | false => exact fun hst => (h hst).imp hsame fun h => ha.1.trans h

theorem dng_inv {strict : Prop} {fs0 fs : Fs} {w : Work} (hin : fs.content w.input = fs0.content w.input) (hok : FsOk fs) {pc : Pc} {c : Choice}
    (h : JobInv strict fs0 fs w pc) (hs : strict → ¬ Unclean pc c) :
    JobInv strict fs0 (dngStep w c pc fs).2.1 w (dngStep w c pc fs).1 ∧ Upd fs (dngStep w c pc fs).2.1 w.output := by
  have hr := Upd.refl hok w.output
  cases pc with
  | start =>
    unfold dngStep
    dsimp only
    split
    · exact ⟨h, hr⟩
    · exact ⟨.inl h, hr⟩
  | removing =>
    unfold dngStep
    dsimp only
    split
    · exact ⟨fun _ => .inl h, hr⟩
    · exact ⟨.inr (unlink_dir _ _), upd_unlink hok _⟩
  | creating =>
    unfold dngStep
    dsimp only
    split
    · exact ⟨fun _ => h, hr⟩
    · exact ⟨create_dir _ _, upd_create hok _⟩
  | locking i =>
    unfold dngStep
    dsimp only
    split
    · rename_i hc
      exact ⟨fun hst => absurd hc (hs hst), hr⟩
    · exact ⟨h, hr⟩
  | reading i =>
    unfold dngStep
    dsimp only
    split
    · exact ⟨h, hr⟩
    · rename_i b hb
      split
      · exact ⟨h, hr⟩
      · exact ⟨⟨h, b, hin ▸ hb, rfl⟩, hr⟩
  | writing i res =>
    obtain ⟨h1, b, h2, h3⟩ := h
    unfold dngStep
    dsimp only
    split
    · exact ⟨⟨h1, b, h2, h3⟩, upd_write hok h1 _⟩
    · exact ⟨⟨h1, b, h2, h3⟩, hr⟩
    · exact ⟨h1, hr⟩
    · split
      · exact ⟨h1, hr⟩
      · exact ⟨⟨h1, b, h2, h3.symm⟩, hr⟩
  | flushing i full =>
    obtain ⟨h1, b, h2, h3⟩ := h
    unfold dngStep
    dsimp only
    split
    · rename_i hc
      exact ⟨fun hst => absurd hc (hs hst), hr⟩
    · exact ⟨⟨h1, b, full, h2, h3, by simp [Fs.write]⟩, upd_write hok h1 _⟩
  | mtime i =>
    obtain ⟨h1, b, full, h2, h3, h4⟩ := h
    unfold dngStep
    dsimp only
    split
    · rename_i hc
      exact ⟨fun hst => absurd hc (hs hst), hr⟩
    · exact ⟨⟨b, full, h2, h3, by simp [Fs.content, h1, h4]⟩, hr⟩
  | cleanup i =>
    unfold dngStep
    dsimp only
    split
    · rename_i hc
      exact ⟨fun hst => absurd hc (hs hst), hr⟩
    · exact ⟨fun _ => .inr (unlink_dir _ _), upd_unlink hok _⟩
  | done ok => exact ⟨h, hr⟩

theorem tif_inv {strict : Prop} {fs0 fs : Fs} {w : Work} (hin : fs.content w.input = fs0.content w.input) (hok : FsOk fs) {pc : Pc} {c : Choice}
    (h : JobInv strict fs0 fs w pc) (hs : strict → ¬ Unclean pc c) :
    JobInv strict fs0 (tifStep w c pc fs).2.1 w (tifStep w c pc fs).1 ∧ Upd fs (tifStep w c pc fs).2.1 w.output := by
  have hr := Upd.refl hok w.output
  cases pc with
  | start =>
    unfold tifStep
    dsimp only
    split
    · exact ⟨fun _ => .inl h, hr⟩
    · exact ⟨.inl h, hr⟩
  | removing => exact ⟨h, hr⟩
  | creating =>
    unfold tifStep
    dsimp only
    split
    · exact ⟨fun _ => h, hr⟩
    · split
      · rename_i i hi
        exact ⟨hi, upd_write hok hi _⟩
      · exact ⟨create_dir _ _, upd_create hok _⟩
  | locking i => exact ⟨h, hr⟩
  | writing i res =>
    unfold tifStep
    dsimp only
    split
    · rename_i hc
      exact ⟨fun hst => absurd hc (hs hst), hr⟩
    · exact dng_inv hin hok h hs
  | reading i => exact dng_inv hin hok h hs
  | flushing i full => exact dng_inv hin hok h hs
  | mtime i => exact dng_inv hin hok h hs
  | cleanup i => exact dng_inv hin hok h hs
  | done ok => exact ⟨h, hr⟩

theorem job_inv {strict : Prop} {fs0 fs : Fs} {w : Work} (hin : fs.content w.input = fs0.content w.input) (hok : FsOk fs) {pc : Pc} {c : Choice}
    (h : JobInv strict fs0 fs w pc) (hs : strict → ¬ Unclean pc c) :
    JobInv strict fs0 (jobStep w c pc fs).2.1 w (jobStep w c pc fs).1 ∧ Upd fs (jobStep w c pc fs).2.1 w.output := by
  unfold jobStep
  cases w.kind
  · exact dng_inv hin hok h hs
  · exact tif_inv hin hok h hs

/-- The invariant of a run of jobs with distinct outputs apart from the inputs -/
structure GInv (strict : Prop) (ws : List Work) (fs0 : Fs) (s : Sys) : Prop where
  ok : FsOk s.fs
  frame : ∀ p, (∀ w ∈ ws, w.output ≠ p) → Same fs0 s.fs p
  jobs : ∀ n w, ws[n]? = some w → JobInv strict fs0 s.fs w (s.pc n)

theorem GInv.init {strict : Prop} {ws : List Work} {fs0 : Fs} (h : FsOk fs0) : GInv strict ws fs0 (initSys fs0) :=
  ⟨h, fun _ _ => ⟨rfl, rfl⟩, fun _ _ _ => ⟨rfl, rfl⟩⟩

theorem GInv.step {strict : Prop} {ws : List Work} (hd : Distinct ws) (ha : Apart ws) {fs0 : Fs} {s : Sys} (h : GInv strict ws fs0 s) (n : Nat) (c : Choice)
    (hs : strict → ¬ Unclean (s.pc n) c) : GInv strict ws fs0 (sysStep ws s (.job n c)) := by
  unfold sysStep
  dsimp only
  cases hw : ws[n]? with
  | none => exact h
  | some w =>
    dsimp only
    split
    · exact h
    · have hmem : w ∈ ws := List.mem_of_getElem? hw
      have hin := (h.frame w.input fun v hv e => ha w hmem v hv e.symm).2
      obtain ⟨h1, h2⟩ := job_inv (c := c) hin h.ok (h.jobs n w hw) hs
      refine ⟨h2.1, fun p hp => ?_, fun m v hv => ?_⟩
      · have hs := (h2.2 p fun e => hp w hmem e.symm).same
        have hf := h.frame p hp
        exact ⟨hs.1.trans hf.1, hs.2.trans hf.2⟩
      · dsimp only
        by_cases hm : m = n
        · subst hm
          rw [if_pos rfl]
          rw [hw] at hv
          injection hv with hv
          exact hv ▸ h1
        · rw [if_neg hm]
          exact (h.jobs m v hv).agree (h2.2 v.output fun e => hm (hd m n v w hv hw e))

theorem GInv.run {ws : List Work} (hd : Distinct ws) (ha : Apart ws) {fs0 : Fs} {es : List Event} (hj : JobsOnly es) {s : Sys}
    (h : GInv (Clean ws s es) ws fs0 s) : GInv (Clean ws s es) ws fs0 (runSys ws s es) := by
  have key : ∀ (strict : Prop) (es : List Event), JobsOnly es → ∀ s, (strict → Clean ws s es) → GInv strict ws fs0 s →
      GInv strict ws fs0 (runSys ws s es) := by
    intro strict es
    induction es with
    | nil => exact fun _ _ _ h => h
    | cons e es ih =>
      intro hj s hc h
      obtain ⟨n, c, rfl⟩ := hj e (by simp)
      exact ih (fun e he => hj e (by simp [he])) _ (fun hst => (hc hst).2) (h.step hd ha n c fun hst => (hc hst).1)
  exact key _ es hj s id h

end Verif.Cli
