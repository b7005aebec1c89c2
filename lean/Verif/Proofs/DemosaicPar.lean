import Verif.Model.Demosaic
/-! # Tasks that run at the same time

If no task loads a cell that any task stores to, every schedule leaves the same picture. -/

namespace Verif.Demosaic

theorem set_same (m : Mem) (c : Cell) (v : ℚ) : m.set c v c = v := by simp [Mem.set]
theorem set_other (m : Mem) {c d : Cell} (v : ℚ) (h : d ≠ c) : m.set c v d = m d := by simp [Mem.set, h]

/-- Started on `m0`, the task loads cells outside `S` only, and stores to cells of `S` that are its `own`, the value `fin` assigns to them; all
its accesses satisfy `inb`. -/
def Good (m0 : Mem) (S : Cell → Prop) (fin : Cell → ℚ) (inb own : Cell → Prop) : Prog → Prop
  | .done => True
  | .read c k => ¬ S c ∧ inb c ∧ Good m0 S fin inb own (k (m0 c))
  | .write c v p => S c ∧ own c ∧ inb c ∧ v = fin c ∧ Good m0 S fin inb own p

/-- The cells the task will store to -/
def pend (m0 : Mem) : Prog → List Cell
  | .done => []
  | .read c k => pend m0 (k (m0 c))
  | .write c _ p => c :: pend m0 p

/-- accesses left -/
def left (m0 : Mem) : Prog → Nat
  | .done => 0
  | .read c k => left m0 (k (m0 c)) + 1
  | .write _ _ p => left m0 p + 1

structure PInv (m0 : Mem) (S : Cell → Prop) (fin : Cell → ℚ) (inb : Cell → Prop) (own : Nat → Cell → Prop) (s : List Prog × Mem) : Prop where
  off : ∀ c, ¬ S c → s.2 c = m0 c
  good : ∀ (i : Nat) (p : Prog), s.1[i]? = some p → Good m0 S fin inb (own i) p
  on : ∀ c, S c → s.2 c = fin c ∨ ∃ (i : Nat) (p : Prog), s.1[i]? = some p ∧ c ∈ pend m0 p

theorem PInv.step {m0 : Mem} {S : Cell → Prop} {fin : Cell → ℚ} {inb : Cell → Prop} {own : Nat → Cell → Prop} {s : List Prog × Mem}
    (h : PInv m0 S fin inb own s) (i : Nat) : PInv m0 S fin inb own (stepAt s i) := by
  unfold stepAt
  cases hp : s.1[i]? with
  | none => exact h
  | some p =>
    have hg := h.good i p hp
    have hi : i < s.1.length := (List.getElem?_eq_some_iff.mp hp).1
    have getset : ∀ (q : Prog) (j : Nat), (s.1.set i q)[j]? = if i = j then some q else s.1[j]? := by
      intro q j
      rw [List.getElem?_set]
      split
      · rfl
      · rfl
    have keep : ∀ (q : Prog), Good m0 S fin inb (own i) q → ∀ (j : Nat) (p' : Prog), (s.1.set i q)[j]? = some p' → Good m0 S fin inb (own j) p' := by
      intro q hq j p' hj
      rw [getset] at hj
      split at hj
      · next e => cases hj; rw [← e]; exact hq
      · exact h.good j p' hj
    have onk : ∀ (q : Prog) (c : Cell), (c ∈ pend m0 p → c ∈ pend m0 q) → (∃ (j : Nat) (p' : Prog), s.1[j]? = some p' ∧ c ∈ pend m0 p') →
        ∃ (j : Nat) (p' : Prog), (s.1.set i q)[j]? = some p' ∧ c ∈ pend m0 p' := by
      rintro q c hq ⟨j, p', hj, hc⟩
      by_cases e : i = j
      · subst e
        rw [hp] at hj; cases hj
        exact ⟨i, q, by rw [getset, if_pos rfl], hq hc⟩
      · exact ⟨j, p', by rw [getset, if_neg e]; exact hj, hc⟩
    match p, hg with
    | .done, hg =>
      refine ⟨h.off, keep _ trivial, fun c hc => ?_⟩
      rcases h.on c hc with h' | h'
      · exact .inl h'
      · exact .inr (onk _ c id h')
    | .read d k, hg =>
      have e : s.2 d = m0 d := h.off d hg.1
      refine ⟨h.off, keep _ ?_, fun c hc => ?_⟩
      · simp only [Prog.step, e]; exact hg.2.2
      · rcases h.on c hc with h' | h'
        · exact .inl h'
        · refine .inr (onk _ c (fun hh => ?_) h')
          simp only [Prog.step, e]; exact hh
    | .write d v q, hg =>
      refine ⟨fun c hc => ?_, keep _ hg.2.2.2.2, fun c hc => ?_⟩
      · have : c ≠ d := fun e => hc (e ▸ hg.1)
        simp only [Prog.step]
        rw [set_other _ _ this]
        exact h.off c hc
      · simp only [Prog.step]
        by_cases e : c = d
        · subst e
          exact .inl (by rw [set_same]; exact hg.2.2.2.1)
        · rw [set_other _ _ e]
          rcases h.on c hc with h' | h'
          · exact .inl h'
          · refine .inr (onk _ c (fun hh => ?_) h')
            simpa [pend, e] using hh

theorem PInv.run {m0 : Mem} {S : Cell → Prop} {fin : Cell → ℚ} {inb : Cell → Prop} {own : Nat → Cell → Prop} (sched : List Nat) :
    ∀ {s : List Prog × Mem}, PInv m0 S fin inb own s → PInv m0 S fin inb own (runSched sched s) := by
  induction sched with
  | nil => exact fun h => h
  | cons i t ih => exact fun h => ih (h.step i)

theorem PInv.final {m0 : Mem} {S : Cell → Prop} {fin : Cell → ℚ} {inb : Cell → Prop} {own : Nat → Cell → Prop} {s : List Prog × Mem}
    (h : PInv m0 S fin inb own s) (hd : ∀ p ∈ s.1, p = .done) (c : Cell) : (S c → s.2 c = fin c) ∧ (¬ S c → s.2 c = m0 c) := by
  refine ⟨fun hc => ?_, h.off c⟩
  rcases h.on c hc with h' | ⟨i, p, hp, hm⟩
  · exact h'
  · have := hd p (List.mem_of_getElem? hp)
    subst this
    cases hm

/-- some schedule ends -/
theorem run_one {m0 : Mem} {S : Cell → Prop} {fin : Cell → ℚ} {inb : Cell → Prop} {own : Nat → Cell → Prop} (i : Nat) :
    ∀ (n : Nat) {s : List Prog × Mem} {p : Prog}, PInv m0 S fin inb own s → s.1[i]? = some p → left m0 p ≤ n →
      ∃ sched, (runSched sched s).1 = s.1.set i .done ∧ PInv m0 S fin inb own (runSched sched s) := by
  intro n
  induction n with
  | zero =>
    intro s p hI hp hn
    cases p with
    | done =>
      refine ⟨[], ?_, hI⟩
      have hi : i < s.1.length := (List.getElem?_eq_some_iff.mp hp).1
      have e : s.1[i] = .done := (List.getElem?_eq_some_iff.mp hp).2
      rw [← e]; simp [runSched]
    | read c k => simp [left] at hn
    | write c v q => simp [left] at hn
  | succ n ih =>
    intro s p hI hp hn
    have hi : i < s.1.length := (List.getElem?_eq_some_iff.mp hp).1
    have hg := hI.good i p hp
    have next : ∀ q, (stepAt s i).1 = s.1.set i q → left m0 q ≤ n →
        ∃ sched, (runSched sched s).1 = s.1.set i .done ∧ PInv m0 S fin inb own (runSched sched s) := by
      intro q hq hl
      have hq' : (stepAt s i).1[i]? = some q := by rw [hq, List.getElem?_set_self hi]
      obtain ⟨sched, e, hI'⟩ := ih (hI.step i) hq' hl
      refine ⟨i :: sched, ?_, hI'⟩
      have : runSched (i :: sched) s = runSched sched (stepAt s i) := rfl
      rw [this, e, hq, List.set_set]
    match p, hg with
    | .done, _ =>
      exact next .done (by simp [stepAt, hp, Prog.step]) (by simp [left])
    | .read c k, hg =>
      have e : s.2 c = m0 c := hI.off c hg.1
      exact next (k (m0 c)) (by simp [stepAt, hp, Prog.step, e]) (by simp only [left] at hn; omega)
    | .write c v q, hg =>
      exact next q (by simp [stepAt, hp, Prog.step]) (by simp only [left] at hn; omega)

theorem run_all {m0 : Mem} {S : Cell → Prop} {fin : Cell → ℚ} {inb : Cell → Prop} {own : Nat → Cell → Prop} (k : Nat) :
    ∀ {s : List Prog × Mem}, PInv m0 S fin inb own s → k ≤ s.1.length →
      ∃ sched, (∀ i, i < k → (runSched sched s).1[i]? = some .done) ∧ (runSched sched s).1.length = s.1.length ∧
        PInv m0 S fin inb own (runSched sched s) := by
  induction k with
  | zero => exact fun h _ => ⟨[], fun i hi => by omega, rfl, h⟩
  | succ k ih =>
    intro s h hk
    obtain ⟨sched, h1, h2, h3⟩ := ih h (by omega)
    have hlt : k < (runSched sched s).1.length := by omega
    obtain ⟨sched', h4, h5⟩ := run_one k _ h3 (List.getElem?_eq_getElem hlt) (Nat.le_refl _)
    have e : runSched (sched ++ sched') s = runSched sched' (runSched sched s) := by simp [runSched]
    refine ⟨sched ++ sched', fun i hi => ?_, by rw [e, h4, List.length_set, h2], by rw [e]; exact h5⟩
    rw [e, h4, List.getElem?_set]
    split
    · rfl
    · exact h1 i (by omega)

theorem par_exists {m0 : Mem} {S : Cell → Prop} {fin : Cell → ℚ} {inb : Cell → Prop} {own : Nat → Cell → Prop} {ps : List Prog}
    (h : PInv m0 S fin inb own (ps, m0)) : ∃ m', Par ps m0 m' := by
  obtain ⟨sched, h1, h2, -⟩ := run_all ps.length h (Nat.le_refl _)
  refine ⟨_, sched, fun p hp => ?_, rfl⟩
  obtain ⟨i, hi, e⟩ := List.getElem_of_mem hp
  have := h1 i (by simpa [h2] using hi)
  rw [List.getElem?_eq_getElem hi, e] at this
  exact Option.some.inj this

theorem par_final {m0 : Mem} {S : Cell → Prop} {fin : Cell → ℚ} {inb : Cell → Prop} {own : Nat → Cell → Prop} {ps : List Prog} {m' : Mem}
    (h : PInv m0 S fin inb own (ps, m0)) (hp : Par ps m0 m') (c : Cell) : (S c → m' c = fin c) ∧ (¬ S c → m' c = m0 c) := by
  obtain ⟨sched, hd, rfl⟩ := hp
  exact (h.run sched).final hd c

/-! ## Rows of pixels -/

theorem good_row {m0 : Mem} {S : Cell → Prop} {fin : Cell → ℚ} {inb own : Cell → Prop} {pixel : Nat → Prog → Prog} (l : List Nat)
    (h : ∀ c ∈ l, ∀ p, Good m0 S fin inb own p → Good m0 S fin inb own (pixel c p)) :
    Good m0 S fin inb own (l.foldr (fun c p => pixel c p) .done) := by
  induction l with
  | nil => trivial
  | cons c t ih => exact h c (by simp) _ (ih fun d hd => h d (by simp [hd]))

theorem pend_row {m0 : Mem} {pixel : Nat → Prog → Prog} {cells : Nat → List Cell} (l : List Nat)
    (h : ∀ c p, pend m0 (pixel c p) = cells c ++ pend m0 p) :
    pend m0 (l.foldr (fun c p => pixel c p) .done) = l.flatMap cells := by
  induction l with
  | nil => rfl
  | cons c t ih => rw [List.foldr_cons, h, ih, List.flatMap_cons]

/-- the rows and columns a pass works on -/
def Inner (w h r c : Nat) : Prop := 3 ≤ r ∧ r + 3 < h ∧ 3 ≤ c ∧ c + 3 < w

theorem inv_tasks {m0 : Mem} {S : Cell → Prop} {fin : Cell → ℚ} {inb : Cell → Prop} {pixel : Nat → Nat → Prog → Prog}
    {cells : Nat → Nat → List Cell} {w h : Nat}
    (hg : ∀ r c, Inner w h r c → ∀ p, Good m0 S fin inb (fun d => d.1 = r) p → Good m0 S fin inb (fun d => d.1 = r) (pixel r c p))
    (hc : ∀ r c p, pend m0 (pixel r c p) = cells r c ++ pend m0 p)
    (hS : ∀ d, S d → Inner w h d.1 d.2.1 ∧ d ∈ cells d.1 d.2.1) :
    PInv m0 S fin inb (fun i d => d.1 = i + 3) (rowTasks w h pixel, m0) := by
  have get : ∀ i, i < h - 6 → (rowTasks w h pixel)[i]? = some ((List.range' 3 (w - 6)).foldr (fun c p => pixel (i + 3) c p) .done) := by
    intro i hi
    rw [rowTasks, List.getElem?_map, List.getElem?_range' hi, Option.map_some]
    simp only [Nat.one_mul, Nat.add_comm 3 i]
  refine ⟨fun _ _ => rfl, fun i p hp => ?_, fun d hd => .inr ?_⟩
  · have hi : i < h - 6 := by
      have := (List.getElem?_eq_some_iff.mp hp).1
      simpa [rowTasks] using this
    rw [get i hi] at hp
    cases hp
    apply good_row
    intro c hcm p hp
    rw [List.mem_range'] at hcm
    obtain ⟨k, hk, rfl⟩ := hcm
    exact hg (i + 3) _ ⟨by omega, by omega, by omega, by omega⟩ p hp
  · obtain ⟨⟨h1, h2, h3, h4⟩, hm⟩ := hS d hd
    refine ⟨d.1 - 3, _, get _ (by omega), ?_⟩
    rw [Nat.sub_add_cancel h1, pend_row _ (fun c p => hc d.1 c p), List.mem_flatMap]
    exact ⟨d.2.1, by rw [List.mem_range']; exact ⟨d.2.1 - 3, by omega, by omega⟩, hm⟩

end Verif.Demosaic
