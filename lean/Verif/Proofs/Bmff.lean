import Verif.Spec.Bmff
import Mathlib.Tactic.Ring
/-! # Helper lemmas for C68: reading what was written -/

namespace Verif.Bmff
open Verif.BmffSpec

/-- The bytes `l` stand at offset `p` of `buf`. -/
def At (buf : List Nat) (p : Nat) (l : List Nat) : Prop := l <+: buf.drop p

theorem At.left {buf : List Nat} {p : Nat} {a b : List Nat} (h : At buf p (a ++ b)) : At buf p a :=
  List.IsPrefix.trans (List.prefix_append a b) h

theorem At.right {buf : List Nat} {p : Nat} {a b : List Nat} (h : At buf p (a ++ b)) : At buf (p + a.length) b := by
  obtain ⟨r, hr⟩ := h
  refine ⟨r, ?_⟩
  have : (buf.drop p).drop a.length = buf.drop (p + a.length) := by rw [List.drop_drop]
  rw [← this, ← hr, List.append_assoc, List.drop_left]

theorem At.le {buf : List Nat} {p : Nat} {l : List Nat} (h : At buf p l) : l.length ≤ buf.length - p := by
  have := h.length_le
  rwa [List.length_drop] at this

theorem At.take {buf : List Nat} {p : Nat} {l : List Nat} (h : At buf p l) : (buf.drop p).take l.length = l := by
  obtain ⟨r, hr⟩ := h
  rw [← hr, List.take_left]

theorem length_be (n v : Nat) : (be n v).length = n := by
  induction n with
  | zero => rfl
  | succ n ih => rw [be, List.length_cons, ih]

theorem beNum_foldl (l : List Nat) (a : Nat) : l.foldl (fun a b => a * 256 + b) a = a * 256 ^ l.length + beNum l := by
  unfold beNum
  induction l generalizing a with
  | nil => simp
  | cons x l ih =>
    rw [List.foldl_cons, ih, List.foldl_cons, ih (0 * 256 + x), List.length_cons, Nat.pow_succ]
    ring

theorem beNum_cons (x : Nat) (l : List Nat) : beNum (x :: l) = x * 256 ^ l.length + beNum l := by
  have := beNum_foldl l (0 * 256 + x)
  rw [Nat.zero_mul, Nat.zero_add] at this
  rw [← this, beNum, List.foldl_cons, Nat.zero_mul, Nat.zero_add]

theorem beNum_be (n v : Nat) : beNum (be n v) = v % 256 ^ n := by
  induction n with
  | zero => rw [Nat.pow_zero, Nat.mod_one]; rfl
  | succ n ih =>
    rw [be, beNum_cons, ih, length_be, Nat.pow_succ, Nat.mod_mul, Nat.mul_comm (v / 256 ^ n % 256), Nat.add_comm]

theorem rd_at {buf : List Nat} {p n v : Nat} (h : At buf p (be n v)) (hv : v < 256 ^ n) : rd buf p n = .ok (v, p + n) := by
  have hl := h.le
  have ht := h.take
  rw [length_be] at hl ht
  rw [rd, if_pos hl, ht, beNum_be, Nat.mod_eq_of_lt hv]

theorem beAll_cons (x : Nat × Nat) (l : List (Nat × Nat)) : beAll (x :: l) = be x.1 x.2 ++ beAll l := rfl

theorem beAll_append (a b : List (Nat × Nat)) : beAll (a ++ b) = beAll a ++ beAll b := List.flatMap_append

theorem fit_left {a b : List (Nat × Nat)} (h : Fit (a ++ b)) : Fit a := fun x hx => h x (List.mem_append_left _ hx)
theorem fit_right {a b : List (Nat × Nat)} (h : Fit (a ++ b)) : Fit b := fun x hx => h x (List.mem_append_right _ hx)

theorem rds_at {buf : List Nat} (l : List (Nat × Nat)) : ∀ {p : Nat}, At buf p (beAll l) → Fit l →
    rds buf (l.map (·.1)) p = .ok (l.map (·.2), p + (beAll l).length) := by
  induction l with
  | nil => intro p _ _; rfl
  | cons x l ih =>
    intro p h hf
    rw [beAll_cons] at h
    have h1 := rd_at h.left (hf x (List.mem_cons_self))
    have h2 := ih h.right (fun y hy => hf y (List.mem_cons_of_mem _ hy))
    rw [length_be] at h2
    rw [List.map_cons, rds, h1]
    show (do let (vs, p) ← rds buf (l.map Prod.fst) (p + x.1); Except.ok (x.2 :: vs, p)) = _
    rw [h2]
    show Except.ok _ = _
    rw [beAll_cons, List.length_append, length_be, List.map_cons, Nat.add_assoc]

/-- One read at the front of a run of numbers. -/
theorem rd_cons {buf : List Nat} {p n v : Nat} {l : List (Nat × Nat)} (h : At buf p (beAll ((n, v) :: l)))
    (hf : Fit ((n, v) :: l)) : rd buf p n = .ok (v, p + n) ∧ At buf (p + n) (beAll l) ∧ Fit l := by
  rw [beAll_cons] at h
  refine ⟨rd_at h.left (hf _ List.mem_cons_self), ?_, fun y hy => hf y (List.mem_cons_of_mem _ hy)⟩
  have := h.right
  rwa [length_be] at this

/-- Several reads at the front of a run of numbers. -/
theorem rds_append {buf : List Nat} {p : Nat} {a b : List (Nat × Nat)} (h : At buf p (beAll (a ++ b)))
    (hf : Fit (a ++ b)) : rds buf (a.map (·.1)) p = .ok (a.map (·.2), p + (beAll a).length) ∧
      At buf (p + (beAll a).length) (beAll b) ∧ Fit b := by
  rw [beAll_append] at h
  exact ⟨rds_at a h.left (fit_left hf), h.right, fit_right hf⟩

/-! ## Headers -/

theorem length_headBytes (typ : Nat) (uuid : Option Nat) (wide : Bool) (n : Nat) :
    (headBytes typ uuid wide n).length = headLen uuid wide := by
  unfold headBytes headLen
  cases wide <;> cases uuid <;> simp [length_be]

theorem parseHdr_at {buf : List Nat} {pos typ n : Nat} {uuid : Option Nat} {wide : Bool}
    (h : At buf pos (headBytes typ uuid wide n)) (ht : typ < 2 ^ 32)
    (hu : uuid.isSome ↔ typ = four 'u' 'u' 'i' 'd') (hu' : ∀ u ∈ uuid, u < 2 ^ 128) (hn : n < 2 ^ 64)
    (hn' : wide = false → n < 2 ^ 32) (hn1 : n ≠ 1) :
    parseHdr buf pos = .ok (⟨n, typ, uuid, pos, headLen uuid wide⟩, pos + headLen uuid wide) := by
  have hk : four 'u' 'u' 'i' 'd' = uuidTyp := by decide
  rw [hk] at hu
  have h' : At buf pos (beAll ((4, if wide then 1 else n) :: (4, typ) ::
      ((if wide then [(8, n)] else []) ++ (match uuid with | some u => [(16, u)] | none => [])))) := by
    unfold headBytes at h
    cases wide <;> cases uuid <;> simpa [beAll, List.append_assoc] using h
  have hf : Fit ((4, if wide then 1 else n) :: (4, typ) ::
      ((if wide then [(8, n)] else []) ++ (match uuid with | some u => [(16, u)] | none => []))) := by
    intro x hx
    rcases List.mem_cons.1 hx with rfl | hx
    · cases wide
      · exact hn' rfl
      · exact (by decide : 1 < 256 ^ 4)
    rcases List.mem_cons.1 hx with rfl | hx
    · exact ht
    rcases List.mem_append.1 hx with hx | hx
    · cases wide
      · cases hx
      · cases List.mem_singleton.1 hx; exact hn
    · cases uuid with
      | none => cases hx
      | some u => cases List.mem_singleton.1 hx; exact hu' u rfl
  obtain ⟨r1, h', hf⟩ := rd_cons h' hf
  obtain ⟨r2, h', hf⟩ := rd_cons h' hf
  unfold parseHdr
  rw [r1]
  show (do let (typ, p) ← rd buf (pos + 4) 4; _) = _
  rw [r2]
  have hlen : ∀ q : Nat, q = pos + headLen uuid wide → q - pos = headLen uuid wide := by intro q hq; omega
  cases wide with
  | false =>
    cases uuid with
    | none =>
      have h1 : typ ≠ uuidTyp := fun e => by simpa using hu.2 e
      simp only [Bool.false_eq_true, if_false, hn1, h1, bind, Except.bind]
      rw [hlen _ (by unfold headLen; simp)]
      simp [headLen, Nat.add_assoc]
    | some u =>
      have h1 : typ = uuidTyp := hu.1 rfl
      obtain ⟨r3, -, -⟩ := rd_cons (l := []) h' hf
      simp only [Bool.false_eq_true, if_false, hn1, h1, if_true, bind, Except.bind, r3]
      rw [hlen _ (by unfold headLen; simp)]
      simp [headLen, Nat.add_assoc]
  | true =>
    obtain ⟨r3, h', hf⟩ := rd_cons h' hf
    cases uuid with
    | none =>
      have h1 : typ ≠ uuidTyp := fun e => by simpa using hu.2 e
      simp only [if_true, if_false, h1, bind, Except.bind, r3]
      rw [hlen _ (by unfold headLen; simp)]
      simp [headLen, Nat.add_assoc]
    | some u =>
      have h1 : typ = uuidTyp := hu.1 rfl
      obtain ⟨r4, -, -⟩ := rd_cons (l := []) h' hf
      simp only [if_true, h1, bind, Except.bind, r3, r4]
      rw [hlen _ (by unfold headLen; simp)]
      simp [headLen, Nat.add_assoc]

/-! ## Contents -/

theorem length_beAll (l : List (Nat × Nat)) : (beAll l).length = (l.map (·.1)).sum := by
  induction l with
  | nil => rfl
  | cons x l ih => rw [beAll_cons, List.length_append, length_be, ih, List.map_cons, List.sum_cons]

/-- A parsed run as the specification writes it. -/
def quad (r : Nat × Nat × Nat × Nat) : Run := ⟨r.1, r.2.1, r.2.2.1, r.2.2.2⟩

theorem stscLoop_at {buf : List Nat} (rest : List (Nat × Nat × Nat)) : ∀ (c n d f p : Nat),
    At buf p (beAll (rest.flatMap (fun r => [(4, r.1), (4, r.2.1), (4, r.2.2)]))) →
    Fit (rest.flatMap (fun r => [(4, r.1), (4, r.2.1), (4, r.2.2)])) →
    Rising f ((c, n, d) :: rest) → (rest ≠ [] → f = c) →
    (∀ r ∈ ((c, n, d) :: rest).dropLast.dropLast, r.2.1 = 1) →
    stscLoop buf rest.length ⟨c, n, d, f⟩ p = .ok ((numbered f ((c, n, d) :: rest)).map quad,
      p + (beAll (rest.flatMap (fun r => [(4, r.1), (4, r.2.1), (4, r.2.2)]))).length) := by
  induction rest with
  | nil => intro c n d f p _ _ _ _ _; rfl
  | cons r rest ih =>
    obtain ⟨c', n', d'⟩ := r
    intro c n d f p h hf hr he h1
    obtain ⟨hc, hb, hr⟩ := hr
    have hfc : f = c := he (List.cons_ne_nil _ _)
    have e : ((c', n', d') :: rest).flatMap (fun r : Nat × Nat × Nat => [((4 : Nat), r.1), (4, r.2.1), (4, r.2.2)])
        = (4, c') :: (4, n') :: (4, d') :: rest.flatMap (fun r => [(4, r.1), (4, r.2.1), (4, r.2.2)]) := rfl
    rw [e] at h hf ⊢
    obtain ⟨r1, h, hf⟩ := rd_cons h hf
    obtain ⟨r2, h, hf⟩ := rd_cons h hf
    obtain ⟨r3, h, hf⟩ := rd_cons h hf
    have hi := ih c' n' d' (f + (c' - c) * n) (p + 4 + 4 + 4) h hf hr (by
        intro hne
        have hn : n = 1 := by
          cases rest with
          | nil => exact absurd rfl hne
          | cons x xs =>
            refine h1 (c, n, d) ?_
            rw [List.dropLast_cons_of_ne_nil (List.cons_ne_nil _ _),
              List.dropLast_cons_of_ne_nil (by rw [List.dropLast_cons_of_ne_nil (List.cons_ne_nil _ _)]; exact List.cons_ne_nil _ _)]
            exact List.mem_cons_self
        subst hn; omega) (by
        intro r hr'
        refine h1 r ?_
        cases rest with
        | nil => cases hr'
        | cons x xs =>
          rw [List.dropLast_cons_of_ne_nil (List.cons_ne_nil _ _),
              List.dropLast_cons_of_ne_nil (by rw [List.dropLast_cons_of_ne_nil (List.cons_ne_nil _ _)]; exact List.cons_ne_nil _ _)]
          exact List.mem_cons_of_mem _ hr')
    have hu : usub c' f = .ok (c' - c) := by rw [usub, if_pos (by omega), hfc]
    have hm : chkU32 ((c' - c) * n) = .ok ((c' - c) * n) := by rw [chkU32, if_pos (by omega)]
    have ha : chkU32 (f + (c' - c) * n) = .ok (f + (c' - c) * n) := by rw [chkU32, if_pos hb]
    rw [List.length_cons, stscLoop]
    simp only [r1, r2, r3, hu, hm, ha, hi, bind, Except.bind]
    rw [beAll_cons, beAll_cons, beAll_cons]
    simp only [List.length_append, length_be]
    rw [numbered, List.map_cons]
    congr 2
    omega

theorem stscEntries_at {buf : List Nat} (runs : List (Nat × Nat × Nat)) (p : Nat)
    (h : At buf p (beAll (runs.flatMap (fun r => [(4, r.1), (4, r.2.1), (4, r.2.2)]))))
    (hf : Fit (runs.flatMap (fun r => [(4, r.1), (4, r.2.1), (4, r.2.2)]))) (ho : RunsOk runs) :
    stscEntries buf runs.length p = .ok ((numbered 1 runs).map quad,
      p + (beAll (runs.flatMap (fun r => [(4, r.1), (4, r.2.1), (4, r.2.2)]))).length) := by
  cases runs with
  | nil => rfl
  | cons r rest =>
    obtain ⟨c, n, d⟩ := r
    obtain ⟨h0, hr, h1⟩ := ho
    have e : ((c, n, d) :: rest).flatMap (fun r : Nat × Nat × Nat => [((4 : Nat), r.1), (4, r.2.1), (4, r.2.2)])
        = (4, c) :: (4, n) :: (4, d) :: rest.flatMap (fun r => [(4, r.1), (4, r.2.1), (4, r.2.2)]) := rfl
    rw [e] at h hf ⊢
    obtain ⟨r1, h, hf⟩ := rd_cons h hf
    obtain ⟨r2, h, hf⟩ := rd_cons h hf
    obtain ⟨r3, h, hf⟩ := rd_cons h hf
    have hi := stscLoop_at rest c n d 1 _ h hf hr (fun _ => (h0 _ rfl).symm) h1
    rw [List.length_cons, stscEntries]
    simp only [r1, r2, r3, hi, bind, Except.bind]
    rw [beAll_cons, beAll_cons, beAll_cons]
    simp only [List.length_append, length_be]
    congr 2
    omega

theorem map_fst_const (w : Nat) (l : List Nat) : (l.map (fun x => (w, x))).map (·.1) = List.replicate l.length w := by
  induction l with
  | nil => rfl
  | cons x l ih => rw [List.map_cons, List.map_cons, ih, List.length_cons, List.replicate_succ]

theorem map_snd_const (w : Nat) (l : List Nat) : (l.map (fun x => (w, x))).map (·.2) = l := by
  rw [List.map_map]; exact List.map_id _

theorem sum_replicate (n w : Nat) : (List.replicate n w).sum = n * w := by
  induction n with
  | zero => rw [List.replicate_zero, List.sum_nil, Nat.zero_mul]
  | succ n ih => rw [List.replicate_succ, List.sum_cons, ih]; ring

theorem length_beAll_const (w : Nat) (l : List Nat) : (beAll (l.map (fun x => (w, x)))).length = l.length * w := by
  rw [length_beAll, map_fst_const, sum_replicate]

theorem rds_const {buf : List Nat} {p w : Nat} {l : List Nat} (h : At buf p (beAll (l.map (fun x => (w, x)))))
    (hf : Fit (l.map (fun x => (w, x)))) : rds buf (List.replicate l.length w) p = .ok (l, p + l.length * w) := by
  have := rds_at _ h hf
  rwa [map_fst_const, map_snd_const, length_beAll_const] at this

theorem rds_flat {α : Type} {buf : List Nat} {p : Nat} (ws : List Nat) (g : α → List (Nat × Nat)) (l : List α)
    (hg : ∀ x, (g x).map (·.1) = ws) (h : At buf p (beAll (l.flatMap g))) (hf : Fit (l.flatMap g)) :
    rds buf (List.replicate l.length ws).flatten p
      = .ok (l.flatMap (fun x => (g x).map (·.2)), p + (beAll (l.flatMap g)).length) := by
  have := rds_at _ h hf
  rw [List.map_flatMap, List.map_flatMap] at this
  have e : l.flatMap (fun x => (g x).map (·.1)) = (List.replicate l.length ws).flatten := by
    clear h hf this
    induction l with
    | nil => rfl
    | cons x l ih => rw [List.flatMap_cons, ih, hg, List.length_cons, List.replicate_succ, List.flatten_cons]
  rwa [e] at this

end Verif.Bmff
