import Verif.Proofs.Bmff
/-! # Helper lemmas for C68: contents, boxes and box lists -/

namespace Verif.Bmff
open Verif.BmffSpec

theorem ok_bind' {α β : Type} (a : α) (f : α → R β) : (do let x ← (Except.ok a : R α); f x) = f a := rfl

theorem endOff_ok {h : Hdr} (hb : h.offset + h.size < 2 ^ 64) : endOff h = .ok (h.offset + h.size) := by
  rw [endOff, if_pos hb]

theorem fields_plain {buf : List Nat} {k : Kind} {h : Hdr} {pos : Nat} {ws : List Nat} (hw : widths k = some ws) :
    fields buf k h pos = rds buf ws pos := by
  cases k <;> first | (cases hw; rfl) | (exact absurd hw (by intro e; cases e))

theorem testBit_div {x n : Nat} : (x / 2 ^ n % 2 ≠ 0) ↔ x.testBit n = true := by
  rw [Nat.testBit_eq_decide_div_mod_eq]
  simp only [decide_eq_true_eq]
  omega

theorem fields_cmp1 {buf : List Nat} {h : Hdr} {pos : Nat}
    {u hs' v s w ht tw th nb pl la en le tc tr hd ex : Nat} {movie : Option (List Nat × Nat × Option (List Nat × Nat))}
    (hs : pl < 16 ∧ la < 16 ∧ en < 16 ∧ le < 16 ∧ tc < 2 ∧ tr < 2 ∧
    match movie with
    | none => ¬ (ex.testBit 31 = true ∧ pl = 4 ∧ 56 ≤ h.size)
    | some (a, flag, med) => ex.testBit 31 = true ∧ pl = 4 ∧ 56 ≤ h.size ∧ a.length = 5 ∧
      match med with
      | none => ¬ (flag.testBit 30 = true ∧ 84 < h.size)
      | some (b, _) => flag.testBit 30 = true ∧ 84 < h.size ∧ b.length = 6)
    (hf : Fit (Content.cmp1 u hs' v s w ht tw th nb pl la en le tc tr hd ex movie).nums)
    (ha : At buf pos (beAll (Content.cmp1 u hs' v s w ht tw th nb pl la en le tc tr hd ex movie).nums)) :
    fields buf .cmp1 h pos
      = .ok ((Content.cmp1 u hs' v s w ht tw th nb pl la en le tc tr hd ex movie).vals,
        pos + (beAll (Content.cmp1 u hs' v s w ht tw th nb pl la en le tc tr hd ex movie).nums).length) := by
  obtain ⟨hpl, hla, hen, hle, htc, htr, hm⟩ := hs
  obtain ⟨r1, ha, hf⟩ := rds_append (a := [(2, u), (2, hs'), (2, v), (2, s), (4, w), (4, ht), (4, tw), (4, th)])
    (b := (1, nb) :: (1, pl * 16 + la) :: (1, en * 16 + le) :: (1, tc * 128 + tr) :: (4, hd) :: (4, ex) ::
      movieNums movie) ha hf
  obtain ⟨r2, ha, hf⟩ := rd_cons ha hf
  obtain ⟨r3, ha, hf⟩ := rd_cons ha hf
  obtain ⟨r4, ha, hf⟩ := rd_cons ha hf
  obtain ⟨r5, ha, hf⟩ := rd_cons ha hf
  obtain ⟨r6, ha, hf⟩ := rd_cons ha hf
  obtain ⟨r7, ha, hf⟩ := rd_cons ha hf
  have e1 : (pl * 16 + la) / 16 = pl := by omega
  have e2 : (pl * 16 + la) % 16 = la := by omega
  have e3 : (en * 16 + le) / 16 = en := by omega
  have e4 : (en * 16 + le) % 16 = le := by omega
  have e5 : (tc * 128 + tr) / 128 = tc := by omega
  have e6 : (tc * 128 + tr) % 2 = tr := by omega
  have hl0 : (beAll [(2, u), (2, hs'), (2, v), (2, s), (4, w), (4, ht), (4, tw), (4, th)]).length = 24 := by
    rw [length_beAll]; rfl
  rw [hl0] at r1 r2 r3 r4 r5 r6 r7 ha
  show (do let (a, p) ← rds buf [2, 2, 2, 2, 4, 4, 4, 4] pos; _) = _
  have r1' : rds buf [2, 2, 2, 2, 4, 4, 4, 4] pos = _ := r1
  simp only [r1', r2, r3, r4, r5, r6, r7, bind, Except.bind, e1, e2, e3, e4, e5, e6]
  cases movie with
  | none =>
    have hm' : ¬ (ex / 2 ^ 31 % 2 ≠ 0 ∧ pl = 4 ∧ 56 ≤ h.size) := by rw [testBit_div]; exact hm
    rw [if_neg hm']
    rfl
  | some q =>
    obtain ⟨a, flag, med⟩ := q
    obtain ⟨m1, m2, m3, m4, m5⟩ := hm
    have hm' : ex / 2 ^ 31 % 2 ≠ 0 ∧ pl = 4 ∧ 56 ≤ h.size := by rw [testBit_div]; exact ⟨m1, m2, m3⟩
    rw [if_pos hm']
    obtain ⟨r8, ha, hf⟩ := rds_append ha hf
    rw [map_fst_const, map_snd_const, length_beAll_const, m4] at r8
    rw [length_beAll_const, m4] at ha
    obtain ⟨r9, ha, hf⟩ := rd_cons ha hf
    have r8' : rds buf [4, 4, 4, 4, 4] (pos + 24 + 1 + 1 + 1 + 1 + 4 + 4) = _ := r8
    simp only [r8', r9]
    cases med with
    | none =>
      have hm2 : ¬ (flag / 2 ^ 30 % 2 ≠ 0 ∧ 84 < h.size) := by rw [testBit_div]; exact m5
      rw [if_neg hm2]
      congr 2
      rw [length_beAll]
      simp [Content.nums, movieNums, medianNums, map_fst_const, sum_replicate, m4]
    | some q =>
      obtain ⟨b, m⟩ := q
      obtain ⟨m6, m7, m8⟩ := m5
      have hm2 : flag / 2 ^ 30 % 2 ≠ 0 ∧ 84 < h.size := by rw [testBit_div]; exact ⟨m6, m7⟩
      rw [if_pos hm2]
      obtain ⟨r10, ha, hf⟩ := rds_append ha hf
      rw [map_fst_const, map_snd_const, length_beAll_const, m8] at r10
      rw [length_beAll_const, m8] at ha
      obtain ⟨r11, ha, hf⟩ := rd_cons ha hf
      have r10' : rds buf [4, 4, 4, 4, 4, 4] (pos + 24 + 1 + 1 + 1 + 1 + 4 + 4 + 5 * 4 + 4) = _ := r10
      simp only [r10', r11]
      congr 2
      rw [length_beAll]
      simp [Content.nums, movieNums, medianNums, map_fst_const, sum_replicate, m4, m8]

theorem fields_at {buf : List Nat} {k : Kind} {h : Hdr} {uuid : Option Nat} {wide : Bool} {tail : List Nat} {rest : Nat}
    (c : Content) (hs : Suits k uuid wide h.size tail c) (hf : Fit c.nums)
    (ha : At buf (h.offset + headLen uuid wide) (beAll c.nums))
    (hz : h.size = headLen uuid wide + (beAll c.nums).length + rest) (hr : container k = false → tail = [] → rest = 0)
    (hb : h.offset + h.size < 2 ^ 64) :
    fields buf k h (h.offset + headLen uuid wide)
      = .ok (c.vals, h.offset + headLen uuid wide + (beAll c.nums).length) := by
  have hend := endOff_ok hb
  generalize hp : h.offset + headLen uuid wide = pos at *
  cases c with
  | «opaque» =>
    have hk : k ∈ [Kind.mdat, .vendor, .xpacket, .moov, .trak, .mdia, .minf, .stbl, .cr3desc, .dinf, .hevc, .free, .skip,
      .ctbo, .thmb] := hs
    cases k <;> first | rfl | (exact absurd hk (by decide))
  | plain l =>
    have hw : widths k = some (l.map (·.1)) := hs
    rw [fields_plain hw]
    exact rds_at l ha hf
  | ftyp a b brands =>
    obtain ⟨rfl, rfl, rfl, rfl⟩ := hs
    have hr0 := hr rfl rfl
    have e : (beAll (Content.ftyp a b brands).nums).length = 8 + brands.length * 4 := by
      rw [length_beAll]
      show 4 + (4 + ((brands.map (fun x => (4, x))).map (·.1)).sum) = _
      rw [map_fst_const, sum_replicate]; omega
    have hsz : h.size = 16 + brands.length * 4 := by
      rw [hz, e, hr0]; show 8 + 0 + 0 + _ + 0 = _; omega
    obtain ⟨r1, ha, hf⟩ := rd_cons (l := (4, b) :: brands.map (fun x => (4, x))) ha hf
    obtain ⟨r2, ha, hf⟩ := rd_cons ha hf
    have r3 := rds_const ha hf
    have hu : usub h.size 16 = .ok (brands.length * 4) := by rw [usub, if_pos (by omega)]; congr 1; omega
    have hd : brands.length * 4 / 4 = brands.length := Nat.mul_div_cancel _ (by decide)
    have hm : h.size % 4 = 0 := by omega
    rw [e]
    show (do let (a, p) ← rds buf [4, 4] pos; _) = _
    simp only [rds, r1, r2, bind, Except.bind, hm, ne_eq, not_true_eq_false, if_false, hu, hd, r3]
    show Except.ok ([a, b] ++ brands, pos + 4 + 4 + brands.length * 4) = Except.ok (a :: b :: brands, _)
    congr 2
    omega
  | times f cr md ts du wd lang =>
    have key : ∀ (p : Nat) (l : List (Nat × Nat)),
        At buf p (beAll ((if wd then [(8, cr), (8, md), (4, ts), (8, du)] else [(4, cr), (4, md), (4, ts), (4, du)]) ++ l)) →
        Fit ((if wd then [(8, cr), (8, md), (4, ts), (8, du)] else [(4, cr), (4, md), (4, ts), (4, du)]) ++ l) →
        times buf (if wd then 1 else 0) p = .ok ([cr, md, ts, du], p + (if wd then 28 else 16)) ∧
        At buf (p + (if wd then 28 else 16)) (beAll l) ∧ Fit l := by
      intro p l h1 h2
      cases wd with
      | true =>
        have := rds_append (a := [(8, cr), (8, md), (4, ts), (8, du)]) h1 h2
        simpa [times, length_beAll] using this
      | false =>
        have := rds_append (a := [(4, cr), (4, md), (4, ts), (4, du)]) h1 h2
        simpa [times, length_beAll, assert', bind, Except.bind] using this
    obtain ⟨r1, ha, hf⟩ := rd_cons (l := (3, f) :: ((if wd then [(8, cr), (8, md), (4, ts), (8, du)] else
      [(4, cr), (4, md), (4, ts), (4, du)]) ++ langNums lang)) ha hf
    obtain ⟨r2, ha, hf⟩ := rd_cons ha hf
    obtain ⟨r3, ha, hf⟩ := key _ _ ha hf
    rcases hs with ⟨rfl, rfl⟩ | ⟨rfl, hl⟩
    · show (do let (v, p) ← rd buf pos 1; _) = _
      simp only [r1, r2, r3, bind, Except.bind]
      congr 2
      rw [length_beAll]
      cases wd <;> simp [Content.nums, langNums] <;> omega
    · cases lang with
      | none => cases hl
      | some lg =>
        obtain ⟨r4, ha, hf⟩ := rd_cons (l := []) ha hf
        show (do let (v, p) ← rd buf pos 1; _) = _
        simp only [r1, r2, r3, r4, bind, Except.bind]
        congr 2
        rw [length_beAll]
        cases wd <;> simp [Content.nums, langNums] <;> omega
  | stts v f runs =>
    cases (hs : k = .stts)
    obtain ⟨r1, ha, hf⟩ := rd_cons (l := (3, f) :: (4, runs.length) :: runs.flatMap (fun r : Nat × Nat => [(4, r.1), (4, r.2)])) ha hf
    obtain ⟨r2, ha, hf⟩ := rd_cons ha hf
    obtain ⟨r3, ha, hf⟩ := rd_cons ha hf
    have r4 := rds_flat [4, 4] (fun r : Nat × Nat => [(4, r.1), (4, r.2)]) runs (fun _ => rfl) ha hf
    show (do let (v, p) ← rd buf pos 1; _) = _
    simp only [r1, r2, r3, r4, bind, Except.bind]
    show Except.ok (v :: f :: runs.flatMap (fun r => [r.1, r.2]), _) = Except.ok (_, _)
    congr 2
    show _ = pos + (beAll ((1, v) :: (3, f) :: (4, runs.length) :: runs.flatMap (fun r : Nat × Nat => [(4, r.1), (4, r.2)]))).length
    rw [beAll_cons, beAll_cons, beAll_cons]
    simp only [List.length_append, length_be]
    omega
  | stsc v f runs =>
    obtain ⟨rfl, ho⟩ := hs
    obtain ⟨r1, ha, hf⟩ := rd_cons
      (l := (3, f) :: (4, runs.length) :: runs.flatMap (fun r : Nat × Nat × Nat => [(4, r.1), (4, r.2.1), (4, r.2.2)])) ha hf
    obtain ⟨r2, ha, hf⟩ := rd_cons ha hf
    obtain ⟨r3, ha, hf⟩ := rd_cons ha hf
    have r4 := stscEntries_at runs _ ha hf ho
    show (do let (v, p) ← rd buf pos 1; _) = _
    simp only [r1, r2, r3, r4, bind, Except.bind]
    show Except.ok (v :: f :: _, _) = Except.ok (v :: f :: _, _)
    congr 2
    · rw [List.flatMap_map]; rfl
    · show _ = pos + (beAll ((1, v) :: (3, f) :: (4, runs.length) ::
        runs.flatMap (fun r : Nat × Nat × Nat => [(4, r.1), (4, r.2.1), (4, r.2.2)]))).length
      rw [beAll_cons, beAll_cons, beAll_cons]
      simp only [List.length_append, length_be]
      omega
  | sizeOne v f s n =>
    obtain ⟨rfl, hs0⟩ := hs
    obtain ⟨r1, ha, hf⟩ := rd_cons (l := [(3, f), (4, s), (4, n)]) ha hf
    obtain ⟨r2, ha, hf⟩ := rd_cons ha hf
    obtain ⟨r3, ha, hf⟩ := rd_cons ha hf
    obtain ⟨r4, ha, hf⟩ := rd_cons ha hf
    show (do let (v, p) ← rd buf pos 1; _) = _
    simp only [r1, r2, r3, r4, hs0, if_false, bind, Except.bind]
    rfl
  | sizes v f l =>
    cases (hs : k = .stsz)
    obtain ⟨r1, ha, hf⟩ := rd_cons (l := (3, f) :: (4, 0) :: (4, l.length) :: l.map (fun x => (4, x))) ha hf
    obtain ⟨r2, ha, hf⟩ := rd_cons ha hf
    obtain ⟨r3, ha, hf⟩ := rd_cons ha hf
    obtain ⟨r4, ha, hf⟩ := rd_cons ha hf
    have r5 := rds_const ha hf
    show (do let (v, p) ← rd buf pos 1; _) = _
    simp only [r1, r2, r3, r4, r5, if_true, bind, Except.bind]
    show Except.ok (v :: f :: 0 :: l.length :: l, _) = Except.ok (v :: f :: 0 :: l.length :: l, _)
    congr 2
    show _ = pos + (beAll ((1, v) :: (3, f) :: (4, 0) :: (4, l.length) :: l.map (fun x => (4, x)))).length
    rw [beAll_cons, beAll_cons, beAll_cons, beAll_cons]
    simp only [List.length_append, length_be, length_beAll_const]
    omega
  | co64 v f l =>
    cases (hs : k = .co64)
    obtain ⟨r1, ha, hf⟩ := rd_cons (l := (3, f) :: (4, l.length) :: l.map (fun x => (8, x))) ha hf
    obtain ⟨r2, ha, hf⟩ := rd_cons ha hf
    obtain ⟨r3, ha, hf⟩ := rd_cons ha hf
    have r4 := rds_const ha hf
    show (do let (v, p) ← rd buf pos 1; _) = _
    simp only [r1, r2, r3, r4, bind, Except.bind]
    show Except.ok (v :: f :: l, _) = Except.ok (v :: f :: l, _)
    congr 2
    show _ = pos + (beAll ((1, v) :: (3, f) :: (4, l.length) :: l.map (fun x => (8, x)))).length
    rw [beAll_cons, beAll_cons, beAll_cons]
    simp only [List.length_append, length_be, length_beAll_const]
    omega
  | ctmd r d recs =>
    obtain ⟨rfl, rfl⟩ := hs
    have hr0 := hr rfl rfl
    have hlen : (beAll (Content.ctmd r d recs).nums).length
        = 6 + 2 + 4 + (beAll (recs.flatMap (fun x : Nat × Nat × Nat × Nat => [(1, x.1), (1, x.2.1), (2, x.2.2.1), (4, x.2.2.2)]))).length := by
      show (beAll ((6, r) :: (2, d) :: (4, recs.length) :: _)).length = _
      rw [beAll_cons, beAll_cons, beAll_cons]
      simp only [List.length_append, length_be]
      omega
    obtain ⟨r1, ha, hf⟩ := rd_cons (l := (2, d) :: (4, recs.length) ::
      recs.flatMap (fun x : Nat × Nat × Nat × Nat => [(1, x.1), (1, x.2.1), (2, x.2.2.1), (4, x.2.2.2)])) ha hf
    obtain ⟨r2, ha, hf⟩ := rd_cons ha hf
    obtain ⟨r3, ha, hf⟩ := rd_cons ha hf
    have r4 := rds_flat [1, 1, 2, 4] (fun x : Nat × Nat × Nat × Nat => [(1, x.1), (1, x.2.1), (2, x.2.2.1), (4, x.2.2.2)])
      recs (fun _ => rfl) ha hf
    have he : (pos + 6 + 2 + 4 + (beAll (recs.flatMap
        (fun x : Nat × Nat × Nat × Nat => [(1, x.1), (1, x.2.1), (2, x.2.2.1), (4, x.2.2.2)]))).length == h.offset + h.size) = true := by
      rw [beq_iff_eq]; omega
    show (do let (a, p) ← rds buf [6, 2] pos; _) = _
    simp only [rds, r1, r2, r3, r4, hend, bind, Except.bind, assert', he, if_true]
    rw [hlen]
    show Except.ok ([r, d] ++ recs.length :: recs.flatMap (fun x => [x.1, x.2.1, x.2.2.1, x.2.2.2]), _) = Except.ok (_, _)
    congr 2
    omega
  | cmp1 u hs' v s w ht tw th nb pl la en le tc tr hd ex movie =>
    obtain ⟨rfl, h'⟩ := hs
    exact fields_cmp1 h' hf ha
  | iad1 v f w ht u1 big u2 u3 ms =>
    obtain ⟨rfl, hm⟩ := hs
    obtain ⟨r1, ha, hf⟩ := rds_append (a := [(1, v), (3, f), (2, w), (2, ht), (2, u1)])
      (b := (2, if big then 2 else 0) :: (2, u2) :: (2, u3) :: ms.map (fun x => (2, x))) ha hf
    have hl0 : (beAll [(1, v), (3, f), (2, w), (2, ht), (2, u1)]).length = 10 := by
      rw [length_beAll]; rfl
    rw [hl0] at r1 ha
    obtain ⟨r2, ha, hf⟩ := rd_cons ha hf
    obtain ⟨r3, ha, hf⟩ := rds_append (a := [(2, u2), (2, u3)]) ha hf
    have hl1 : (beAll [(2, u2), (2, u3)]).length = 4 := by rw [length_beAll]; rfl
    rw [hl1] at r3 ha
    have r4 := rds_const ha hf
    have r1' : rds buf [1, 3, 2, 2, 2] pos = _ := r1
    have r3' : rds buf [2, 2] (pos + 10 + 2) = _ := r3
    rw [length_beAll]
    show (do let (a, p) ← rds buf [1, 3, 2, 2, 2] pos; _) = _
    simp only [r1', r2, r3', bind, Except.bind]
    cases big with
    | true =>
      rw [hm] at r4
      have r4' : rds buf (List.replicate 16 2) (pos + 10 + 2 + 4) = _ := r4
      simp only [if_true, r4', (by decide : ¬ (2 : Nat) = 0), if_false]
      congr 2
      simp only [Content.nums, List.map_append, map_fst_const, hm]
      rfl
    | false =>
      rw [hm] at r4
      have r4' : rds buf (List.replicate 8 2) (pos + 10 + 2 + 4) = _ := r4
      simp only [Bool.false_eq_true, if_false, if_true, r4']
      congr 2
      simp only [Content.nums, List.map_append, map_fst_const, hm]
      rfl
  | data bs =>
    obtain ⟨hk, rfl⟩ := hs
    have hc : container k = false := by
      have : ∀ j ∈ [Kind.cmt1, .cmt2, .cmt3, .cmt4, .cnop], container j = false := by decide
      exact this k hk
    have hr0 := hr hc rfl
    have hlen : (beAll (Content.data bs).nums).length = bs.length := by
      show (beAll (bs.map (fun x => (1, x)))).length = _
      rw [length_beAll_const, Nat.mul_one]
    have hu : usub (h.offset + h.size) pos = .ok bs.length := by
      rw [usub, if_pos (by omega)]; congr 1; omega
    have r1 := rds_const (w := 1) ha hf
    rw [hlen]
    rw [Nat.mul_one] at r1
    have key : (do
        let e ← endOff h
        let n ← usub e pos
        rds buf (List.replicate n 1) pos) = Except.ok (bs, pos + bs.length) := by
      simp only [hend, hu, r1, bind, Except.bind]
    cases k <;> first | exact key | (exact absurd hk (by decide))

end Verif.Bmff
