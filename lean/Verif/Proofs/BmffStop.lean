import Verif.Proofs.BmffTree
/-! # Helper lemmas for C68: when the box loops end -/

namespace Verif.Bmff
open Verif.BmffSpec

theorem rd_inv {buf : List Nat} {p n v q : Nat} (h : rd buf p n = .ok (v, q)) : q = p + n ∧ n ≤ buf.length - p := by
  unfold rd at h
  by_cases hc : n ≤ buf.length - p
  · rw [if_pos hc] at h; cases h; exact ⟨rfl, hc⟩
  · rw [if_neg hc] at h; cases h

theorem rds_inv {buf : List Nat} (ws : List Nat) : ∀ {p : Nat} {v : List Nat} {q : Nat}, rds buf ws p = .ok (v, q) → p ≤ q := by
  induction ws with
  | nil => intro p v q h; cases h; exact Nat.le_refl _
  | cons w ws ih =>
    intro p v q h
    rw [rds] at h
    cases h1 : rd buf p w with
    | error e => rw [h1] at h; cases h
    | ok a =>
      obtain ⟨x, p1⟩ := a
      rw [h1] at h
      have h' : (do let (vs, p) ← rds buf ws p1; Except.ok (x :: vs, p)) = Except.ok (v, q) := h
      cases h2 : rds buf ws p1 with
      | error e => rw [h2] at h'; cases h'
      | ok b =>
        obtain ⟨y, p2⟩ := b
        rw [h2] at h'
        cases h'
        have := (rd_inv h1).1
        have := ih h2
        omega

/-- A header is at least eight bytes long and starts inside the file. -/
theorem parseHdr_inv {buf : List Nat} {pos : Nat} {h : Hdr} {p : Nat} (hp : parseHdr buf pos = .ok (h, p)) :
    h.offset = pos ∧ pos + 8 ≤ p ∧ pos + 8 ≤ buf.length := by
  unfold parseHdr at hp
  cases h1 : rd buf pos 4 with
  | error e => rw [h1] at hp; cases hp
  | ok a =>
    obtain ⟨s, p1⟩ := a
    obtain ⟨e1, l1⟩ := rd_inv h1
    cases h2 : rd buf p1 4 with
    | error e => simp only [h1, h2, bind, Except.bind] at hp; cases hp
    | ok b =>
      obtain ⟨t, p2⟩ := b
      obtain ⟨e2, l2⟩ := rd_inv h2
      simp only [h1, h2, bind, Except.bind] at hp
      by_cases hs : s = 1
      · rw [if_pos hs] at hp
        cases h3 : rd buf p2 8 with
        | error e => rw [h3] at hp; cases hp
        | ok c =>
          obtain ⟨s', p3⟩ := c
          obtain ⟨e3, l3⟩ := rd_inv h3
          rw [h3] at hp
          simp only at hp
          by_cases ht : t = uuidTyp
          · rw [if_pos ht] at hp
            cases h4 : rd buf p3 16 with
            | error e => rw [h4] at hp; cases hp
            | ok d =>
              obtain ⟨u, p4⟩ := d
              rw [h4] at hp
              obtain ⟨e4, l4⟩ := rd_inv h4
              cases hp
              exact ⟨rfl, by omega, by omega⟩
          · rw [if_neg ht] at hp
            cases hp
            exact ⟨rfl, by omega, by omega⟩
      · rw [if_neg hs] at hp
        by_cases ht : t = uuidTyp
        · rw [if_pos ht] at hp
          cases h4 : rd buf p2 16 with
          | error e => rw [h4] at hp; cases hp
          | ok d =>
            obtain ⟨u, p4⟩ := d
            rw [h4] at hp
            obtain ⟨e4, l4⟩ := rd_inv h4
            cases hp
            exact ⟨rfl, by omega, by omega⟩
        · rw [if_neg ht] at hp
          cases hp
          exact ⟨rfl, by omega, by omega⟩

theorem plain_of_container {k : Kind} (hc : container k = true) : (∃ ws, widths k = some ws) ∨
    ∀ buf h p, fields buf k h p = .ok ([], p) := by
  cases k <;> first
    | (exact absurd hc (by decide))
    | (exact Or.inl ⟨_, rfl⟩)
    | (exact Or.inr (fun _ _ _ => rfl))

theorem fields_ge {buf : List Nat} {k : Kind} {h : Hdr} {p : Nat} {v : List Nat} {q : Nat} (hc : container k = true)
    (hf : fields buf k h p = .ok (v, q)) : p ≤ q := by
  rcases plain_of_container hc with ⟨ws, hw⟩ | h1
  · rw [fields_plain hw] at hf
    exact rds_inv ws hf
  · rw [h1] at hf; cases hf; exact Nat.le_refl _

/-- The box walk started at `pos` in a box of kind `c` comes to a box header at `o`. -/
inductive Visits (buf : List Nat) : Kind → Nat → Nat → Nat → Prop
  /-- the walk is at `pos` -/
  | here {c stop pos} : pos < stop → Visits buf c stop pos pos
  /-- into a child container -/
  | into {c stop pos o h p k v q} : pos < stop → parseHdr buf pos = .ok (h, p) → act c h = .read k → container k = true →
      fields buf k h p = .ok (v, q) → Visits buf k (h.offset + h.size) q o → Visits buf c stop pos o
  /-- to the next box -/
  | next {c stop pos o h p k} : pos < stop → parseHdr buf pos = .ok (h, p) → act c h = .read k →
      Visits buf c stop (h.offset + h.size) o → Visits buf c stop pos o
  /-- over the header of a box that is not read -/
  | over {c stop pos o h p} : pos < stop → parseHdr buf pos = .ok (h, p) → act c h = .over →
      Visits buf c stop p o → Visits buf c stop pos o

theorem readWith_ok {buf : List Nat} {tiff : List Nat → R Unit} {loop : Kind → Nat → Nat → Option (R (List PBox × Nat))}
    {k : Kind} {h : Hdr} {p : Nat} {b : PBox} {q : Nat} (hr : readWith buf tiff loop k h p = some (.ok (b, q))) :
    q = h.offset + h.size := by
  unfold readWith at hr
  cases h1 : fields buf k h p with
  | error e => rw [h1] at hr; cases hr
  | ok a =>
    obtain ⟨v, q1⟩ := a
    simp only [h1] at hr
    unfold endOff at hr
    by_cases hb : h.offset + h.size < 2 ^ 64
    · simp only [if_pos hb] at hr
      cases h2 : (if container k then loop k (h.offset + h.size) q1 else some (.ok ([], q1))) with
      | none => rw [h2] at hr; cases hr
      | some x =>
        rw [h2] at hr
        cases x with
        | error e => cases hr
        | ok y =>
          obtain ⟨kids, z⟩ := y
          simp only at hr
          by_cases h3 : (required k).all (fun r => has r kids) = true
          · rw [if_pos h3] at hr
            cases h4 : (if isCmt k then tiff v else .ok ()) with
            | error e => rw [h4] at hr; cases hr
            | ok u => rw [h4] at hr; cases hr; rfl
          · rw [if_neg h3] at hr; cases hr
    · simp only [if_neg hb] at hr; cases hr

theorem readWith_none {buf : List Nat} {tiff : List Nat → R Unit} {loop : Kind → Nat → Nat → Option (R (List PBox × Nat))}
    {k : Kind} {h : Hdr} {p : Nat} (hr : readWith buf tiff loop k h p = none) :
    ∃ v q, container k = true ∧ fields buf k h p = .ok (v, q) ∧ loop k (h.offset + h.size) q = none := by
  unfold readWith at hr
  cases h1 : fields buf k h p with
  | error e => rw [h1] at hr; cases hr
  | ok a =>
    obtain ⟨v, q1⟩ := a
    simp only [h1] at hr
    unfold endOff at hr
    by_cases hb : h.offset + h.size < 2 ^ 64
    · simp only [if_pos hb] at hr
      cases h2 : (if container k then loop k (h.offset + h.size) q1 else some (.ok ([], q1))) with
      | none =>
        cases hc : container k with
        | false => rw [hc] at h2; cases h2
        | true => rw [hc] at h2; exact ⟨v, q1, rfl, rfl, h2⟩
      | some x =>
        rw [h2] at hr
        cases x with
        | error e => cases hr
        | ok y =>
          obtain ⟨kids, z⟩ := y
          simp only at hr
          by_cases h3 : (required k).all (fun r => has r kids) = true
          · rw [if_pos h3] at hr
            cases h4 : (if isCmt k then tiff v else .ok ()) with
            | error e => rw [h4] at hr; cases hr
            | ok u => rw [h4] at hr; cases hr
          · rw [if_neg h3] at hr; cases hr
    · simp only [if_neg hb] at hr; cases hr

/-- A walk that is cut off after more steps than the file has bytes has met a box of size zero. -/
theorem scan_none {buf : List Nat} {tiff : List Nat → R Unit} (n : Nat) : ∀ (c : Kind) (stop pos : Nat) (acc : List PBox),
    scan buf tiff n c stop pos acc = none → buf.length - pos < n →
    ∃ o h p, Visits buf c stop pos o ∧ parseHdr buf o = .ok (h, p) ∧ h.size = 0 := by
  induction n with
  | zero => intro c stop pos acc _ h; exact absurd h (Nat.not_lt_zero _)
  | succ n ih =>
    intro c stop pos acc h hn
    rw [scan] at h
    by_cases hs : pos < stop
    · rw [if_pos hs] at h
      cases h1 : parseHdr buf pos with
      | error e => rw [h1] at h; cases h
      | ok a =>
        obtain ⟨hd, p⟩ := a
        obtain ⟨i1, i2, i3⟩ := parseHdr_inv h1
        simp only [h1] at h
        cases h2 : act c hd with
        | reject => rw [h2] at h; cases h
        | over =>
          rw [h2] at h
          obtain ⟨o, h', p', v, r1, r2⟩ := ih c stop p acc h (by omega)
          exact ⟨o, h', p', .over hs h1 h2 v, r1, r2⟩
        | read k =>
          simp only [h2] at h
          by_cases hd' : c = .stsd ∧ k ≠ .vendor ∧ has k acc = true
          · rw [if_pos hd'] at h; cases h
          · rw [if_neg hd'] at h
            cases h3 : readWith buf tiff (fun c e q => scan buf tiff n c e q []) k hd p with
            | none =>
              obtain ⟨v, q, hc, hf, hl⟩ := readWith_none h3
              have hq := fields_ge hc hf
              obtain ⟨o, h', p', vi, r1, r2⟩ := ih k _ q [] hl (by omega)
              exact ⟨o, h', p', .into hs h1 h2 hc hf vi, r1, r2⟩
            | some x =>
              rw [h3] at h
              cases x with
              | error e => cases h
              | ok y =>
                obtain ⟨b, q⟩ := y
                have hq := readWith_ok h3
                simp only at h
                by_cases hst : c = .file ∧ q = pos
                · rw [if_pos hst] at h; cases h
                · rw [if_neg hst] at h
                  by_cases hz : hd.size = 0
                  · exact ⟨pos, hd, p, .here hs, h1, hz⟩
                  · obtain ⟨o, h', p', vi, r1, r2⟩ := ih c stop q _ h (by omega)
                    rw [hq] at vi
                    exact ⟨o, h', p', .next hs h1 h2 vi, r1, r2⟩
    · rw [if_neg hs] at h; cases h

theorem readWith_mono {buf : List Nat} {tiff : List Nat → R Unit}
    {l1 l2 : Kind → Nat → Nat → Option (R (List PBox × Nat))} (hl : ∀ c e q r, l1 c e q = some r → l2 c e q = some r)
    {k : Kind} {h : Hdr} {p : Nat} {r : R (PBox × Nat)} (hr : readWith buf tiff l1 k h p = some r) :
    readWith buf tiff l2 k h p = some r := by
  unfold readWith at hr ⊢
  cases h1 : fields buf k h p with
  | error e => rw [h1] at hr; exact hr
  | ok a =>
    obtain ⟨v, q1⟩ := a
    simp only [h1] at hr ⊢
    cases h0 : endOff h with
    | error e => rw [h0] at hr; exact hr
    | ok e =>
      simp only [h0] at hr ⊢
      cases hc : container k with
      | false => simp only [hc, Bool.false_eq_true, if_false] at hr ⊢; exact hr
      | true =>
        simp only [hc, if_true] at hr ⊢
        cases h2 : l1 k e q1 with
        | none => rw [h2] at hr; cases hr
        | some x => rw [h2] at hr; rw [hl k e q1 x h2]; exact hr

theorem scan_succ {buf : List Nat} {tiff : List Nat → R Unit} (n : Nat) : ∀ (c : Kind) (stop pos : Nat) (acc : List PBox)
    (r : R (List PBox × Nat)), scan buf tiff n c stop pos acc = some r → scan buf tiff (n + 1) c stop pos acc = some r := by
  induction n with
  | zero => intro c stop pos acc r h; cases h
  | succ n ih =>
    intro c stop pos acc r h
    rw [scan] at h ⊢
    by_cases hs : pos < stop
    · rw [if_pos hs] at h ⊢
      cases h1 : parseHdr buf pos with
      | error e => rw [h1] at h; exact h
      | ok a =>
        obtain ⟨hd, p⟩ := a
        simp only [h1] at h ⊢
        cases h2 : act c hd with
        | reject => rw [h2] at h; exact h
        | over => rw [h2] at h; exact ih _ _ _ _ _ h
        | read k =>
          simp only [h2] at h ⊢
          by_cases hd' : c = .stsd ∧ k ≠ .vendor ∧ has k acc = true
          · rw [if_pos hd'] at h ⊢; exact h
          · rw [if_neg hd'] at h ⊢
            cases h3 : readWith buf tiff (fun c e q => scan buf tiff n c e q []) k hd p with
            | none => rw [h3] at h; cases h
            | some x =>
              rw [readWith_mono (fun c e q r hr => ih c e q [] r hr) h3]
              rw [h3] at h
              cases x with
              | error e => exact h
              | ok y =>
                obtain ⟨b, q⟩ := y
                simp only at h ⊢
                by_cases hst : c = .file ∧ q = pos
                · rw [if_pos hst] at h ⊢; exact h
                · rw [if_neg hst] at h ⊢; exact ih _ _ _ _ _ h
    · rw [if_neg hs] at h ⊢; exact h

theorem scan_mono {buf : List Nat} {tiff : List Nat → R Unit} {n m : Nat} (h : n ≤ m) {c : Kind} {stop pos : Nat}
    {acc : List PBox} {r : R (List PBox × Nat)} (hr : scan buf tiff n c stop pos acc = some r) :
    scan buf tiff m c stop pos acc = some r := by
  induction m with
  | zero => rw [Nat.le_zero.1 h] at hr; exact hr
  | succ m ih =>
    rcases Nat.lt_or_ge n (m + 1) with hlt | hge
    · exact scan_succ m _ _ _ _ _ (ih (by omega))
    · rw [Nat.le_antisymm h hge] at hr; exact hr

end Verif.Bmff
