import Verif.Proofs.CrxQuant

namespace Verif.Crx

open CrxSpec Wav

/-- Only the zeros of the line above matter. -/
theorem encNontopNoRef_congr (up up' : Nat → Int) (kUp : Nat → Nat) (h : ∀ i, up i = 0 ↔ up' i = 0) :
    ∀ (fuel pos : Nat) (a : Int) (todo : List Int) (k s : Nat),
      encNontopNoRef up kUp fuel pos a todo k s = encNontopNoRef up' kUp fuel pos a todo k s := by
  intro fuel
  induction fuel with
  | zero => intro pos a todo k s; rfl
  | succ fuel ih =>
    intro pos a todo k s
    match todo with
    | [] => rfl
    | [v] => rfl
    | v :: w :: todo =>
      unfold encNontopNoRef
      have e : (a ≠ 0 ∨ up pos ≠ 0 ∨ up (pos + 1) ≠ 0) ↔ (a ≠ 0 ∨ up' pos ≠ 0 ∨ up' (pos + 1) ≠ 0) := by
        rw [Ne, Ne, Ne, Ne, Ne, h pos, h (pos + 1)]
      by_cases hc : (a ≠ 0 ∨ up pos ≠ 0 ∨ up (pos + 1) ≠ 0)
      · rw [if_pos hc, if_pos (e.mp hc)]
        dsimp only
        rw [ih]
      · rw [if_neg hc, if_neg (fun x => hc (e.mpr x))]
        dsimp only
        split
        · rfl
        · rfl
        · rw [ih]

/-- A step for every coefficient, none of them 0, and no product overflows. -/
def StepsOK (b : BandInfo) (qs : Option QStep) (w r0 : Nat) (F : Nat → Nat → Int) (lines : List (List Int)) : Prop :=
  ∀ r (hr : r < lines.length), ScalesBy b qs w (r0 + r) (F r) ∧ (∀ c, F r c ≠ 0) ∧ FitsI32 (F r) lines[r]

theorem stepsOK_tail (b : BandInfo) (qs : Option QStep) (w r0 : Nat) (F : Nat → Nat → Int) (l : List Int) (lines : List (List Int))
    (h : StepsOK b qs w r0 F (l :: lines)) : StepsOK b qs w (r0 + 1) (fun r => F (r + 1)) lines := by
  intro r hr
  have := h (r + 1) (by simpa using hr)
  rw [Nat.add_assoc, Nat.add_comm 1 r]
  exact this

theorem nextLine_of (b : BandInfo) (qs : Option QStep) (p q : Band) (left e : Int) (line : List Int) (f : Nat → Int) (hds : b.dataSize ≠ 0)
    (hsp : b.supportPartial = false ∨ qs ≠ none) (hd : decodeLine p = .ok q) (hl : q.line1 = left :: line ++ [e]) (hw : q.width = line.length) (r : Nat)
    (hc : q.curLine = r + 1) (hs : ScalesBy b qs line.length r f) (hi : FitsI32 f line) :
    nextLine (b, qs, p) = .ok (line.mapIdx fun i v => v * f i, (b, qs, { q with line1 := left :: (line.mapIdx fun i v => v * f i) ++ [e] })) := by
  unfold nextLine
  rw [if_neg hds, if_neg (by rcases hsp with h | h <;> simp [h])]
  simp only [hd, bind, Except.bind]
  rw [hs q left e line hw rfl hc hi hl]
  simp only
  rw [decodedBuf_done _ left (line.mapIdx fun i v => v * f i) ⟨e, rfl⟩ (by simp [hw])]

theorem quantRest_ok (b : BandInfo) (qs : Option QStep) (hds : b.dataSize ≠ 0) (hbp : b.supportPartial = false ∨ qs ≠ none) (w : Nat) :
    ∀ (lines : List (List Int)) (F : Nat → Nat → Int) (p : Band) (above above' t : List Int) (ks tk : List Nat) (rest : List Bool) (r0 : Nat),
    Done p 0 above' → above.length = w → above'.length = w → (∀ i : Nat, above.getD i 0 = 0 ↔ above'.getD i 0 = 0) → p.width = w →
    p.line0 = 0 :: t → p.line0.length = w + 2 → p.curLine = r0 → 0 < r0 → r0 + lines.length ≤ p.height →
    p.supportsPartial = false → p.lineK = ks ++ tk → tk.length = 2 → ks.length = w → (∀ x ∈ ks, x ≤ 15) → p.k ≤ 15 → p.s ≤ 31 →
    (∀ l ∈ lines, l.length = w ∧ ∀ v ∈ l, Coeff v) → StepsOK b qs w r0 F lines → p.bits = encRestNoRef above ks lines p.k p.s ++ rest →
    Gives nextLine (b, qs, p) (scaleAt F lines)
  | [], _, _, _, _, _, _, _, _, _, _, _, _, _, _, _, _, _, _, _, _, _, _, _, _, _, _, _, _, _ => trivial
  | line :: lines, F, p, above, above', t, ks, tk, rest, r0, hd, ha, ha', hz, hw, ht, hl0, hc, hr0, hh, hsp, hlk, htk, hks, hk15, hk, hs, hlines,
      hsteps, hb => by
    obtain ⟨e, he⟩ := hd
    have hl := hlines line (by simp)
    rw [encRestNoRef] at hb
    dsimp only at hb
    rw [List.append_assoc] at hb
    rw [encNontopNoRef_congr _ (fun i => if i = 0 then 0 else above'.getD (i - 1) 0) _ (by
      intro i
      split
      · simp
      · exact hz _)] at hb
    obtain ⟨q, hq, hdone, q0, q1, q2, q4, q5, ⟨t', qk, qkl⟩, qks, qk15, q6, q7, q8, q9, q10⟩ := nontopNoRefLine_ok
      { p with pos := 1, line0 := p.line1, line1 := p.line0 } e above' line t ks tk _ (by simp [hw, hl.1]) rfl
      (by rw [ha', hl.1]) he ht (by simp [hl0, hl.1]) hlk htk (by rw [hks, hl.1]) hk15 hk hs hl.2 hb
    simp only [List.length_cons] at hh
    have hdec : decodeLine p = .ok { q with curLine := p.curLine + 1 } := by
      rw [decodeLine_laterNoRef p q (by omega) (by omega) hsp hq]
      simp only [q4]
    obtain ⟨e', he'⟩ := hdone
    have hst := hsteps 0 (by simp)
    have hqw : q.width = line.length := by rw [q1]; simp [hw, hl.1]
    have hn := nextLine_of b qs p { q with curLine := p.curLine + 1 } 0 e' line (F 0) hds hbp hdec he' hqw r0 (by simp [hc])
      (by rw [hl.1]; exact hst.1) hst.2.2
    have e0 : scaleAt F (line :: lines) = (line.mapIdx fun c v => v * F 0 c) :: scaleAt (fun r => F (r + 1)) lines := by
      simp [scaleAt, List.mapIdx_cons]
    rw [e0]
    refine ⟨_, hn, ?_⟩
    refine quantRest_ok b qs hds hbp w lines _ _ line _ (above' ++ [e]) _ t' rest (r0 + 1) ⟨e', rfl⟩ hl.1 (by simp [hl.1]) ?_ (by simpa [hl.1] using hqw)
      (by simp only [q0]; rw [he]; rfl) (by simp only [q0]; rw [he]; simp [ha']) (by simp [hc]) (by omega) (by simp only [q2]; omega) (by simpa [hsp] using q5)
      qk qkl (by rw [qks, hl.1]) qk15 q9 q10 (fun l hl => hlines l (by simp [hl])) (stepsOK_tail _ _ _ _ _ _ _ hsteps) (by simp only [q8, q6, q7])
    intro i
    by_cases hi : i < line.length
    · have := hst.2.1 i
      simp only [List.getD_eq_getElem?_getD, List.getElem?_mapIdx, List.getElem?_eq_getElem hi, Option.map_some, Option.getD_some]
      constructor
      · intro h; rw [h]; simp
      · intro h
        rcases Int.mul_eq_zero.mp h with h | h
        · exact h
        · exact absurd h this
    · simp [List.getD_eq_getElem?_getD, List.getElem?_eq_none (Nat.le_of_not_lt hi)]

theorem quantBand_ok (b : BandInfo) (qs : Option QStep) (hds : b.dataSize ≠ 0) (hbp : b.supportPartial = false ∨ qs ≠ none) (lines : List (List Int)) (w : Nat)
    (rest : List Bool) (hlines : ∀ l ∈ lines, l.length = w ∧ ∀ v ∈ l, Coeff v) (F : Nat → Nat → Int) (hsteps : StepsOK b qs w 0 F lines) :
    Gives nextLine (b, qs, newBand w lines.length false (encBandNoRef lines ++ rest)) (scaleAt F lines) := by
  cases lines with
  | nil => trivial
  | cons line lines =>
    have hl := hlines line (by simp)
    have hb : (newBand w (line :: lines).length false (encBandNoRef (line :: lines) ++ rest)).bits =
        (encTopNoRef line.length 0 line 0 0).1 ++ (encRestNoRef line (encTopNoRef line.length 0 line 0 0).2.1 lines
          (encTopNoRef line.length 0 line 0 0).2.2.1 (encTopNoRef line.length 0 line 0 0).2.2.2 ++ rest) := by
      simp [newBand, encBandNoRef]
    obtain ⟨q, hq, hdone, ⟨t, qt⟩, q0, q1, q2, q4, q5, ⟨t', qk, qkl⟩, qks, qk15, q6, q7, q8, q9, q10⟩ := topNoRefLine_ok
      { newBand w (line :: lines).length false (encBandNoRef (line :: lines) ++ rest) with pos := 1, s := 0, k := 0 } line _
      (by simp [newBand, hl.1]) rfl (by simp [newBand, hl.1]) (by simp [newBand, hl.1]) (by simp [newBand, hl.1]) rfl rfl hl.2 hb
    have hdec : decodeLine (newBand w (line :: lines).length false (encBandNoRef (line :: lines) ++ rest)) = .ok { q with curLine := 1 } := by
      rw [decodeLine_firstNoRef _ q (by simp [newBand]) rfl rfl hq]
      simp only [q4]
      rfl
    obtain ⟨e', he'⟩ := hdone
    have hst := hsteps 0 (by simp)
    have hqw : q.width = line.length := by rw [q1]; simp [newBand, hl.1]
    have hn := nextLine_of b qs _ { q with curLine := 1 } 0 e' line (F 0) hds hbp hdec he' hqw 0 rfl (by rw [hl.1]; exact hst.1) hst.2.2
    have e0 : scaleAt F (line :: lines) = (line.mapIdx fun c v => v * F 0 c) :: scaleAt (fun r => F (r + 1)) lines := by
      simp [scaleAt, List.mapIdx_cons]
    rw [e0]
    refine ⟨_, hn, ?_⟩
    refine quantRest_ok b qs hds hbp w lines _ _ line _ t _ t' rest 1 ⟨e', rfl⟩ hl.1 (by simp [hl.1]) ?_ (by simpa [hl.1] using hqw)
      qt (by simp only [q0]; rw [hl.1]) rfl (by omega) (by simp only [q2]; simp [newBand]; omega) (by simp only [q5]; rfl)
      qk qkl (by rw [qks, hl.1]) qk15 q9 q10 (fun l hl => hlines l (by simp [hl]))
      (by have := stepsOK_tail _ _ _ _ _ _ _ hsteps; simpa using this) (by simp only [q8, q6, q7])
    intro i
    by_cases hi : i < line.length
    · have := hst.2.1 i
      simp only [List.getD_eq_getElem?_getD, List.getElem?_mapIdx, List.getElem?_eq_getElem hi, Option.map_some, Option.getD_some]
      constructor
      · intro h; rw [h]; simp
      · intro h
        rcases Int.mul_eq_zero.mp h with h | h
        · exact h
        · exact absurd h this
    · simp [List.getD_eq_getElem?_getD, List.getElem?_eq_none (Nat.le_of_not_lt hi)]

theorem fits_one (line : List Int) (h : ∀ v ∈ line, Small v) : FitsI32 (fun _ => 1) line := by
  intro k hk
  have := h _ (List.getElem_mem hk)
  unfold Small at this
  simp only [Int.mul_one]
  omega

theorem nextLine_one (b : BandInfo) (qs : Option QStep) (p q : Band) (left : Int) (line : List Int) (hds : b.dataSize ≠ 0)
    (hsp : b.supportPartial = false ∨ qs ≠ none) (hd : decodeLine p = .ok q) (hl : Done q left line) (hw : q.width = line.length) (r : Nat)
    (hc : q.curLine = r + 1) (hs : ScalesBy b qs line.length r fun _ => 1) (hi : ∀ v ∈ line, Small v) :
    nextLine (b, qs, p) = .ok (line, (b, qs, q)) := by
  obtain ⟨e, he⟩ := hl
  unfold nextLine
  rw [if_neg hds, if_neg (by rcases hsp with h | h <;> simp [h])]
  simp only [hd, bind, Except.bind]
  rw [hs q left e line hw rfl hc (fits_one line hi) he]
  simp only
  have : { q with line1 := left :: (line.mapIdx fun _ v => v * 1) ++ [e] } = q := by rw [mapIdx_one, ← he]
  rw [this, decodedBuf_done q left line ⟨e, he⟩ hw]

/-- The lines of a band that refers to the line above and is not scaled -/
theorem refRest_ok (b : BandInfo) (qs : Option QStep) (hds : b.dataSize ≠ 0) (hbp : b.supportPartial = false ∨ qs ≠ none) (w : Nat) (hw0 : 0 < w) :
    ∀ (lines : List (List Int)) (p : Band) (left : Int) (above : List Int) (rest : List Bool) (r0 : Nat),
    Done p left above → above.length = w → p.width = w → p.line0.length = w + 2 → p.curLine = r0 → 0 < r0 → r0 + lines.length ≤ p.height →
    p.mask ≤ 0 → p.supportsPartial = true → Small left → (∀ v ∈ above, Small v) → p.k ≤ 15 → p.s ≤ 31 →
    (∀ l ∈ lines, l.length = w ∧ ∀ v ∈ l, Small v) → (∀ r, r < lines.length → ScalesBy b qs w (r0 + r) fun _ => 1) →
    p.bits = encRest left above lines p.k p.s ++ rest → Gives nextLine (b, qs, p) lines
  | [], _, _, _, _, _, _, _, _, _, _, _, _, _, _, _, _, _, _, _, _, _ => trivial
  | line :: lines, p, left, above, rest, r0, hd, ha, hw, hl0, hc, hr0, hh, hm, hsp, hleft, habove, hk, hs, hlines, hst, hb => by
    obtain ⟨e, he⟩ := hd
    have hl := hlines line (by simp)
    rw [encRest] at hb
    dsimp only at hb
    rw [List.append_assoc] at hb
    obtain ⟨q, hq, hdone, q0, q1, q2, q3, q4, q5, q6, q7, q8, q9, q10⟩ := nontopLine_ok
      { p with pos := 1, line0 := p.line1, line1 := p.line0 } left e above line _ (by simp [hw, hl.1]) rfl
      (by intro h; rw [h] at hl; simp at hl; omega) (by rw [ha, hl.1]) he hleft habove
      (by simp [hl0, hl.1]) hk hs hl.2 hb
    simp only [List.length_cons] at hh
    have hdec : decodeLine p = .ok { q with curLine := p.curLine + 1 } := by
      rw [decodeLine_later p q (by omega) (by omega) hsp hm hq]
      simp only [q4]
    have hqw : q.width = line.length := by rw [q1]; simp [hw, hl.1]
    refine ⟨_, nextLine_one b qs p { q with curLine := p.curLine + 1 } _ line hds hbp hdec hdone hqw r0 (by simp [hc])
      (by rw [hl.1]; exact hst 0 (by simp)) hl.2, ?_⟩
    have hfirst : Small (if 1 = 0 then left else above.getD (1 - 1) 0) := by
      rw [if_neg (by omega), List.getD_eq_getElem?_getD]
      cases hq' : above[1 - 1]? with
      | none => simp [Small]
      | some v => exact habove v (List.mem_of_getElem? hq')
    exact refRest_ok b qs hds hbp w hw0 lines { q with curLine := p.curLine + 1 } _ line rest (r0 + 1) hdone hl.1 (by simpa [hl.1] using hqw)
      (by simp only [q0]; rw [he]; simp [ha]) (by simp [hc]) (by omega) (by simp only [q2]; omega) (by simpa [q3] using hm) (by simpa [hsp] using q5)
      hfirst hl.2 q9 q10 (fun l hl => hlines l (by simp [hl]))
      (fun r hr => by have := hst (r + 1) (by simpa using hr); rwa [show r0 + 1 + r = r0 + (r + 1) by omega]) (by simp only [q8, q6, q7])

theorem refBand_ok (b : BandInfo) (qs : Option QStep) (hds : b.dataSize ≠ 0) (hbp : b.supportPartial = false ∨ qs ≠ none)
    (lines : List (List Int)) (w : Nat) (rest : List Bool) (hw : 0 < w)
    (hlines : ∀ l ∈ lines, l.length = w ∧ ∀ v ∈ l, Small v) (hst : ∀ r, r < lines.length → ScalesBy b qs w r fun _ => 1) :
    Gives nextLine (b, qs, newBand w lines.length true (encBand lines ++ rest)) lines := by
  cases lines with
  | nil => trivial
  | cons line lines =>
    have hl := hlines line (by simp)
    have hb : (newBand w (line :: lines).length true (encBand (line :: lines) ++ rest)).bits =
        (encTop line.length 0 line 0 0).1 ++ (encRest 0 line lines (encTop line.length 0 line 0 0).2.1 (encTop line.length 0 line 0 0).2.2 ++ rest) := by
      simp [newBand, encBand]
    obtain ⟨q, hq, hdone, q0, q1, q2, q3, q4, q5, q6, q7, q8, q9, q10⟩ := topLine_ok
      { newBand w (line :: lines).length true (encBand (line :: lines) ++ rest) with pos := 1, s := 0, k := 0 } line _
      (by simp [newBand, hl.1]) rfl (by simp [newBand, hl.1]) rfl rfl hl.2 hb
    have hdec : decodeLine (newBand w (line :: lines).length true (encBand (line :: lines) ++ rest)) = .ok { q with curLine := 1 } := by
      rw [decodeLine_first _ q (by simp [newBand]) rfl rfl (by simp [newBand]) hq]
      simp only [q4]
      rfl
    have hqw : q.width = line.length := by rw [q1]; simp [newBand, hl.1]
    refine ⟨_, nextLine_one b qs _ { q with curLine := 1 } _ line hds hbp hdec hdone hqw 0 rfl
      (by rw [hl.1]; exact hst 0 (by simp)) hl.2, ?_⟩
    exact refRest_ok b qs hds hbp w hw lines { q with curLine := 1 } 0 line rest 1 hdone hl.1 (by simpa [hl.1] using hqw)
      (by simp only [q0]; simp [newBand]) rfl (by omega) (by simp only [q2]; simp [newBand]; omega) (by simp only [q3]; simp [newBand]) (by simp only [q5]; rfl)
      (by simp [Small]) hl.2 q9 q10 (fun l hl => hlines l (by simp [hl]))
      (fun r hr => by have := hst (r + 1) (by simpa using hr); rwa [Nat.add_comm] at this) (by simp only [q8, q6, q7])

end Verif.Crx
