import Verif.Proofs.CrxLine

/-! Whole bands that refer to the line above. -/

namespace Verif.Crx
open CrxSpec

theorem closeLine_B (base : Band) (pre : List Int) (a j : Int) (k s : Nat) (bits : List Bool) (ha : Small a) :
    closeLine (B base (pre ++ [a]) [j] k s bits) = .ok { B base (pre ++ [a]) [a + 1] k s bits with pos := (pre ++ [a]).length } := by
  rw [closeLine, assert', if_pos (by simp [B])]
  simp only [bind, Except.bind]
  rw [coeffA_B]
  simp only
  rw [i32_ok _ (by unfold Small at ha; omega) (by unfold Small at ha; omega)]
  simp only
  rw [put_B]

theorem drop_len_one (junk : List Int) (n : Nat) (h : n + 1 = junk.length) : ∃ j, junk.drop n = [j] := by
  cases hq : junk.drop n with
  | nil => have := congrArg List.length hq; simp at this; omega
  | cons a b =>
    have := congrArg List.length hq
    simp at this
    have : b = [] := by cases b <;> simp_all; omega
    exact ⟨a, by rw [this]⟩

/-- The line buffer after a line with left border `left` has been decoded. -/
def Done (p : Band) (left : Int) (line : List Int) : Prop := ∃ e, p.line1 = left :: line ++ [e]

theorem topLine_ok (p : Band) (line : List Int) (rest : List Bool) (hw : p.width = line.length) (hp : p.pos = 1)
    (hl : p.line1.length = line.length + 2) (hk : p.k = 0) (hs : p.s = 0) (hsm : ∀ v ∈ line, Small v)
    (hb : p.bits = (encTop line.length 0 line 0 0).1 ++ rest) :
    ∃ q, topLine p = .ok q ∧ Done q 0 line ∧ q.line0 = p.line0 ∧ q.width = p.width ∧ q.height = p.height ∧
      q.mask = p.mask ∧ q.curLine = p.curLine ∧ q.supportsPartial = p.supportsPartial ∧
      q.k = (encTop line.length 0 line 0 0).2.1 ∧ q.s = (encTop line.length 0 line 0 0).2.2 ∧ q.bits = rest ∧
      q.k ≤ 15 ∧ q.s ≤ 31 := by
  obtain ⟨x, junk, hx⟩ : ∃ x junk, p.line1 = x :: junk := by
    cases h : p.line1 with
    | nil => rw [h] at hl; simp at hl
    | cons a b => exact ⟨a, b, rfl⟩
  have hjl : line.length + 1 = junk.length := by rw [hx] at hl; simp at hl; omega
  have hpB : { p with line1 := 0 :: junk } = B p ([] ++ [0]) junk 0 0 ((encTop line.length 0 line 0 0).1 ++ rest) := by
    cases p; simp_all [B]
  have h := topRun_ok p line.length line [] junk 0 0 0 rest (by omega) hjl (by omega) (by omega) (by simp [Small]) hsm
  rw [topLine, assert', if_pos (by simpa using hp)]
  simp only [bind, Except.bind]
  rw [hx, upd_lt _ _ _ (by simp)]
  simp only [List.set_cons_zero]
  rw [hpB, hw]
  have h1 := h.1
  simp only [topRun, bind, Except.bind] at h1
  cases hL : topLoop line.length line.length (B p ([] ++ [0]) junk 0 0 ((encTop line.length 0 line 0 0).1 ++ rest)) with
  | error e => rw [hL] at h1; simp at h1
  | ok q =>
    rw [hL] at h1
    simp only at h1 ⊢
    rw [h1]
    obtain ⟨j, hj⟩ := drop_len_one junk line.length hjl
    rw [hj]
    simp only [List.nil_append]
    have hsplit : ∃ pre a, ([0] : List Int) ++ line = pre ++ [a] ∧ Small a := by
      rcases List.eq_nil_or_concat line with h | ⟨l, a, h⟩
      · exact ⟨[], 0, by rw [h]; rfl, by simp [Small]⟩
      · exact ⟨0 :: l, a, by rw [h]; simp, hsm a (by rw [h]; simp)⟩
    obtain ⟨pre, a, hpre, ha⟩ := hsplit
    rw [hpre, closeLine_B p pre a j _ _ _ ha]
    refine ⟨_, rfl, ⟨a + 1, ?_⟩, rfl, hw ▸ rfl, rfl, rfl, rfl, rfl, rfl, rfl, rfl, h.2.1, h.2.2⟩
    show (pre ++ [a]) ++ [a + 1] = _
    rw [← hpre]; simp

theorem nontopLine_ok (p : Band) (left e : Int) (above line : List Int) (rest : List Bool) (hw : p.width = line.length) (hp : p.pos = 1)
    (hne : line ≠ []) (hal : above.length = line.length)
    (h0 : p.line0 = left :: above ++ [e]) (hleft : Small left) (habove : ∀ v ∈ above, Small v)
    (hl : p.line1.length = line.length + 2) (hk : p.k ≤ 15) (hs : p.s ≤ 31) (hsm : ∀ v ∈ line, Small v) :
    let up := fun i => if i = 0 then left else above.getD (i - 1) 0
    p.bits = (encNontop up line.length 1 (up 1) line p.k p.s).1 ++ rest →
    ∃ q, nontopLine p = .ok q ∧ Done q (up 1) line ∧ q.line0 = p.line0 ∧ q.width = p.width ∧ q.height = p.height ∧
      q.mask = p.mask ∧ q.curLine = p.curLine ∧ q.supportsPartial = p.supportsPartial ∧
      q.k = (encNontop up line.length 1 (up 1) line p.k p.s).2.1 ∧ q.s = (encNontop up line.length 1 (up 1) line p.k p.s).2.2 ∧ q.bits = rest ∧
      q.k ≤ 15 ∧ q.s ≤ 31 := by
  intro up hb
  have hup : ∀ i, Small (up i) := by
    intro i
    show Small (if i = 0 then left else above.getD (i - 1) 0)
    split
    · exact hleft
    · rw [List.getD_eq_getElem?_getD]
      cases hq : above[i - 1]? with
      | none => simp [Small]
      | some v => exact habove v (List.mem_of_getElem? hq)
  have hline : ∀ i, i + 1 < p.line0.length → idx p.line0 i = .ok (up i) := by
    intro i hi
    rw [h0] at hi ⊢
    simp only [List.length_append, List.length_cons, List.length_nil] at hi
    rw [idx_lt _ _ (by simp; omega)]
    congr 1
    cases i with
    | zero => rfl
    | succ i =>
      have e1 : up (i + 1) = above[i] := by
        show (if i + 1 = 0 then left else above.getD (i + 1 - 1) 0) = _
        rw [if_neg (by omega), Nat.add_sub_cancel, List.getD_eq_getElem?_getD, List.getElem?_eq_getElem (by omega)]
        rfl
      rw [e1]
      simp [List.getElem_append_left (show i < above.length by omega)]
  have hlen0 : p.line0.length = line.length + 2 := by rw [h0]; simp [hal]
  have hpos : 0 < line.length := List.length_pos_iff.mpr hne
  obtain ⟨x, junk, hx⟩ : ∃ x junk, p.line1 = x :: junk := by
    cases h : p.line1 with
    | nil => rw [h] at hl; simp at hl
    | cons a b => exact ⟨a, b, rfl⟩
  have hjl : line.length + 1 = junk.length := by rw [hx] at hl; simp at hl; omega
  have hpB : { p with line1 := up 1 :: junk } = B p ([] ++ [up 1]) junk p.k p.s ((encNontop up line.length 1 (up 1) line p.k p.s).1 ++ rest) := by
    rw [← hb]; cases p; simp_all [B]
  have h := nontopRun_ok p up hup hline line.length line [] junk (up 1) p.k p.s rest (by omega) hjl
    (by simp; omega) hk hs (hup 1) hsm
  rw [nontopLine, assert', if_pos (by simpa using hp)]
  simp only [bind, Except.bind]
  rw [show coeffB p = .ok (up 1) by rw [coeffB, hp]; exact hline 1 (by omega)]
  simp only
  rw [hx, upd_lt _ _ _ (by simp)]
  simp only [List.set_cons_zero]
  rw [hpB, hw]
  have h1 := h.1
  simp only [nontopRun, bind, Except.bind, List.length_nil, Nat.zero_add] at h1
  cases hL : nontopLoop line.length line.length (B p ([] ++ [up 1]) junk p.k p.s ((encNontop up line.length 1 (up 1) line p.k p.s).1 ++ rest)) with
  | error e => rw [hL] at h1; simp at h1
  | ok q =>
    rw [hL] at h1
    simp only at h1 ⊢
    rw [h1]
    obtain ⟨j, hj⟩ := drop_len_one junk line.length hjl
    rw [hj]
    simp only [List.nil_append]
    have hsplit : ∃ pre a, [up 1] ++ line = pre ++ [a] ∧ Small a := by
      rcases List.eq_nil_or_concat line with h | ⟨l, a, h⟩
      · exact absurd h hne
      · exact ⟨up 1 :: l, a, by rw [h]; simp, hsm a (by rw [h]; simp)⟩
    obtain ⟨pre, a, hpre, ha⟩ := hsplit
    rw [hpre, closeLine_B p pre a j _ _ _ ha]
    refine ⟨_, rfl, ⟨a + 1, ?_⟩, rfl, hw ▸ rfl, rfl, rfl, rfl, rfl, rfl, rfl, rfl, h.2.1, h.2.2⟩
    show (pre ++ [a]) ++ [a + 1] = _
    rw [← hpre]; simp

theorem decodedBuf_done (p : Band) (left : Int) (line : List Int) (h : Done p left line) (hw : p.width = line.length) :
    decodedBuf p = .ok line := by
  obtain ⟨e, h⟩ := h
  rw [decodedBuf, h, hw, if_pos (by simp; omega)]
  simp

theorem decodeLine_first (p q : Band) (hc : p.curLine < p.height) (h0 : p.curLine = 0) (hsp : p.supportsPartial = true) (hm : p.mask ≤ 0)
    (hq : topLine { p with pos := 1, s := 0, k := 0 } = .ok q) : decodeLine p = .ok { q with curLine := q.curLine + 1 } := by
  have : lineAny p = .ok q := by
    rw [lineAny, if_pos h0, firstLine]
    simp only [hsp, if_true, if_pos hm]
    rw [hsp] at hq
    exact hq
  rw [decodeLine, assert', if_pos (by simpa using hc), this]
  rfl

theorem decodeLine_later (p q : Band) (hc : p.curLine < p.height) (h0 : p.curLine ≠ 0) (hsp : p.supportsPartial = true) (hm : p.mask ≤ 0)
    (hq : nontopLine { p with pos := 1, line0 := p.line1, line1 := p.line0 } = .ok q) :
    decodeLine p = .ok { q with curLine := q.curLine + 1 } := by
  have : lineAny p = .ok q := by
    rw [lineAny, if_neg h0, laterLine]
    simp only [hsp, Bool.not_true, Bool.false_eq_true, if_false, if_pos hm]
    rw [hsp] at hq
    exact hq
  rw [decodeLine, assert', if_pos (by simpa using hc), this]
  rfl

theorem restLines_ok : ∀ (lines : List (List Int)) (p : Band) (left : Int) (above : List Int) (rest : List Bool) (w : Nat),
    Done p left above → above.length = w → p.width = w → 0 < w → p.line0.length = w + 2 → 0 < p.curLine → p.curLine + lines.length ≤ p.height →
    p.mask ≤ 0 → p.supportsPartial = true → Small left → (∀ v ∈ above, Small v) → p.k ≤ 15 → p.s ≤ 31 →
    (∀ l ∈ lines, l.length = w ∧ ∀ v ∈ l, Small v) → p.bits = encRest left above lines p.k p.s ++ rest →
    decodeLines lines.length p = .ok lines
  | [], p, left, above, rest, w, _, _, _, _, _, _, _, _, _, _, _, _, _, _, _ => rfl
  | line :: lines, p, left, above, rest, w, hd, ha, hw, hw0, hl0, hc, hh, hm, hsp, hleft, habove, hk, hs, hlines, hb => by
    obtain ⟨e, he⟩ := hd
    have hl := hlines line (by simp)
    rw [encRest] at hb
    dsimp only at hb
    rw [List.append_assoc] at hb
    obtain ⟨q, hq, hdone, q0, q1, q2, q3, q4, q5, q6, q7, q8, q9, q10⟩ := nontopLine_ok
      { p with pos := 1, line0 := p.line1, line1 := p.line0 } left e above line _ (by simp [hw, hl.1]) rfl
      (by intro h; rw [h] at hl; simp at hl; omega) (by rw [ha, hl.1]) he hleft habove
      (by simp [hl0, hl.1]) hk hs hl.2 hb
    simp only [List.length_cons] at hh
    have hdec : decodeLine p = .ok { q with curLine := p.curLine + 1 } := by
      rw [decodeLine_later p q (by omega) (by omega) hsp hm hq]
      simp only [q4]
    rw [List.length_cons, decodeLines, hdec]
    simp only [bind, Except.bind]
    rw [decodedBuf_done { q with curLine := p.curLine + 1 } _ line hdone (by show q.width = _; rw [q1]; simp [hw, hl.1])]
    simp only
    have hfirst : Small (if 1 = 0 then left else above.getD (1 - 1) 0) := by
      rw [if_neg (by omega), List.getD_eq_getElem?_getD]
      cases hq' : above[1 - 1]? with
      | none => simp [Small]
      | some v => exact habove v (List.mem_of_getElem? hq')
    rw [restLines_ok lines { q with curLine := p.curLine + 1 } _ line rest w hdone hl.1 (by simpa [hw] using q1) hw0
      (by simp only [q0]; rw [he]; simp [ha]) (by simp) (by simp only [q2]; omega) (by simpa [q3] using hm) (by simpa [hsp] using q5)
      hfirst hl.2 q9 q10 (fun l hl => hlines l (by simp [hl])) (by simp only [q8, q6, q7])]

theorem band_ok (lines : List (List Int)) (w : Nat) (rest : List Bool) (hw : 0 < w)
    (hlines : ∀ l ∈ lines, l.length = w ∧ ∀ v ∈ l, Small v) :
    decodeLines lines.length (newBand w lines.length true (encBand lines ++ rest)) = .ok lines := by
  cases lines with
  | nil => rfl
  | cons line lines =>
    have hl := hlines line (by simp)
    have hb : (newBand w (line :: lines).length true (encBand (line :: lines) ++ rest)).bits =
        (encTop line.length 0 line 0 0).1 ++ (encRest 0 line lines (encTop line.length 0 line 0 0).2.1 (encTop line.length 0 line 0 0).2.2 ++ rest) := by
      simp [newBand, encBand]
    obtain ⟨q, hq, hdone, q0, q1, q2, q3, q4, q5, q6, q7, q8, q9, q10⟩ := topLine_ok
      { newBand w (line :: lines).length true (encBand (line :: lines) ++ rest) with pos := 1, s := 0, k := 0 } line _
      (by simp [newBand, hl.1]) rfl (by simp [newBand, hl.1]) rfl rfl hl.2 hb
    have hdec : decodeLine (newBand w (line :: lines).length true (encBand (line :: lines) ++ rest)) = .ok { q with curLine := 1 } := by
      rw [decodeLine_first _ q (by simp [newBand]) rfl rfl (by simp [newBand]) hq]
      simp only [q4]
      rfl
    rw [List.length_cons, decodeLines, ← List.length_cons (a := line), hdec]
    simp only [bind, Except.bind]
    rw [decodedBuf_done { q with curLine := 1 } _ line hdone (by show q.width = _; rw [q1]; simp [newBand, hl.1])]
    simp only
    rw [restLines_ok lines { q with curLine := 1 } 0 line rest w hdone hl.1 (by simp only [q1]; rfl) hw
      (by simp only [q0]; simp [newBand]) (by simp) (by simp only [q2]; simp [newBand]; omega) (by simp only [q3]; simp [newBand]) (by simp only [q5]; rfl)
      (by simp [Small]) hl.2 q9 q10 (fun l hl => hlines l (by simp [hl])) (by simp only [q8, q6, q7])]

end Verif.Crx
