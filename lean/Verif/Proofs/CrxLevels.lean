import Verif.Proofs.CrxLevel

/-! Proofs about the inverse wavelet transform of CR3: all levels. -/

namespace Verif.Crx

open Verif.Wav

theorem gives_drop {P : Type} {next : P → R (List Int × P)} {p : P} {B : List (List Int)} {k : Nat} {row : List Int}
    (h : Gives next p (B.drop k)) (hr : B[k]? = some row) : ∃ p', next p = .ok (row, p') ∧ Gives next p' (B.drop (k + 1)) := by
  obtain ⟨hk, e⟩ := List.getElem?_eq_some_iff.1 hr
  rw [List.drop_eq_getElem_cons hk, e] at h
  exact h

/-- One level: its size, its image, the lines of its bands HL, LH, HH -/
structure LS where
  h : Nat
  w : Nat
  X : Img
  B1 : List (List Int)
  B2 : List (List Int)
  B3 : List (List Int)

section
variable {P : Type} (next : P → R (List Int × P)) (f : Flags) (B0 : List (List Int))

/-- Row `k` of the low band of the level above `ss` -/
def lowRow : List LS → Nat → Option (List Int)
  | [], k => B0[k]?
  | s :: _, k => if k < s.h then some (rowOf s.w (s.X k)) else none

/-- The levels fit together and the bands are those of the images. -/
def SpecOK : List LS → Prop
  | [] => True
  | s :: ss => ImgOK f s.h s.w s.X ∧
      (∀ n < (s.h + 1) / 2, ∃ b0 b1, lowRow B0 ss n = some b0 ∧ s.B1[n]? = some b1 ∧ LowRow f s.w s.X n b0 b1) ∧
      (∀ n < s.h / 2, ∃ b2 b3, s.B2[n]? = some b2 ∧ s.B3[n]? = some b3 ∧ HighRow f s.w s.X n b2 b3) ∧
      (∀ s', ss.head? = some s' → s'.h = (s.h + 1) / 2) ∧ SpecOK ss

/-- Lines of HL that have been read when line `m` is ready -/
def k1 (m h : Nat) : Nat := min (m / 2 + 1) ((h + 1) / 2)

def k2 (m h : Nat) : Nat := min (m / 2 + 1) (h / 2)

/-- The bands have given `a` lines (HL) and `b` lines (LH, HH). -/
structure Bands (s : LS) (a b : Nat) (l : Lvl P) : Prop where
  g1 : Gives next l.p1 (s.B1.drop a)
  g2 : Gives next l.p2 (s.B2.drop b)
  g3 : Gives next l.p3 (s.B3.drop b)

/-- Between two lines: `c` lines have been taken. -/
def Idle : List LS → Nat → List (Lvl P) → P → Prop
  | [], c, ls, ll => ls = [] ∧ Gives next ll (B0.drop c)
  | s :: ss, c, ls, ll => ∃ l rest m, ls = l :: rest ∧ Base s.h s.w s.X c m l.wt ∧ Bands next s (k1 m s.h) (k2 m s.h) l ∧
      Idle ss (k1 m s.h) rest ll

/-- What is loaded after `filterDecode`: row `k` of the bands -/
structure Loaded (s : LS) (m : Nat) (l : Lvl P) : Prop where
  hm : m < s.h
  r1 : s.B1[m / 2 + 1]? = some l.wt.b1
  r23 : m + 3 ≠ s.h → s.B2[m / 2 + 1]? = some l.wt.b2 ∧ s.B3[m / 2 + 1]? = some l.wt.b3
  b : Bands next s (m / 2 + 2) (if m + 3 = s.h then m / 2 + 1 else m / 2 + 2) l

/-- After `filterDecode` -/
def Dec : List LS → Nat → List (Lvl P) → P → Prop
  | [], c, ls, ll => ls = [] ∧ Gives next ll (B0.drop (c + 1))
  | s :: ss, c, ls, ll => ∃ l rest m, ls = l :: rest ∧ Base s.h s.w s.X c m l.wt ∧
      (((c < m ∨ m + 2 = s.h) ∧ Bands next s (k1 m s.h) (k2 m s.h) l ∧ Idle next B0 ss (k1 m s.h) rest ll) ∨
       (c = m ∧ m + 2 ≠ s.h ∧ Loaded next s m l ∧ (ss = [] → B0[m / 2 + 1]? = some l.wt.b0) ∧ Dec ss (m / 2 + 1) rest ll))

end

variable {P : Type} {next : P → R (List Int × P)} {f : Flags} {B0 : List (List Int)}

/-- A level looks the same when only its bands change. -/
theorem Base.congr {h w X c m} {t t' : Wt} (hb : Base h w X c m t) (h1 : t'.curLine = t.curLine) (h2 : t'.curH = t.curH)
    (h3 : t'.tap = t.tap) (h4 : t'.height = t.height) (h5 : t'.width = t.width) (h6 : t'.lines = t.lines) : Base h w X c m t' := by
  obtain ⟨cl, ch, tp, he, wi, n8, len, cm, mc, mh, ev, rows, hbb⟩ := hb
  exact ⟨h1 ▸ cl, h2 ▸ ch, h3 ▸ tp, h4 ▸ he, h5 ▸ wi, by rw [h6]; exact n8, by rw [h6]; exact len, cm, mc, mh, ev, by rw [h6]; exact rows,
    by rw [h6]; exact hbb⟩

theorem load1_ok {l : Lvl P} {B : List (List Int)} {k : Nat} {row : List Int} (hg : Gives next l.p1 (B.drop k)) (hr : B[k]? = some row) :
    ∃ p', load1 next l = .ok { l with wt := { l.wt with b1 := row }, p1 := p' } ∧ Gives next p' (B.drop (k + 1)) := by
  obtain ⟨p', e, g⟩ := gives_drop hg hr
  exact ⟨p', by simp only [load1, e, bind_ok], g⟩

theorem load23_ok {l : Lvl P} {B B' : List (List Int)} {k : Nat} {r2 r3 : List Int} (hg : Gives next l.p2 (B.drop k)) (hr : B[k]? = some r2)
    (hg' : Gives next l.p3 (B'.drop k)) (hr' : B'[k]? = some r3) :
    ∃ p2 p3, load23 next l = .ok { l with wt := { l.wt with b2 := r2, b3 := r3 }, p2 := p2, p3 := p3 } ∧
      Gives next p2 (B.drop (k + 1)) ∧ Gives next p3 (B'.drop (k + 1)) := by
  obtain ⟨p2, e, g⟩ := gives_drop hg hr
  obtain ⟨p3, e', g'⟩ := gives_drop hg' hr'
  exact ⟨p2, p3, by simp only [load23, e, bind_ok, e'], g, g'⟩

/-- idwt.rs:134-139, 144-150: the low band of a level, loaded or left to the level below -/
def decLow (next : P → R (List Int × P)) (f : Flags) (l : Lvl P) (rest : List (Lvl P)) (ll : P) : R (Lvl P × List (Lvl P) × P) :=
  if rest.isEmpty then do
    let (l, ll) ← load0 next l ll
    .ok (l, rest, ll)
  else do
    let (rest, ll) ← filterDecode next f rest ll
    .ok (l, rest, ll)

theorem filterDecode_cons (l : Lvl P) (rest : List (Lvl P)) (ll : P) (hc : l.wt.curH = 0) (hh : 3 ≤ l.wt.height) (hb : f.bottom = false) :
    filterDecode next f (l :: rest) ll =
      if l.wt.height - 3 ≤ l.wt.curLine ∧ l.wt.height % 2 = 0 then .ok (l :: rest, ll)
      else (do
        let (la, rest, ll) ← decLow next f l rest ll
        let lb ← load1 next la
        if l.wt.height - 3 ≤ l.wt.curLine then .ok (lb :: rest, ll)
        else do
          let lc ← load23 next lb
          .ok (lc :: rest, ll)) := by
  rw [filterDecode, if_neg (by omega)]
  rw [usub, if_pos hh]
  simp only [bind_ok, hb, decLow]
  cases rest <;> simp

theorem decode_ok : ∀ (ss : List LS) (c : Nat) (ls : List (Lvl P)) (ll : P), ss ≠ [] → f.bottom = false → SpecOK f B0 ss → Idle next B0 ss c ls ll →
    (∀ s, ss.head? = some s → c < s.h) → ∃ ls' ll', filterDecode next f ls ll = .ok (ls', ll') ∧ Dec next B0 ss c ls' ll' := by
  intro ss
  induction ss with
  | nil => intro c ls ll h; exact absurd rfl h
  | cons s ss ih =>
    intro c ls ll _ hbot ok hi hc
    obtain ⟨l, rest, m, e, hb, hg, hlow⟩ := hi
    have hc := hc s rfl
    subst e
    obtain ⟨H, hlo, hhi, hhead, hsub⟩ := ok
    by_cases hcm : c < m
    · refine ⟨l :: rest, ll, ?_, l, rest, m, rfl, hb, Or.inl ⟨Or.inl hcm, hg, hlow⟩⟩
      rw [filterDecode, if_pos (by have := hb.ch; omega)]
    · have hm : m = c := by have := hb.cm; omega
      subst hm
      have hH := H.hh
      obtain ⟨ev, ne1⟩ := hb.ev hc
      have h3 : 3 ≤ l.wt.height := by rw [hb.he]; omega
      rw [filterDecode_cons l rest ll (by rw [hb.ch]; omega) h3 hbot]
      rw [hb.he, hb.cl]
      by_cases hend : m + 2 = s.h
      · rw [if_pos (by omega)]
        exact ⟨l :: rest, ll, rfl, l, rest, m, rfl, hb, Or.inl ⟨Or.inr hend, hg, hlow⟩⟩
      · rw [if_neg (by omega)]
        obtain ⟨b0, b1, x0, x1, _⟩ := hlo (m / 2 + 1) (by omega)
        have ek1 : k1 m s.h = m / 2 + 1 := by unfold k1; omega
        have ek2 : k2 m s.h = m / 2 + 1 := by unfold k2; omega
        rw [ek1] at hg hlow
        rw [ek2] at hg
        -- the low band
        have hL : ∃ l' rest' ll', decLow next f l rest ll = .ok (l', rest', ll') ∧ (ss = [] → B0[m / 2 + 1]? = some l'.wt.b0) ∧
            Dec next B0 ss (m / 2 + 1) rest' ll' ∧ (∃ b, l' = { l with wt := { l.wt with b0 := b } }) := by
          cases ss with
          | nil =>
            obtain ⟨er, g⟩ := hlow
            subst er
            obtain ⟨p', e', g'⟩ := gives_drop g x0
            exact ⟨{ l with wt := { l.wt with b0 := b0 } }, [], p', by simp only [decLow, List.isEmpty_nil, if_true, load0, e', bind_ok], fun _ => x0, ⟨rfl, g'⟩, b0, rfl⟩
          | cons s' ss' =>
            obtain ⟨ls', ll', e', hd⟩ := ih (m / 2 + 1) rest ll (by simp) hbot hsub hlow (by
              intro s'' hs''; cases hs''; have := hhead s' rfl; omega)
            obtain ⟨l'', rest'', m'', er, _⟩ := hlow
            subst er
            exact ⟨l, ls', ll', by simp only [decLow, List.isEmpty_cons, Bool.false_eq_true, if_false, e', bind_ok], by simp, hd, l.wt.b0, rfl⟩
        obtain ⟨l', rest', ll', e1, hz, hdec, b, el⟩ := hL
        rw [e1]
        simp only [bind_ok]
        obtain ⟨p1, e2, g1'⟩ := load1_ok (l := l') (B := s.B1) (k := m / 2 + 1) (row := b1) (by rw [el]; exact hg.g1) x1
        rw [e2]
        simp only [bind_ok]
        by_cases hodd : m + 3 = s.h
        · rw [if_pos (by omega)]
          refine ⟨_, _, rfl, _, _, m, rfl, ?_, Or.inr ⟨rfl, hend, ⟨hc, x1, fun h => absurd hodd h, ?_⟩, hz, hdec⟩⟩
          · rw [el]; exact hb.congr rfl rfl rfl rfl rfl rfl
          · rw [if_pos hodd]
            exact ⟨g1', by rw [el]; exact hg.g2, by rw [el]; exact hg.g3⟩
        · rw [if_neg (by omega)]
          obtain ⟨b2, b3, x2, x3, _⟩ := hhi (m / 2 + 1) (by omega)
          obtain ⟨p2, p3, e3, g2', g3'⟩ := load23_ok (next := next) (l := { l' with wt := { l'.wt with b1 := b1 }, p1 := p1 }) (B := s.B2) (B' := s.B3) (k := m / 2 + 1)
            (r2 := b2) (r3 := b3) (by rw [el]; exact hg.g2) x2 (by rw [el]; exact hg.g3) x3
          rw [e3]
          refine ⟨_, _, rfl, _, _, m, rfl, ?_, Or.inr ⟨rfl, hend, ⟨hc, x1, fun _ => ⟨x2, x3⟩, ?_⟩, hz, hdec⟩⟩
          · rw [el]; exact hb.congr rfl rfl rfl rfl rfl rfl
          · rw [if_neg hodd]
            exact ⟨g1', g2', g3'⟩

/-- The first level has a line ready. -/
def Ready : List (Lvl P) → Prop
  | [] => False
  | l :: _ => 0 < l.wt.curH

theorem take_ok {s : LS} {ss : List LS} {c : Nat} {ls : List (Lvl P)} {ll : P} (hi : Idle next B0 (s :: ss) c ls ll) (hr : Ready ls) :
    ∃ l rest wt, ls = l :: rest ∧ getline l.wt = .ok (rowOf s.w (s.X c), wt) ∧ c < s.h ∧
      Idle next B0 (s :: ss) (c + 1) ({ l with wt := wt } :: rest) ll := by
  obtain ⟨l, rest, m, e, hb, hg, hlow⟩ := hi
  subst e
  simp only [Ready] at hr
  have hcm : c < m := by have := hb.ch; omega
  obtain ⟨t', e, hb', _⟩ := getline_ok hb hcm
  exact ⟨l, rest, t', rfl, e, by have := hb.mh; omega, _, _, m, rfl, hb', ⟨hg.g1, hg.g2, hg.g3⟩, hlow⟩

theorem transform_ok : ∀ (ss : List LS) (c : Nat) (ls : List (Lvl P)) (ll : P), ss ≠ [] → f.bottom = false → SpecOK f B0 ss → Dec next B0 ss c ls ll →
    (∀ s, ss.head? = some s → c < s.h) → ∃ ls', filterTransform f ls = .ok ls' ∧ Idle next B0 ss c ls' ll ∧ Ready ls' := by
  intro ss
  induction ss with
  | nil => intro c ls ll h; exact absurd rfl h
  | cons s ss ih =>
    intro c ls ll _ hbot ok hi hc
    obtain ⟨l, rest, m, e, hb, hcase⟩ := hi
    have hc := hc s rfl
    subst e
    obtain ⟨H, hlo, hhi, hhead, hsub⟩ := ok
    by_cases hcm : c < m
    · rcases hcase with ⟨_, hg, hlow⟩ | ⟨hx, _⟩
      · refine ⟨l :: rest, ?_, ⟨l, rest, m, rfl, hb, hg, hlow⟩, ?_⟩
        · rw [filterTransform, if_pos (by have := hb.ch; omega)]
        · simp only [Ready]; have := hb.ch; omega
      · omega
    · have hm : m = c := by have := hb.cm; omega
      subst hm
      have hH := H.hh
      obtain ⟨ev, ne1⟩ := hb.ev hc
      rw [filterTransform, if_neg (by have := hb.ch; omega)]
      rw [usub, if_pos (by rw [hb.he]; omega)]
      simp only [bind_ok, hb.he, hb.cl, hbot]
      rw [if_neg (by simp)]
      rcases hcase with ⟨hend, hg, hlow⟩ | ⟨_, hend, hld, hz, hdec⟩
      · -- the last two lines of an even height
        replace hend : m + 2 = s.h := by omega
        rw [if_pos (by omega)]
        obtain ⟨t', e, hb'⟩ := endEven_ok H hb hend
        refine ⟨{ l with wt := t' } :: rest, by simp only [e, bind_ok], ⟨_, _, m + 2, rfl, hb', ?_, ?_⟩, ?_⟩
        · rw [show k1 (m + 2) s.h = k1 m s.h by unfold k1; omega, show k2 (m + 2) s.h = k2 m s.h by unfold k2; omega]
          exact ⟨hg.g1, hg.g2, hg.g3⟩
        · rw [show k1 (m + 2) s.h = k1 m s.h by unfold k1; omega]; exact hlow
        · simp only [Ready]; have := hb'.ch; omega
      · rw [if_neg (by omega)]
        -- the low band
        have hL : ∃ rest1 l' rest', (if empty rest then filterTransform f rest else .ok rest) = .ok rest1 ∧
            fromBelow l rest1 = .ok (l', rest') ∧ Idle next B0 ss (m / 2 + 2) rest' ll ∧
            (∃ b, lowRow B0 ss (m / 2 + 1) = some b ∧ l' = { l with wt := { l.wt with b0 := b } }) := by
          cases ss with
          | nil =>
            obtain ⟨er, g⟩ := hdec
            subst er
            refine ⟨[], l, [], by simp [empty], rfl, ⟨rfl, g⟩, l.wt.b0, hz rfl, rfl⟩
          | cons s' ss' =>
            have hk : m / 2 + 1 < s'.h := by have := hhead s' rfl; omega
            have hI : ∃ rest1, (if empty rest then filterTransform f rest else .ok rest) = .ok rest1 ∧
                Idle next B0 (s' :: ss') (m / 2 + 1) rest1 ll ∧ Ready rest1 := by
              by_cases he : empty rest
              · rw [if_pos he]
                exact ih (m / 2 + 1) rest ll (by simp) hbot hsub hdec (by intro s'' hs''; cases hs''; exact hk)
              · rw [if_neg he]
                obtain ⟨l2, rest2, m2, er, hb2, hcase2⟩ := hdec
                subst er
                have hr : 0 < l2.wt.curH := by simp only [empty, decide_eq_true_eq] at he; omega
                refine ⟨_, rfl, ?_, hr⟩
                rcases hcase2 with ⟨_, hg2, hlow2⟩ | ⟨hx, _⟩
                · exact ⟨l2, rest2, m2, rfl, hb2, hg2, hlow2⟩
                · have := hb2.ch; omega
            obtain ⟨rest1, e1, hI, hr⟩ := hI
            obtain ⟨l2, rest2, wt2, er, e2, _, hI2⟩ := take_ok hI hr
            subst er
            refine ⟨l2 :: rest2, { l with wt := { l.wt with b0 := rowOf s'.w (s'.X (m / 2 + 1 : Nat)) } }, _, e1,
              by simp only [fromBelow, e2, bind_ok], hI2, _, ?_, rfl⟩
            simp only [lowRow]
            rw [if_pos hk]
        obtain ⟨rest1, l', rest', e1, e2, hI, b, hb0, el⟩ := hL
        rw [e1]
        simp only [bind_ok]
        rw [e2]
        simp only [bind_ok]
        obtain ⟨b0, b1, x0, x1, hlr⟩ := hlo (m / 2 + 1) (by omega)
        rw [hb0] at x0; cases x0
        rw [hld.r1] at x1; cases x1
        have hb1 : Base s.h s.w s.X m m l'.wt := by rw [el]; exact hb.congr rfl rfl rfl rfl rfl rfl
        have hlr' : LowRow f s.w s.X (m / 2 + 1) l'.wt.b0 l'.wt.b1 := by rw [el]; exact hlr
        by_cases hodd : m + 3 = s.h
        · rw [nextLines, if_pos (by rw [hb1.cl]; omega)]
          obtain ⟨t', e, hb'⟩ := endOdd_ok H hb1 hodd hlr'
          rw [e]
          refine ⟨{ l' with wt := t' } :: rest', rfl, ⟨_, _, m + 3, rfl, hb', ?_, ?_⟩, ?_⟩
          · have := hld.b
            rw [if_pos hodd] at this
            rw [show k1 (m + 3) s.h = m / 2 + 2 by unfold k1; omega, show k2 (m + 3) s.h = m / 2 + 1 by unfold k2; omega]
            rw [el]
            exact ⟨this.g1, this.g2, this.g3⟩
          · rw [show k1 (m + 3) s.h = m / 2 + 2 by unfold k1; omega]; exact hI
          · simp only [Ready]; have := hb'.ch; omega
        · rw [nextLines, if_neg (by rw [hb1.cl]; omega)]
          obtain ⟨b2, b3, x2, x3, hhr⟩ := hhi (m / 2 + 1) (by omega)
          obtain ⟨y2, y3⟩ := hld.r23 hodd
          rw [y2] at x2; cases x2
          rw [y3] at x3; cases x3
          have hhr' : HighRow f s.w s.X (m / 2 + 1) l'.wt.b2 l'.wt.b3 := by rw [el]; exact hhr
          obtain ⟨t', e, hb'⟩ := middle_ok H hb1 (by omega) hlr' hhr'
          rw [e]
          refine ⟨{ l' with wt := t' } :: rest', rfl, ⟨_, _, m + 2, rfl, hb', ?_, ?_⟩, ?_⟩
          · have := hld.b
            rw [if_neg hodd] at this
            rw [show k1 (m + 2) s.h = m / 2 + 2 by unfold k1; omega, show k2 (m + 2) s.h = m / 2 + 2 by unfold k2; omega]
            rw [el]
            exact ⟨this.g1, this.g2, this.g3⟩
          · rw [show k1 (m + 2) s.h = m / 2 + 2 by unfold k1; omega]; exact hI
          · simp only [Ready]; have := hb'.ch; omega

/-- Before the first line: fresh transforms, the bands at their start -/
def Fresh (next : P → R (List Int × P)) (B0 : List (List Int)) : List LS → List (Lvl P) → P → Prop
  | [], ls, ll => ls = [] ∧ Gives next ll B0
  | s :: ss, ls, ll => ∃ p1 p2 p3 rest, ls = ⟨newWt s.h s.w, p1, p2, p3⟩ :: rest ∧ Gives next p1 s.B1 ∧ Gives next p2 s.B2 ∧
      Gives next p3 s.B3 ∧ Fresh next B0 ss rest ll

theorem init_ok (ht : f.top = false) (hbot : f.bottom = false) : ∀ (ss : List LS) (ls : List (Lvl P)) (ll : P),
    SpecOK f B0 ss → Fresh next B0 ss ls ll →
    ∃ ls' ll', filterInit next f ls ll = .ok (ls', ll') ∧ Idle next B0 ss 0 ls' ll' ∧ (ss ≠ [] → Ready ls') := by
  intro ss
  induction ss with
  | nil =>
    intro ls ll _ hf
    obtain ⟨e, g⟩ := hf
    subst e
    exact ⟨[], ll, rfl, ⟨rfl, g⟩, fun h => absurd rfl h⟩
  | cons s ss ih =>
    intro ls ll ok hf
    have okAll := ok
    obtain ⟨H, hlo, hhi, hhead, hsub⟩ := ok
    obtain ⟨p1, p2, p3, rest, e, g1, g2, g3, hf⟩ := hf
    subst e
    obtain ⟨rest1, ll1, e1, hI, hR⟩ := ih rest ll hsub hf
    have hH := H.hh
    rw [filterInit, e1]
    simp only [bind_ok]
    obtain ⟨l, el⟩ : ∃ l, l = (⟨newWt s.h s.w, p1, p2, p3⟩ : Lvl P) := ⟨_, rfl⟩
    rw [← el]
    have hL : ∃ l' rest' ll', initLow next l rest1 ll1 = .ok (l', rest', ll') ∧ Idle next B0 ss 1 rest' ll' ∧
        (∃ b, lowRow B0 ss 0 = some b ∧ l' = { l with wt := { l.wt with b0 := b } }) := by
      obtain ⟨b0, _, x0, _, _⟩ := hlo 0 (by omega)
      cases ss with
      | nil =>
        obtain ⟨er, g⟩ := hI
        subst er
        obtain ⟨p', e', g'⟩ := gives_drop g x0
        exact ⟨{ l with wt := { l.wt with b0 := b0 } }, [], p', by simp only [initLow, load0, e', bind_ok], ⟨rfl, g'⟩, b0, x0, rfl⟩
      | cons s' ss' =>
        obtain ⟨l2, rest2, wt2, er, e2, hk, hI2⟩ := take_ok hI (hR (by simp))
        subst er
        refine ⟨{ l with wt := { l.wt with b0 := rowOf s'.w (s'.X (0 : Nat)) } }, _, ll1, by simp only [initLow, fromBelow, e2, bind_ok], hI2, _, ?_, rfl⟩
        simp only [lowRow]
        rw [if_pos hk]
    obtain ⟨l', rest', ll', e2, hI', b, hb0, el'⟩ := hL
    rw [e2]
    simp only [bind_ok]
    obtain ⟨b0, b1, x0, x1, hlr⟩ := hlo 0 (by omega)
    rw [hb0] at x0; cases x0
    obtain ⟨p1', e3, g1'⟩ := load1_ok (next := next) (l := l') (B := s.B1) (k := 0) (row := b1) (by rw [el', el]; exact g1) x1
    rw [e3]
    simp only [bind_ok]
    have st : ∀ t : Wt, t.curLine = 0 → t.curH = 0 → t.tap = 0 → t.height = s.h → t.width = s.w → t.lines = (newWt s.h s.w).lines → Start s.h s.w t := by
      intro t a b c d e g
      have := start_new s.h s.w
      exact ⟨a, b, c, d, e, by rw [g]; exact this.n8, by rw [g]; exact this.len⟩
    by_cases h1 : 1 < s.h
    · rw [if_pos (by rw [el', el]; exact h1)]
      obtain ⟨b2, b3, x2, x3, hhr⟩ := hhi 0 (by omega)
      obtain ⟨p2', p3', e4, g2', g3'⟩ := load23_ok (next := next) (l := { l' with wt := { l'.wt with b1 := b1 }, p1 := p1' }) (B := s.B2) (B' := s.B3) (k := 0)
        (r2 := b2) (r3 := b3) (by rw [el', el]; exact g2) x2 (by rw [el', el]; exact g3) x3
      rw [e4]
      simp only [bind_ok, ht, assert']
      obtain ⟨t', e5, hb'⟩ := initMany_ok (f := f) (t := { l'.wt with b1 := b1, b2 := b2, b3 := b3 }) H
        (st _ (by rw [el', el]; rfl) (by rw [el', el]; rfl) (by rw [el', el]; rfl) (by rw [el', el]; rfl) (by rw [el', el]; rfl) (by rw [el', el]))
        h1 (by rw [el']; exact hlr) hhr
      rw [e5]
      simp only [bind_ok, Bool.not_false, if_true]
      have hIdle : Idle next B0 (s :: ss) 0 ({ l' with wt := t', p1 := p1', p2 := p2', p3 := p3' } :: rest') ll' := by
        refine ⟨_, _, 0, rfl, hb', ?_, ?_⟩
        · rw [show k1 0 s.h = 1 by unfold k1; omega, show k2 0 s.h = 1 by unfold k2; omega]
          exact ⟨g1', g2', g3'⟩
        · rw [show k1 0 s.h = 1 by unfold k1; omega]; exact hI'
      obtain ⟨ls2, ll2, e6, hD⟩ := decode_ok (s :: ss) 0 _ ll' (by simp) hbot okAll hIdle (by intro s' hs'; cases hs'; omega)
      rw [e6]
      simp only [bind_ok]
      obtain ⟨ls3, e7, hI3, hR3⟩ := transform_ok (s :: ss) 0 _ ll2 (by simp) hbot okAll hD (by intro s' hs'; cases hs'; omega)
      rw [e7]
      exact ⟨ls3, ll2, rfl, hI3, fun _ => hR3⟩
    · rw [if_neg (by rw [el', el]; exact h1)]
      obtain ⟨t', e5, hb'⟩ := initSingle_ok (f := f) (t := { l'.wt with b1 := b1 }) H
        (st _ (by rw [el', el]; rfl) (by rw [el', el]; rfl) (by rw [el', el]; rfl) (by rw [el', el]; rfl) (by rw [el', el]; rfl) (by rw [el', el]))
        (by omega) (by rw [el']; exact hlr)
      simp only [] at e5
      rw [e5]
      refine ⟨_, _, rfl, ⟨_, _, 1, rfl, hb', ?_, ?_⟩, fun _ => ?_⟩
      · rw [show k1 1 s.h = 1 by unfold k1; omega, show k2 1 s.h = 0 by unfold k2; omega]
        exact ⟨g1', by rw [el', el]; exact g2, by rw [el', el]; exact g3⟩
      · rw [show k1 1 s.h = 1 by unfold k1; omega]; exact hI'
      · simp only [Ready]; have := hb'.ch; omega

theorem waveLines_ok (hbot : f.bottom = false) (s : LS) (ss : List LS) (ok : SpecOK f B0 (s :: ss)) :
    ∀ (n c : Nat) (ls : List (Lvl P)) (ll : P), c + n = s.h → Idle next B0 (s :: ss) c ls ll →
    waveLines next f s.w n ls ll = .ok ((List.range' c n).map fun r => rowOf s.w (s.X (r : Nat))) := by
  intro n
  induction n with
  | zero => intro c ls ll _ _; rfl
  | succ n ih =>
    intro c ls ll hc hi
    obtain ⟨ls1, ll1, e1, hD⟩ := decode_ok (s :: ss) c ls ll (by simp) hbot ok hi (by intro s' hs'; cases hs'; omega)
    obtain ⟨ls2, e2, hI, hR⟩ := transform_ok (s :: ss) c _ ll1 (by simp) hbot ok hD (by intro s' hs'; cases hs'; omega)
    obtain ⟨l, rest, wt, e3, e4, _, hI2⟩ := take_ok hI hR
    subst e3
    rw [waveLines, e1]
    simp only [bind_ok]
    rw [e2]
    simp only [bind_ok]
    rw [e4]
    simp only [bind_ok, assert', rowOf_length, decide_true, if_true]
    rw [ih (c + 1) _ ll1 (by omega) hI2]
    rfl

theorem wavePlane_ok (ht : f.top = false) (hbot : f.bottom = false) (s : LS) (ss : List LS) (ok : SpecOK f B0 (s :: ss)) (ls : List (Lvl P)) (ll : P)
    (hf : Fresh next B0 (s :: ss) ls ll) :
    wavePlane next f s.h s.w ls ll = .ok ((List.range s.h).map fun r => rowOf s.w (s.X (r : Nat))) := by
  obtain ⟨ls1, ll1, e1, hI, _⟩ := init_ok ht hbot (s :: ss) ls ll ok hf
  rw [wavePlane, e1]
  simp only [bind_ok]
  rw [waveLines_ok hbot s ss ok s.h 0 ls1 ll1 (by omega) hI, List.range_eq_range']

end Verif.Crx
