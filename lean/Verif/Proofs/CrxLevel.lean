import Verif.Proofs.CrxWavelet
import Verif.Proofs.Grid

/-! Proofs about the inverse wavelet transform of CR3: one level. -/

namespace Verif.Crx

open Verif.Wav

/-- The bound under which one level is reconstructed without overflow -/
def XBd (X : Img) : Prop := ∀ r c, -190000000 ≤ X r c ∧ X r c ≤ 190000000

/-- What is known about the image of one level -/
structure ImgOK (f : Flags) (h w : Nat) (X : Img) : Prop where
  hh : h = 1 ∨ 3 ≤ h
  ww : w = 1 ∨ 3 ≤ w
  single : h = 1 → f.right = true → w % 2 = 1
  ver : ∀ c, Sig false false h (fun r => X r c)
  hor : ∀ r, Sig f.left f.right w (X r)
  bd : XBd X

variable {f : Flags} {h w : Nat} {X : Img}

theorem ImgOK.col (H : ImgOK f h w X) (c : Int) : Bd C0 (fun r => X r c) := by
  intro r; have := H.bd r c; simp only []; omega

theorem vert_sig (H : ImgOK f h w X) (g : (Int → Int) → Int → Int) (n : Int) : Sig f.left f.right w (vert g X n) := by
  refine ⟨fun hl k => ?_, fun hr k => ?_, fun h1 k => ?_⟩
  · simp only [vert]; congr 1; funext r; exact (H.hor r).left hl k
  · simp only [vert]; congr 1; funext r; exact (H.hor r).right hr k
  · simp only [vert]; congr 1; funext r; exact (H.hor r).one h1 k

theorem vlow_bd (H : ImgOK f h w X) (n : Int) : Bd C0 (vert low X n) := by
  intro c
  have := low_bd (B := 190000000) (x := fun r => X r c) (fun r => H.bd r c) n
  simp only [vert]; omega

theorem vhigh_bd (H : ImgOK f h w X) (n : Int) : Bd C0 (vert high X n) := by
  intro c
  have := high_bd (B := 190000000) (x := fun r => X r c) (fun r => H.bd r c) n
  simp only [vert]; omega

/-- The coefficients of row `n` of the two bands that give row `n` of the low-pass of the columns -/
structure LowRow (f : Flags) (w : Nat) (X : Img) (n : Nat) (b0 b1 : List Int) : Prop where
  lo : Cov (nlo f.right w) b0 (LL X n)
  hi : Cov (nhi f.left f.right w) b1 (fun j => HL X n (j - f.left.toNat))

structure HighRow (f : Flags) (w : Nat) (X : Img) (n : Nat) (b2 b3 : List Int) : Prop where
  lo : Cov (nlo f.right w) b2 (LH X n)
  hi : Cov (nhi f.left f.right w) b3 (fun j => HH X n (j - f.left.toNat))

theorem lowRow_ok (H : ImgOK f h w X) (site : Site) (hs : site = .single → h = 1) {n b0 b1 line} (hl : line.length = w) (hr : LowRow f w X n b0 b1) :
    horiz site f w b0 b1 line = .ok (rowOf w (vert low X n)) :=
  horiz_ok site f (vert_sig H low n) (vlow_bd H n) H.ww (fun a b => H.single (hs a) b) hl hr.lo hr.hi

theorem highRow_ok (H : ImgOK f h w X) (site : Site) (hs : site = .single → h = 1) {n b2 b3 line} (hl : line.length = w) (hr : HighRow f w X n b2 b3) :
    horiz site f w b2 b3 line = .ok (rowOf w (vert high X n)) :=
  horiz_ok site f (vert_sig H high n) (vhigh_bd H n) H.ww (fun a b => H.single (hs a) b) hl hr.lo hr.hi

/-- The lines of a level when it has been asked for `c` lines and has made the lines before `m`, and line `m` if it exists. -/
structure Base (h w : Nat) (X : Img) (c m : Nat) (t : Wt) : Prop where
  cl : t.curLine = m
  ch : t.curH = m - c
  tp : t.tap = m % 5
  he : t.height = h
  wi : t.width = w
  n8 : t.lines.length = 8
  len : ∀ (i : Nat) (l : List Int), t.lines[i]? = some l → l.length = w
  cm : c ≤ m
  mc : m ≤ c + 3
  mh : m ≤ h
  ev : m < h → m % 2 = 0 ∧ m + 1 ≠ h
  rows : ∀ r, c ≤ r → r ≤ m → r < h → t.lines[3 + r % 5]? = some (rowOf w (X r))
  hb : m < h → t.lines[2]? = some (rowOf w (vert high X (m / 2 : Nat)))

theorem setLine_ok (t : Wt) (i : Nat) (g : List Int → R (List Int)) (l l' : List Int) (h1 : t.lines[i]? = some l) (h2 : g l = .ok l') :
    setLine t i g = .ok { t with lines := t.lines.set i l' } := by
  have hi : i < t.lines.length := by
    rcases Nat.lt_or_ge i t.lines.length with h | h
    · exact h
    · rw [List.getElem?_eq_none h] at h1; cases h1
  simp only [setLine, idx_some _ _ _ h1, bind_ok, h2, upd_lt _ _ _ hi]

theorem swap12_ok (t : Wt) (a b : List Int) (h1 : t.lines[1]? = some a) (h2 : t.lines[2]? = some b) :
    swap12 t = .ok { t with lines := (t.lines.set 1 b).set 2 a } := by
  have hi : 2 < t.lines.length := by
    rcases Nat.lt_or_ge 2 t.lines.length with h | h
    · exact h
    · rw [List.getElem?_eq_none h] at h2; cases h2
  simp only [swap12, idx_some _ _ _ h1, idx_some _ _ _ h2, bind_ok, upd_lt _ _ _ (show 1 < t.lines.length by omega),
    upd_lt _ _ _ (show 2 < (t.lines.set 1 b).length by rw [List.length_set]; omega)]

theorem column_ok (t : Wt) (g : Nat → R Int) (y : Int → Int) (hg : ∀ i < t.width, g i = .ok (y i)) :
    column t g = .ok (rowOf t.width y) := by
  unfold column rowOf
  exact mapM_ok_of _ _ _ (fun i hi => hg i (List.mem_range.1 hi))

theorem getline_ok {c m : Nat} {t : Wt} (hb : Base h w X c m t) (hc : c < m) :
    ∃ t', getline t = .ok (rowOf w (X c), t') ∧ Base h w X (c + 1) m t' ∧ t'.b0 = t.b0 := by
  have h1 := hb.mc; have h2 := hb.mh; have h3 := hb.ch; have h4 := hb.tp
  have hr := hb.rows c (by omega) (by omega) (by omega)
  refine ⟨{ t with curH := t.curH - 1 }, ?_, ?_, rfl⟩
  · unfold getline
    rw [usub, if_pos (by omega)]
    simp only [bind_ok]
    rw [show (t.tap + 5 - t.curH) % 5 + 3 = 3 + c % 5 by omega]
    rw [idx_some _ _ _ hr]
    simp only [bind_ok, assert']
    rw [if_pos (by simp; omega)]
    rfl
  · exact { cl := hb.cl, ch := by simp only []; omega, tp := hb.tp, he := hb.he, wi := hb.wi, n8 := hb.n8, len := hb.len,
            cm := by omega, mc := by omega, mh := hb.mh, ev := hb.ev,
            rows := fun r a b c => hb.rows r (by omega) b c, hb := hb.hb }

theorem even2_comm (a b c : Int) : even2 a b c = even2 a c b := by simp only [even2, Int.add_comm]

/-- Length of lines after a `set` -/
theorem len_set {ls : List (List Int)} {i : Nat} {v : List Int} (hv : v.length = w)
    (h : ∀ (i : Nat) (l : List Int), ls[i]? = some l → l.length = w) : ∀ (j : Nat) (l : List Int), (ls.set i v)[j]? = some l → l.length = w := by
  intro j l hj
  rw [List.getElem?_set] at hj
  split at hj
  · split at hj
    · cases hj; exact hv
    · cases hj
  · exact h j l hj

theorem get_some {ls : List (List Int)} {i : Nat} (h : i < ls.length) : ∃ l, ls[i]? = some l := ⟨_, List.getElem?_eq_getElem h⟩

theorem middle_ok (H : ImgOK f h w X) {m : Nat} {t : Wt} (hb : Base h w X m m t) (hm : m + 3 < h)
    (hl : LowRow f w X (m / 2 + 1) t.b0 t.b1) (hh : HighRow f w X (m / 2 + 1) t.b2 t.b3) :
    ∃ t', middle f t = .ok t' ∧ Base h w X m (m + 2) t' := by
  obtain ⟨cl, ch, tp, he, wi, n8, len, cm, mc, mh, ev, rows, hbb⟩ := hb
  have ev := (ev (by omega)).1
  have hbb := hbb (by omega)
  have row := rows m (by omega) (by omega) (by omega)
  obtain ⟨q0, g0⟩ := get_some (ls := t.lines) (i := 0) (by omega)
  obtain ⟨q1, g1⟩ := get_some (ls := t.lines) (i := 1) (by omega)
  obtain ⟨L0, e0⟩ : ∃ L, L = rowOf w (vert low X (m / 2 + 1 : Nat)) := ⟨_, rfl⟩
  obtain ⟨L1, e1⟩ : ∃ L, L = rowOf w (vert high X (m / 2 + 1 : Nat)) := ⟨_, rfl⟩
  obtain ⟨L2, e2⟩ : ∃ L, L = rowOf w (vert high X (m / 2 : Nat)) := ⟨_, rfl⟩
  have z0 := lowRow_ok H .later (by simp) (len 0 q0 g0) hl
  have z1 := highRow_ok H .later (by simp) (len 1 q1 g1) hh
  rw [← e0] at z0; rw [← e1] at z1; rw [← e2] at hbb
  -- the two horizontal passes and the swap
  obtain ⟨l1, d1⟩ : ∃ l1, l1 = t.lines.set 0 L0 := ⟨_, rfl⟩
  obtain ⟨l2, d2⟩ : ∃ l2, l2 = l1.set 1 L1 := ⟨_, rfl⟩
  obtain ⟨l3, d3⟩ : ∃ l3, l3 = (l2.set 1 L2).set 2 L1 := ⟨_, rfl⟩
  have n1 : l1.length = 8 := by rw [d1, List.length_set]; exact n8
  have n2 : l2.length = 8 := by rw [d2, List.length_set]; exact n1
  have n3 : l3.length = 8 := by rw [d3, List.length_set, List.length_set]; exact n2
  have s1 : setLine t 0 (horiz .later f t.width t.b0 t.b1) = .ok { t with lines := l1 } := by
    rw [d1]; exact setLine_ok _ _ _ _ _ g0 (by rw [wi]; exact z0)
  have s2 : setLine { t with lines := l1 } 1 (horiz .later f t.width t.b2 t.b3) = .ok { t with lines := l2 } := by
    rw [d2]; exact setLine_ok _ _ _ q1 _ (by simp only [d1]; rw [List.getElem?_set_ne (by omega)]; exact g1) (by rw [wi]; exact z1)
  have s3 : swap12 { t with lines := l2 } = .ok { t with lines := l3 } := by
    rw [d3]; exact swap12_ok _ L1 L2 (by simp only [d2]; rw [List.getElem?_set_self (by omega)])
      (by simp only [d2, d1]; rw [List.getElem?_set_ne (by omega), List.getElem?_set_ne (by omega)]; exact hbb)
  have k0 : l3[0]? = some L0 := by
    rw [d3, List.getElem?_set_ne (by omega), List.getElem?_set_ne (by omega), d2, List.getElem?_set_ne (by omega), d1,
      List.getElem?_set_self (by omega)]
  have k1 : l3[1]? = some L2 := by
    rw [d3, List.getElem?_set_ne (by omega), List.getElem?_set_self (by omega)]
  have k2 : l3[2]? = some L1 := by
    rw [d3, List.getElem?_set_self (by rw [List.length_set]; omega)]
  have kr : ∀ i : Nat, 3 ≤ i → l3[i]? = t.lines[i]? := by
    intro i hi
    rw [d3, List.getElem?_set_ne (by omega), List.getElem?_set_ne (by omega), d2, List.getElem?_set_ne (by omega), d1,
      List.getElem?_set_ne (by omega)]
  have len3 : ∀ (i : Nat) (l : List Int), l3[i]? = some l → l.length = w := by
    rw [d3, d2, d1]
    exact len_set (by rw [e1, rowOf_length]) (len_set (by rw [e2, rowOf_length]) (len_set (by rw [e1, rowOf_length])
      (len_set (by rw [e0, rowOf_length]) len)))
  have kg : l3[t.tap + 3]? = some (rowOf w (X m)) := by rw [kr _ (by omega), tp, ← row]; congr 1; omega
  have cast : ((m : Nat) : Int) = 2 * ((m / 2 : Nat) : Int) := by omega
  generalize hn : m / 2 = n at *
  -- the columns
  have c1 : column { t with lines := l3 } (fun i => do
      let a ← idx L0 i
      let c ← idx L1 i
      let b ← idx L2 i
      even2 a c b) = .ok (rowOf w (X (m + 2 : Nat))) := by
    rw [← wi]
    apply column_ok
    intro i hi
    simp only [] at hi
    rw [wi] at hi
    rw [e0, e1, e2, idx_some _ _ _ (rowOf_get _ _ i hi), idx_some _ _ _ (rowOf_get _ _ i hi), idx_some _ _ _ (rowOf_get _ _ i hi)]
    simp only [bind_ok]
    rw [even2_comm]
    have := even2_sig (H.col i) (n + 1)
    rw [show (n : Int) + 1 - 1 = n by omega, show 2 * ((n : Int) + 1) = (m + 2 : Nat) by omega] at this
    exact this
  have c2 : column { t with lines := l3 } (fun i => do
      let b ← idx L2 i
      let d ← idx (rowOf w (X (m + 2 : Nat))) i
      let x ← idx (rowOf w (X m)) i
      odd2 b d x) = .ok (rowOf w (X (m + 1 : Nat))) := by
    rw [← wi]
    apply column_ok
    intro i hi
    simp only [] at hi
    rw [wi] at hi ⊢
    rw [e2, idx_some _ _ _ (rowOf_get _ _ i hi), idx_some _ _ _ (rowOf_get _ _ i hi), idx_some _ _ _ (rowOf_get _ _ i hi)]
    simp only [bind_ok]
    have := odd2_sig (H.col i) n
    rw [show 2 * (n : Int) + 2 = (m + 2 : Nat) by omega, show 2 * (n : Int) + 1 = (m + 1 : Nat) by omega, ← cast] at this
    exact this
  obtain ⟨A, eA⟩ : ∃ A, A = rowOf w (X (m + 1 : Nat)) := ⟨_, rfl⟩
  obtain ⟨D, eD⟩ : ∃ D, D = rowOf w (X (m + 2 : Nat)) := ⟨_, rfl⟩
  rw [← eD] at c1 c2
  rw [← eA] at c2
  obtain ⟨l4, d4⟩ : ∃ l4, l4 = l3.set ((t.tap + 1) % 5 + 3) A := ⟨_, rfl⟩
  obtain ⟨l5, d5⟩ : ∃ l5, l5 = l4.set ((t.tap + 2) % 5 + 3) D := ⟨_, rfl⟩
  have n4 : l4.length = 8 := by rw [d4, List.length_set]; exact n3
  have n5 : l5.length = 8 := by rw [d5, List.length_set]; exact n4
  obtain ⟨q4, g4⟩ := get_some (ls := l3) (i := (t.tap + 1) % 5 + 3) (by omega)
  obtain ⟨q5, g5⟩ := get_some (ls := l4) (i := (t.tap + 2) % 5 + 3) (by omega)
  have s4 : setLine { t with lines := l3 } ((t.tap + 1) % 5 + 3) (fun _ => .ok A) = .ok { t with lines := l4 } := by
    rw [d4]; exact setLine_ok _ _ _ _ _ g4 rfl
  have s5 : setLine { t with lines := l4 } ((t.tap + 2) % 5 + 3) (fun _ => .ok D) = .ok { t with lines := l5 } := by
    rw [d5]; exact setLine_ok _ _ _ _ _ g5 rfl
  refine ⟨{ t with lines := l5, curH := t.curH + 2, curLine := t.curLine + 2, tap := (t.tap + 2) % 5 }, ?_, ?_⟩
  · unfold middle
    simp only [s1, s2, s3, bind_ok, idx_some _ _ _ k0, idx_some _ _ _ k1, idx_some _ _ _ k2, idx_some _ _ _ kg, c1, c2, s4, s5]
    rw [usub, if_pos (by omega)]
    simp only [bind_ok]
    rw [if_neg (by omega)]
  · refine ⟨by simp only []; omega, by simp only []; omega, by simp only []; omega, he, wi, n5, ?_, by omega, by omega, by omega, ?_, ?_, ?_⟩
    · simp only []
      rw [d5, d4]
      exact len_set (by rw [eD, rowOf_length]) (len_set (by rw [eA, rowOf_length]) len3)
    · intro hlt; omega
    · intro r h1 h2 h3
      simp only []
      rw [d5, tp]
      by_cases r2 : r = m + 2
      · subst r2
        rw [show 3 + (m + 2) % 5 = (m % 5 + 2) % 5 + 3 by omega, List.getElem?_set_self (by omega), eD]
      · rw [List.getElem?_set_ne (by omega), d4, tp]
        by_cases r1 : r = m + 1
        · subst r1
          rw [show 3 + (m + 1) % 5 = (m % 5 + 1) % 5 + 3 by omega, List.getElem?_set_self (by omega), eA]
        · rw [List.getElem?_set_ne (by omega)]
          have r0 : r = m := by omega
          subst r0
          rw [← kg, tp]; congr 1; omega
    · intro hlt
      simp only []
      rw [d5, List.getElem?_set_ne (by omega), d4, List.getElem?_set_ne (by omega), k2, e1]
      congr 4; omega

theorem endOdd_ok (H : ImgOK f h w X) {m : Nat} {t : Wt} (hb : Base h w X m m t) (hm : m + 3 = h)
    (hl : LowRow f w X (m / 2 + 1) t.b0 t.b1) :
    ∃ t', endOdd f t = .ok t' ∧ Base h w X m (m + 3) t' := by
  obtain ⟨cl, ch, tp, he, wi, n8, len, cm, mc, mh, ev, rows, hbb⟩ := hb
  have ev := (ev (by omega)).1
  have hbb := hbb (by omega)
  have row := rows m (by omega) (by omega) (by omega)
  obtain ⟨q0, g0⟩ := get_some (ls := t.lines) (i := 0) (by omega)
  obtain ⟨q1, g1⟩ := get_some (ls := t.lines) (i := 1) (by omega)
  obtain ⟨L0, e0⟩ : ∃ L, L = rowOf w (vert low X (m / 2 + 1 : Nat)) := ⟨_, rfl⟩
  obtain ⟨L2, e2⟩ : ∃ L, L = rowOf w (vert high X (m / 2 : Nat)) := ⟨_, rfl⟩
  have z0 := lowRow_ok H .later (by simp) (len 0 q0 g0) hl
  rw [← e0] at z0; rw [← e2] at hbb
  obtain ⟨l1, d1⟩ : ∃ l1, l1 = t.lines.set 0 L0 := ⟨_, rfl⟩
  obtain ⟨l3, d3⟩ : ∃ l3, l3 = (l1.set 1 L2).set 2 q1 := ⟨_, rfl⟩
  have n1 : l1.length = 8 := by rw [d1, List.length_set]; exact n8
  have n3 : l3.length = 8 := by rw [d3, List.length_set, List.length_set]; exact n1
  have s1 : setLine t 0 (horiz .later f t.width t.b0 t.b1) = .ok { t with lines := l1 } := by
    rw [d1]; exact setLine_ok _ _ _ _ _ g0 (by rw [wi]; exact z0)
  have s3 : swap12 { t with lines := l1 } = .ok { t with lines := l3 } := by
    rw [d3]; exact swap12_ok _ q1 L2 (by simp only [d1]; rw [List.getElem?_set_ne (by omega)]; exact g1)
      (by simp only [d1]; rw [List.getElem?_set_ne (by omega)]; exact hbb)
  have k0 : l3[0]? = some L0 := by
    rw [d3, List.getElem?_set_ne (by omega), List.getElem?_set_ne (by omega), d1, List.getElem?_set_self (by omega)]
  have k1 : l3[1]? = some L2 := by
    rw [d3, List.getElem?_set_ne (by omega), List.getElem?_set_self (by omega)]
  have kr : ∀ i : Nat, 3 ≤ i → l3[i]? = t.lines[i]? := by
    intro i hi
    rw [d3, List.getElem?_set_ne (by omega), List.getElem?_set_ne (by omega), d1, List.getElem?_set_ne (by omega)]
  have len3 : ∀ (i : Nat) (l : List Int), l3[i]? = some l → l.length = w := by
    rw [d3, d1]
    exact len_set (len 1 q1 g1) (len_set (by rw [e2, rowOf_length]) (len_set (by rw [e0, rowOf_length]) len))
  have kg : l3[t.tap + 3]? = some (rowOf w (X m)) := by rw [kr _ (by omega), tp, ← row]; congr 1; omega
  have cast : ((m : Nat) : Int) = 2 * ((m / 2 : Nat) : Int) := by omega
  generalize hn : m / 2 = n at *
  have c1 : column { t with lines := l3 } (fun i => do
      let a ← idx L0 i
      let b ← idx L2 i
      even1 a b) = .ok (rowOf w (X (m + 2 : Nat))) := by
    rw [← wi]
    apply column_ok
    intro i hi
    simp only [] at hi
    rw [wi] at hi
    rw [e0, e2, idx_some _ _ _ (rowOf_get _ _ i hi), idx_some _ _ _ (rowOf_get _ _ i hi)]
    simp only [bind_ok]
    have := even1_sig' (H.col i) (n + 1) ((H.ver i).high_right rfl (n + 1) (by omega))
    rw [show (n : Int) + 1 - 1 = n by omega, show 2 * ((n : Int) + 1) = (m + 2 : Nat) by omega] at this
    exact this
  have c2 : column { t with lines := l3 } (fun i => do
      let b ← idx L2 i
      let d ← idx (rowOf w (X (m + 2 : Nat))) i
      let x ← idx (rowOf w (X m)) i
      odd2 b d x) = .ok (rowOf w (X (m + 1 : Nat))) := by
    rw [← wi]
    apply column_ok
    intro i hi
    simp only [] at hi
    rw [wi] at hi ⊢
    rw [e2, idx_some _ _ _ (rowOf_get _ _ i hi), idx_some _ _ _ (rowOf_get _ _ i hi), idx_some _ _ _ (rowOf_get _ _ i hi)]
    simp only [bind_ok]
    have := odd2_sig (H.col i) n
    rw [show 2 * (n : Int) + 2 = (m + 2 : Nat) by omega, show 2 * (n : Int) + 1 = (m + 1 : Nat) by omega, ← cast] at this
    exact this
  obtain ⟨A, eA⟩ : ∃ A, A = rowOf w (X (m + 1 : Nat)) := ⟨_, rfl⟩
  obtain ⟨D, eD⟩ : ∃ D, D = rowOf w (X (m + 2 : Nat)) := ⟨_, rfl⟩
  rw [← eD] at c1 c2
  rw [← eA] at c2
  obtain ⟨l4, d4⟩ : ∃ l4, l4 = l3.set ((t.tap + 1) % 5 + 3) A := ⟨_, rfl⟩
  obtain ⟨l5, d5⟩ : ∃ l5, l5 = l4.set ((t.tap + 2) % 5 + 3) D := ⟨_, rfl⟩
  have n4 : l4.length = 8 := by rw [d4, List.length_set]; exact n3
  have n5 : l5.length = 8 := by rw [d5, List.length_set]; exact n4
  obtain ⟨q4, g4⟩ := get_some (ls := l3) (i := (t.tap + 1) % 5 + 3) (by omega)
  obtain ⟨q5, g5⟩ := get_some (ls := l4) (i := (t.tap + 2) % 5 + 3) (by omega)
  have s4 : setLine { t with lines := l3 } ((t.tap + 1) % 5 + 3) (fun _ => .ok A) = .ok { t with lines := l4 } := by
    rw [d4]; exact setLine_ok _ _ _ _ _ g4 rfl
  have s5 : setLine { t with lines := l4 } ((t.tap + 2) % 5 + 3) (fun _ => .ok D) = .ok { t with lines := l5 } := by
    rw [d5]; exact setLine_ok _ _ _ _ _ g5 rfl
  refine ⟨{ t with lines := l5, curH := t.curH + 3, curLine := t.curLine + 3, tap := (t.tap + 3) % 5 }, ?_, ?_⟩
  · unfold endOdd
    simp only [s1, s3, bind_ok, idx_some _ _ _ k0, idx_some _ _ _ k1, idx_some _ _ _ kg, c1, c2, s4, s5]
  · refine ⟨by simp only []; omega, by simp only []; omega, by simp only []; omega, he, wi, n5, ?_, by omega, by omega, by omega, ?_, ?_, ?_⟩
    · simp only []
      rw [d5, d4]
      exact len_set (by rw [eD, rowOf_length]) (len_set (by rw [eA, rowOf_length]) len3)
    · intro hlt; omega
    · intro r h1 h2 h3
      simp only []
      rw [d5, tp]
      by_cases r2 : r = m + 2
      · subst r2
        rw [show 3 + (m + 2) % 5 = (m % 5 + 2) % 5 + 3 by omega, List.getElem?_set_self (by omega), eD]
      · rw [List.getElem?_set_ne (by omega), d4, tp]
        by_cases r1 : r = m + 1
        · subst r1
          rw [show 3 + (m + 1) % 5 = (m % 5 + 1) % 5 + 3 by omega, List.getElem?_set_self (by omega), eA]
        · rw [List.getElem?_set_ne (by omega)]
          have r0 : r = m := by omega
          subst r0
          rw [← kg, tp]; congr 1; omega
    · intro hlt; omega

theorem endEven_ok (H : ImgOK f h w X) {m : Nat} {t : Wt} (hb : Base h w X m m t) (hm : m + 2 = h) :
    ∃ t', endEven t = .ok t' ∧ Base h w X m (m + 2) t' := by
  obtain ⟨cl, ch, tp, he, wi, n8, len, cm, mc, mh, ev, rows, hbb⟩ := hb
  have ev := (ev (by omega)).1
  replace hbb := hbb (by omega)
  have row := rows m (by omega) (by omega) (by omega)
  obtain ⟨q1, g1⟩ := get_some (ls := t.lines) (i := 1) (by omega)
  obtain ⟨L2, e2⟩ : ∃ L, L = rowOf w (vert high X (m / 2 : Nat)) := ⟨_, rfl⟩
  rw [← e2] at hbb
  have cast : ((m : Nat) : Int) = 2 * ((m / 2 : Nat) : Int) := by omega
  generalize hn : m / 2 = n at *
  have kg : t.lines[t.tap + 3]? = some (rowOf w (X m)) := by rw [tp, ← row]; congr 1; omega
  have c1 : column t (fun i => do
      let x ← idx (rowOf w (X m)) i
      let b ← idx L2 i
      i32 (x + b)) = .ok (rowOf w (X (m + 1 : Nat))) := by
    rw [← wi]
    apply column_ok
    intro i hi
    rw [wi] at hi ⊢
    rw [e2, idx_some _ _ _ (rowOf_get _ _ i hi), idx_some _ _ _ (rowOf_get _ _ i hi)]
    simp only [bind_ok]
    have a := (H.ver i).even_right rfl n (by omega)
    have b := H.bd (m + 1 : Nat) i
    have e : X m i + vert high X n i = X (m + 1 : Nat) i := by
      simp only [vert, high] at a ⊢
      rw [a, show 2 * (n : Int) + 1 = (m + 1 : Nat) by omega, ← cast]; omega
    rw [e]
    exact i32_ok _ (by omega) (by omega)
  obtain ⟨A, eA⟩ : ∃ A, A = rowOf w (X (m + 1 : Nat)) := ⟨_, rfl⟩
  rw [← eA] at c1
  obtain ⟨l4, d4⟩ : ∃ l4, l4 = t.lines.set ((t.tap + 1) % 5 + 3) A := ⟨_, rfl⟩
  obtain ⟨l5, d5⟩ : ∃ l5, l5 = (l4.set 1 L2).set 2 q1 := ⟨_, rfl⟩
  have n4 : l4.length = 8 := by rw [d4, List.length_set]; exact n8
  have n5 : l5.length = 8 := by rw [d5, List.length_set, List.length_set]; exact n4
  obtain ⟨q4, g4⟩ := get_some (ls := t.lines) (i := (t.tap + 1) % 5 + 3) (by omega)
  have s4 : setLine t ((t.tap + 1) % 5 + 3) (fun _ => .ok A) = .ok { t with lines := l4 } := by
    rw [d4]; exact setLine_ok _ _ _ _ _ g4 rfl
  have s5 : swap12 { t with lines := l4 } = .ok { t with lines := l5 } := by
    rw [d5]; exact swap12_ok _ q1 L2 (by simp only [d4]; rw [List.getElem?_set_ne (by omega)]; exact g1)
      (by simp only [d4]; rw [List.getElem?_set_ne (by omega)]; exact hbb)
  refine ⟨{ t with lines := l5, curH := t.curH + 2, curLine := t.curLine + 2, tap := (t.tap + 2) % 5 }, ?_, ?_⟩
  · unfold endEven
    simp only [idx_some _ _ _ kg, idx_some _ _ _ hbb, bind_ok, c1, s4, s5]
  · refine ⟨by simp only []; omega, by simp only []; omega, by simp only []; omega, he, wi, n5, ?_, by omega, by omega, by omega, ?_, ?_, ?_⟩
    · simp only []
      rw [d5, d4]
      exact len_set (len 1 q1 g1) (len_set (by rw [e2, rowOf_length]) (len_set (by rw [eA, rowOf_length]) len))
    · intro hlt; omega
    · intro r h1 h2 h3
      simp only []
      rw [d5, List.getElem?_set_ne (by omega), List.getElem?_set_ne (by omega), d4, tp]
      by_cases r1 : r = m + 1
      · subst r1
        rw [show 3 + (m + 1) % 5 = (m % 5 + 1) % 5 + 3 by omega, List.getElem?_set_self (by omega), eA]
      · rw [List.getElem?_set_ne (by omega)]
        have r0 : r = m := by omega
        subst r0
        exact row
    · intro hlt; omega

/-- A level before its first line -/
structure Start (h w : Nat) (t : Wt) : Prop where
  cl : t.curLine = 0
  ch : t.curH = 0
  tp : t.tap = 0
  he : t.height = h
  wi : t.width = w
  n8 : t.lines.length = 8
  len : ∀ (i : Nat) (l : List Int), t.lines[i]? = some l → l.length = w

theorem start_new (h w : Nat) : Start h w (newWt h w) := by
  refine ⟨rfl, rfl, rfl, rfl, rfl, by simp [newWt], ?_⟩
  intro i l hl
  simp only [newWt, List.getElem?_replicate] at hl
  split at hl
  · cases hl; simp
  · cases hl

theorem initMany_ok (H : ImgOK f h w X) {t : Wt} (hs : Start h w t) (hm : 1 < h)
    (hl : LowRow f w X 0 t.b0 t.b1) (hh : HighRow f w X 0 t.b2 t.b3) :
    ∃ t', initMany f t = .ok t' ∧ Base h w X 0 0 t' := by
  obtain ⟨cl, ch, tp, he, wi, n8, len⟩ := hs
  obtain ⟨q0, g0⟩ := get_some (ls := t.lines) (i := 0) (by omega)
  obtain ⟨q2, g2⟩ := get_some (ls := t.lines) (i := 2) (by omega)
  obtain ⟨q3, g3⟩ := get_some (ls := t.lines) (i := 3) (by omega)
  obtain ⟨L0, e0⟩ : ∃ L, L = rowOf w (vert low X (0 : Nat)) := ⟨_, rfl⟩
  obtain ⟨L2, e2⟩ : ∃ L, L = rowOf w (vert high X (0 : Nat)) := ⟨_, rfl⟩
  have z0 := lowRow_ok H .first (by simp) (len 0 q0 g0) hl
  have z2 := highRow_ok H .first (by simp) (len 2 q2 g2) hh
  rw [← e0] at z0; rw [← e2] at z2
  obtain ⟨l1, d1⟩ : ∃ l1, l1 = t.lines.set 0 L0 := ⟨_, rfl⟩
  obtain ⟨l2, d2⟩ : ∃ l2, l2 = l1.set 2 L2 := ⟨_, rfl⟩
  have n1 : l1.length = 8 := by rw [d1, List.length_set]; exact n8
  have n2 : l2.length = 8 := by rw [d2, List.length_set]; exact n1
  have s1 : setLine t 0 (horiz .first f t.width t.b0 t.b1) = .ok { t with lines := l1 } := by
    rw [d1]; exact setLine_ok _ _ _ _ _ g0 (by rw [wi]; exact z0)
  have s2 : setLine { t with lines := l1 } 2 (horiz .first f t.width t.b2 t.b3) = .ok { t with lines := l2 } := by
    rw [d2]; exact setLine_ok _ _ _ q2 _ (by simp only [d1]; rw [List.getElem?_set_ne (by omega)]; exact g2) (by rw [wi]; exact z2)
  have k0 : l2[0]? = some L0 := by rw [d2, List.getElem?_set_ne (by omega), d1, List.getElem?_set_self (by omega)]
  have k2 : l2[2]? = some L2 := by rw [d2, List.getElem?_set_self (by omega)]
  have c1 : column { t with lines := l2 } (fun i => do
      let a ← idx L0 i
      let b ← idx L2 i
      even1 a b) = .ok (rowOf w (X (0 : Nat))) := by
    rw [← wi]
    apply column_ok
    intro i hi
    simp only [] at hi
    rw [wi] at hi
    rw [e0, e2, idx_some _ _ _ (rowOf_get _ _ i hi), idx_some _ _ _ (rowOf_get _ _ i hi)]
    simp only [bind_ok]
    exact even1_sig (H.col i) 0 ((H.ver i).high_left rfl)
  obtain ⟨A, eA⟩ : ∃ A, A = rowOf w (X (0 : Nat)) := ⟨_, rfl⟩
  rw [← eA] at c1
  obtain ⟨l3, d3⟩ : ∃ l3, l3 = l2.set 3 A := ⟨_, rfl⟩
  have n3 : l3.length = 8 := by rw [d3, List.length_set]; exact n2
  have s3 : setLine { t with lines := l2 } 3 (fun _ => .ok A) = .ok { t with lines := l3 } := by
    rw [d3]; exact setLine_ok _ _ _ q3 _
      (by simp only [d2, d1]; rw [List.getElem?_set_ne (by omega), List.getElem?_set_ne (by omega)]; exact g3) rfl
  refine ⟨{ t with lines := l3 }, ?_, ?_⟩
  · unfold initMany
    simp only [s1, s2, bind_ok, idx_some _ _ _ k0, idx_some _ _ _ k2, c1]
    rw [show t.tap + 3 = 3 by omega]
    exact s3
  · refine ⟨cl, ch, tp, he, wi, n3, ?_, by omega, by omega, by omega, ?_, ?_, ?_⟩
    · simp only []
      rw [d3, d2, d1]
      exact len_set (by rw [eA, rowOf_length]) (len_set (by rw [e2, rowOf_length]) (len_set (by rw [e0, rowOf_length]) len))
    · intro hlt; have := H.hh; omega
    · intro r h1 h2 h3
      have r0 : r = 0 := by omega
      subst r0
      simp only []
      rw [d3, List.getElem?_set_self (by omega), eA]
    · intro hlt
      simp only []
      rw [d3, List.getElem?_set_ne (by omega), k2, e2]

theorem initSingle_ok (H : ImgOK f h w X) {t : Wt} (hs : Start h w t) (hm : h = 1)
    (hl : LowRow f w X 0 t.b0 t.b1) :
    ∃ t', initSingle f t = .ok t' ∧ Base h w X 0 1 t' := by
  obtain ⟨cl, ch, tp, he, wi, n8, len⟩ := hs
  obtain ⟨q3, g3⟩ := get_some (ls := t.lines) (i := 3) (by omega)
  have z0 := lowRow_ok H .single (fun _ => hm) (len 3 q3 g3) hl
  have e : vert low X (0 : Nat) = X (0 : Nat) := by
    funext c
    have := (H.ver c).one hm
    simp only [vert]
    exact low_const this
  rw [e] at z0
  obtain ⟨A, eA⟩ : ∃ A, A = rowOf w (X (0 : Nat)) := ⟨_, rfl⟩
  rw [← eA] at z0
  obtain ⟨l3, d3⟩ : ∃ l3, l3 = t.lines.set 3 A := ⟨_, rfl⟩
  have n3 : l3.length = 8 := by rw [d3, List.length_set]; exact n8
  have s1 : setLine t (t.tap + 3) (horiz .single f t.width t.b0 t.b1) = .ok { t with lines := l3 } := by
    rw [d3, show t.tap + 3 = 3 by omega]; exact setLine_ok t 3 _ _ _ g3 (by rw [wi]; exact z0)
  refine ⟨{ t with lines := l3, curLine := t.curLine + 1, curH := t.curH + 1, tap := (t.tap + 1) % 5 }, ?_, ?_⟩
  · unfold initSingle
    simp only [s1, bind_ok]
  · refine ⟨by simp only []; omega, by simp only []; omega, by simp only []; omega, he, wi, n3, ?_, by omega, by omega, by omega, ?_, ?_, ?_⟩
    · simp only []
      rw [d3]
      exact len_set (by rw [eA, rowOf_length]) len
    · intro hlt; omega
    · intro r h1 h2 h3
      have r0 : r = 0 := by omega
      subst r0
      simp only []
      rw [d3, List.getElem?_set_self (by omega), eA]
    · intro hlt; omega

end Verif.Crx
