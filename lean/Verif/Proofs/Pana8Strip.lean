import Verif.Proofs.Pana8
/-! Lemmas on the strips of Panasonic raw format 8. -/

namespace Verif.Pana8
open Verif Verif.Pumps Verif.Spec Verif.Spec.Pef Verif.Spec.Pana8
open Verif.Orf (ok_bind)

theorem slot_eq (n : Nat) : slot n = 2 * (inSquare n).1 + (inSquare n).2 := by
  have : n % 2 = n % 4 % 2 := by omega
  simp only [slot, inSquare, this]
  have h4 := Nat.mod_lt n (show 0 < 4 by omega)
  generalize n % 4 = k at *
  have : k = 0 ∨ k = 1 ∨ k = 2 ∨ k = 3 := by omega
  rcases this with rfl | rfl | rfl | rfl <;> decide

theorem slot_lt (n : Nat) : slot n < 4 := by rw [slot_eq]; simp only [inSquare]; omega

theorem slot_mod (a b : Nat) (h : b < 4) : slot (4 * a + b) = slot b := by
  simp only [slot, show (4 * a + b) % 4 = b by omega, Nat.mod_eq_of_lt h]

theorem slot_inj {a b : Nat} (ha : a < 4) (hb : b < 4) (h : slot a = slot b) : a = b := by
  have : ∀ a b : Fin 4, slot a = slot b → a = b := by decide
  simpa using this ⟨a, ha⟩ ⟨b, hb⟩ h

/-- The place of sample `n` in the line buffer. -/
def place (n : Nat) : Nat := n / 4 * 4 + slot n

theorem place_inj {a b : Nat} (h : place a = place b) : a = b := by
  have e : ∀ n, slot n = slot (n % 4) := fun n => by simp only [slot, Nat.mod_mod]
  have h1 := slot_lt a; have h2 := slot_lt b
  simp only [place] at h
  have : slot a = slot b := by omega
  rw [e a, e b] at this
  have := slot_inj (Nat.mod_lt _ (by omega)) (Nat.mod_lt _ (by omega)) this
  omega

theorem place_lt {n m : Nat} (h : n < 4 * m) : place n < 4 * m := by have := slot_lt n; simp only [place]; omega

section
variable (P : Params) (px : Nat → Nat → Nat) (s : Strip)

/-- The state of the line after `n` samples of the pair of rows `i`. -/
def LineInv (m i n : Nat) (l : Line) : Prop :=
  l.buf.length = 4 * m ∧ (∀ k, k < n → l.buf[place k]? = some (stored px s.row s.col i k)) ∧
  (∀ j, j < 4 → l.cur[slot j]? = some (predicted P.init px s.row s.col i (n / 4 * 4 + j))) ∧
  ∀ j, j < 4 → l.base[slot j]? = some (if n < 4 then predicted P.init px s.row s.col i j else stored px s.row s.col i j)

theorem clamp_id (v clip : Nat) (h : v ≤ clip) : (clamp v 0 clip).toNat = v := by
  simp only [clamp]
  rw [if_neg (by omega), if_neg (by omega)]
  rfl

theorem slice_get {l : List Nat} {a b : Nat} (h1 : a ≤ b) (h2 : b ≤ l.length) :
    ∃ m, slice l a b = .ok m ∧ ∀ k, k < b - a → m[k]? = l[a + k]? := by
  refine ⟨_, slice_ok l a b h1 h2, fun k hk => ?_⟩
  rw [List.getElem?_take, if_pos hk, List.getElem?_drop]

theorem sample_ok (hu : Usable P.table) (hs : NoShift P) (m i n : Nat) (hn : n < 4 * m) (hv : stored px s.row s.col i n ≤ P.clip)
    (hc : catOf (diff P.init px s.row s.col i n) < P.table.length)
    (p : PumpRev) (l : Line) (r : List Bool) (hi : LineInv P px s m i n l) (hr : p.Rep (coded P.table (diff P.init px s.row s.col i n) ++ r))
    (hm : 15 ≤ r.length) : ∃ p' l', sample P (symsOf P.table) n (p, l) = .ok (p', l') ∧ p'.Rep r ∧ LineInv P px s m i (n + 1) l' := by
  obtain ⟨h1, h2, h3, h4⟩ := hi
  obtain ⟨p', e, r'⟩ := readDiff_ok P hu hs _ hc p r hr hm
  have h4n : n = 4 * (n / 4) + n % 4 := by omega
  have hsl : slot n = slot (n % 4) := by simp only [slot, Nat.mod_mod]
  have hcur : idx l.cur (slot n) = .ok (predicted P.init px s.row s.col i n) := by
    rw [idx, hsl, h3 (n % 4) (Nat.mod_lt _ (by omega)), show n / 4 * 4 + n % 4 = n by omega]
  have hval : (clamp ((predicted P.init px s.row s.col i n : Int) + diff P.init px s.row s.col i n) 0 P.clip).toNat = stored px s.row s.col i n := by
    rw [diff, show (predicted P.init px s.row s.col i n : Int) + (stored px s.row s.col i n - predicted P.init px s.row s.col i n) =
      stored px s.row s.col i n by omega]
    exact clamp_id _ _ hv
  have hpl := place_lt hn
  have hup : upd l.buf (n / 4 * 4 + slot n) (stored px s.row s.col i n) = .ok (l.buf.set (place n) (stored px s.row s.col i n)) :=
    upd_lt _ _ _ (by rw [h1]; exact hpl)
  have hlen : (l.buf.set (place n) (stored px s.row s.col i n)).length = 4 * m := by rw [List.length_set, h1]
  have hget : ∀ k, k < n + 1 → (l.buf.set (place n) (stored px s.row s.col i n))[place k]? = some (stored px s.row s.col i k) := by
    intro k hk
    rcases Nat.lt_or_eq_of_le (Nat.le_of_lt_succ hk) with h | rfl
    · rw [List.getElem?_set_ne (fun he => by have := place_inj he; omega), h2 k h]
    · rw [List.getElem?_set_self (by omega)]
  rw [sample, e]
  simp only [ok_bind]
  rw [hcur, ok_bind, hval, hup, ok_bind]
  generalize hbuf : l.buf.set (place n) (stored px s.row s.col i n) = buf at *
  have hplj : ∀ g j, j < 4 → place (4 * g + j) = 4 * g + slot j := by
    intro g j hj
    rw [place, slot_mod g j hj]; omega
  have hcur' : ∃ c, (if n % 4 = 3 then slice buf (n / 4 * 4) (n / 4 * 4 + 4) else .ok l.cur : R (List Nat)) = .ok c ∧
      ∀ j, j < 4 → c[slot j]? = some (predicted P.init px s.row s.col i ((n + 1) / 4 * 4 + j)) := by
    by_cases h : n % 4 = 3
    · rw [if_pos h]
      obtain ⟨c, e1, e2⟩ := slice_get (l := buf) (a := n / 4 * 4) (b := n / 4 * 4 + 4) (by omega) (by omega)
      refine ⟨c, e1, fun j hj => ?_⟩
      have := slot_lt j
      rw [e2 _ (by omega), show n / 4 * 4 + slot j = place (4 * (n / 4) + j) by rw [hplj _ _ hj]; omega, hget _ (by omega), predicted, if_pos (by omega)]
      congr 2; omega
    · rw [if_neg h]
      exact ⟨_, rfl, fun j hj => by rw [h3 j hj]; congr 2; omega⟩
  have hbase' : ∃ c, (if n = 3 then slice buf 0 4 else .ok l.base : R (List Nat)) = .ok c ∧
      ∀ j, j < 4 → c[slot j]? = some (if n + 1 < 4 then predicted P.init px s.row s.col i j else stored px s.row s.col i j) := by
    by_cases h : n = 3
    · rw [if_pos h]
      obtain ⟨c, e1, e2⟩ := slice_get (l := buf) (a := 0) (b := 4) (by omega) (by omega)
      refine ⟨c, e1, fun j hj => ?_⟩
      have := slot_lt j
      rw [e2 _ (by omega), show 0 + slot j = place (4 * 0 + j) by rw [hplj _ _ hj], hget _ (by omega), if_neg (by omega)]
      congr 2; omega
    · rw [if_neg h]
      refine ⟨_, rfl, fun j hj => ?_⟩
      rw [h4 j hj]
      by_cases h' : n < 4
      · rw [if_pos h', if_pos (by omega)]
      · rw [if_neg h', if_neg (by omega)]
  obtain ⟨c, ec, hc1⟩ := hcur'
  obtain ⟨b, eb, hb1⟩ := hbase'
  rw [ec, ok_bind, eb, ok_bind]
  exact ⟨p', _, rfl, r', hlen, hget, hc1, hb1⟩

theorem line_ok (hu : Usable P.table) (hs : NoShift P) (m i : Nat) (hm : 0 < m) (hv : ∀ n, n < 4 * m → stored px s.row s.col i n ≤ P.clip)
    (hc : ∀ n, n < 4 * m → catOf (diff P.init px s.row s.col i n) < P.table.length)
    (p : PumpRev) (l : Line) (r : List Bool) (h1 : l.buf.length = 4 * m)
    (hb : ∀ j, j < 4 → l.base[slot j]? = some (predicted P.init px s.row s.col i j))
    (hr : p.Rep ((List.range (4 * m)).flatMap (fun n => coded P.table (diff P.init px s.row s.col i n)) ++ r))
    (h15 : 15 ≤ r.length) :
    ∃ p' l', forN (4 * m) (sample P (symsOf P.table)) (p, { l with cur := l.base }) = .ok (p', l') ∧ p'.Rep r ∧ l'.buf.length = 4 * m ∧
      (∀ n, n < 4 * m → l'.buf[place n]? = some (stored px s.row s.col i n)) ∧
      ∀ j, j < 4 → l'.base[slot j]? = some (predicted P.init px s.row s.col (i + 1) j) := by
  obtain ⟨p', l', e, r', hi⟩ := forN_code PumpRev.Rep (4 * m) (sample P (symsOf P.table))
    (fun n => coded P.table (diff P.init px s.row s.col i n)) (LineInv P px s m i) 15
    (fun n hn p l r hi hr h15 => sample_ok P px s hu hs m i n hn (hv n hn) (hc n hn) p l r hi hr h15) p { l with cur := l.base } r
    ⟨h1, fun k hk => by omega, fun j hj => by simpa using hb j hj, fun j hj => by rw [if_pos (by omega)]; exact hb j hj⟩ hr h15
  refine ⟨p', l', e, r', hi.1, hi.2.1, fun j hj => ?_⟩
  rw [hi.2.2.2 j hj, if_neg (by omega), predicted, if_neg (by omega), if_pos (by omega)]
  rfl

end

/-! ## Writing to the image -/

/-- The image has its size and is right where `D` says so. -/
def Agree (w h : Nat) (v : Nat → Nat → Nat) (D : Nat → Nat → Prop) (out : List Nat) : Prop :=
  out.length = h * w ∧ ∀ r c, r < h → c < w → D r c → out[r * w + c]? = some (v r c)

theorem cell_lt {w h r c : Nat} (hr : r < h) (hc : c < w) : r * w + c < h * w := by
  have : (r + 1) * w ≤ h * w := Nat.mul_le_mul_right _ hr
  rw [Nat.add_mul] at this; omega

theorem cell_inj {w r c r' c' : Nat} (hc : c < w) (hc' : c' < w) (h : r * w + c = r' * w + c') : r = r' ∧ c = c' := by
  have e1 : (r * w + c) / w = r := by rw [Nat.mul_comm, Nat.mul_add_div (by omega), Nat.div_eq_of_lt hc, Nat.add_zero]
  have e2 : (r' * w + c') / w = r' := by rw [Nat.mul_comm, Nat.mul_add_div (by omega), Nat.div_eq_of_lt hc', Nat.add_zero]
  have : r = r' := by rw [← e1, ← e2, h]
  subst this
  exact ⟨rfl, by omega⟩

theorem Agree.upd {w h : Nat} {v : Nat → Nat → Nat} {D D' : Nat → Nat → Prop} {out : List Nat} (ha : Agree w h v D out) (r c : Nat) (hr : r < h) (hc : c < w)
    (hD : ∀ r' c', D' r' c' → D r' c' ∨ (r' = r ∧ c' = c)) :
    ∃ out', Verif.upd out (r * w + c) (v r c) = .ok out' ∧ Agree w h v D' out' := by
  have hlt := cell_lt hr hc
  refine ⟨_, upd_lt _ _ _ (by rw [ha.1]; exact hlt), by rw [List.length_set, ha.1], fun r' c' hr' hc' hd => ?_⟩
  by_cases he : r' = r ∧ c' = c
  · obtain ⟨rfl, rfl⟩ := he
    rw [List.getElem?_set_self (by rw [ha.1]; exact hlt)]
  · rw [List.getElem?_set_ne (fun e => he (by have := cell_inj hc hc' e; exact ⟨this.1.symm, this.2.symm⟩))]
    rcases hD r' c' hd with h | h
    · exact ha.2 r' c' hr' hc' h
    · exact absurd h he

/-- A group of four samples. -/
theorem copyGroup_ok {w h : Nat} {px v : Nat → Nat → Nat} {D : Nat → Nat → Prop} (t : Option (List Nat))
    (buf : List Nat) (row left k : Nat) (hr : row + 1 < h) (hc : left + 2 * k + 1 < w)
    (hv : ∀ r c, r < h → c < w → row ≤ r → r < row + 2 → left + 2 * k ≤ c → c < left + 2 * k + 2 → look t (px r c) = .ok (v r c))
    (hb : ∀ a b, a < 2 → b < 2 → buf[4 * k + (2 * a + b)]? = some (px (row + a) (left + 2 * k + b)))
    (out : List Nat) (ha : Agree w h v (fun r c => D r c ∨ (row ≤ r ∧ r < row + 2 ∧ left ≤ c ∧ c < left + 2 * k)) out) :
    ∃ out', copyGroup t buf w row left k out = .ok out' ∧
      Agree w h v (fun r c => D r c ∨ (row ≤ r ∧ r < row + 2 ∧ left ≤ c ∧ c < left + 2 * (k + 1))) out' := by
  obtain ⟨o1, e1, a1⟩ := ha.upd (D' := fun r c => (D r c ∨ (row ≤ r ∧ r < row + 2 ∧ left ≤ c ∧ c < left + 2 * k)) ∨ (r = row ∧ c = left + 2 * k))
    row (left + 2 * k) (by omega) (by omega) (fun _ _ h => h)
  obtain ⟨o2, e2, a2⟩ := a1.upd (D' := fun r c => (D r c ∨ (row ≤ r ∧ r < row + 2 ∧ left ≤ c ∧ c < left + 2 * k)) ∨ (r = row ∧ c = left + 2 * k) ∨
    (r = row ∧ c = left + 2 * k + 1)) row (left + 2 * k + 1) (by omega) (by omega) (fun _ _ h => by tauto)
  obtain ⟨o3, e3, a3⟩ := a2.upd (D' := fun r c => (D r c ∨ (row ≤ r ∧ r < row + 2 ∧ left ≤ c ∧ c < left + 2 * k)) ∨ (r = row ∧ c = left + 2 * k) ∨
    (r = row ∧ c = left + 2 * k + 1) ∨ (r = row + 1 ∧ c = left + 2 * k)) (row + 1) (left + 2 * k) (by omega) (by omega) (fun _ _ h => by tauto)
  obtain ⟨o4, e4, a4⟩ := a3.upd (D' := fun r c => D r c ∨ (row ≤ r ∧ r < row + 2 ∧ left ≤ c ∧ c < left + 2 * (k + 1)))
    (row + 1) (left + 2 * k + 1) (by omega) (by omega) (fun r c h => by
      rcases h with h | h
      · exact .inl (.inl (.inl h))
      · by_cases h1 : c < left + 2 * k
        · exact .inl (.inl (.inr ⟨h.1, h.2.1, h.2.2.1, h1⟩))
        · have hr : r = row ∨ r = row + 1 := by omega
          have hc : c = left + 2 * k ∨ c = left + 2 * k + 1 := by omega
          tauto)
  refine ⟨o4, ?_, a4⟩
  have b0 := hb 0 0 (by omega) (by omega)
  have b1 := hb 0 1 (by omega) (by omega)
  have b2 := hb 1 0 (by omega) (by omega)
  have b3 := hb 1 1 (by omega) (by omega)
  simp only [Nat.mul_zero, Nat.zero_add, Nat.add_zero, Nat.mul_one] at b0 b1 b2 b3
  rw [copyGroup, idx, b0]
  simp only [ok_bind]
  rw [hv row (left + 2 * k) (by omega) (by omega) (by omega) (by omega) (by omega) (by omega), ok_bind, e1, ok_bind, idx, b1]
  simp only [ok_bind]
  rw [hv row (left + 2 * k + 1) (by omega) (by omega) (by omega) (by omega) (by omega) (by omega), ok_bind, e2, ok_bind, idx, b2]
  simp only [ok_bind]
  rw [hv (row + 1) (left + 2 * k) (by omega) (by omega) (by omega) (by omega) (by omega) (by omega), ok_bind, e3, ok_bind, idx, b3]
  simp only [ok_bind]
  rw [hv (row + 1) (left + 2 * k + 1) (by omega) (by omega) (by omega) (by omega) (by omega) (by omega), ok_bind, e4]

theorem buf_at {px : Nat → Nat → Nat} {s : Strip} {m i : Nat} {buf : List Nat} (h : ∀ n, n < 4 * m → buf[place n]? = some (stored px s.row s.col i n))
    (k a b : Nat) (hk : k < m) (ha : a < 2) (hb : b < 2) : buf[4 * k + (2 * a + b)]? = some (px (s.row + i * 2 + a) (s.col + 2 * k + b)) := by
  have hi : inSquare (4 * k + (2 * b + a)) = (a, b) := by simp only [inSquare]; ext <;> simp only <;> omega
  have := h (4 * k + (2 * b + a)) (by omega)
  rw [place, slot_eq, stored, hi] at this
  simp only at this
  rw [show (4 * k + (2 * b + a)) / 4 = k by omega, Nat.mul_comm k 4, Nat.mul_comm 2 i] at this
  exact this

section
variable (P : Params) (px v : Nat → Nat → Nat) (s : Strip) (w h : Nat)

theorem strip_ok (hu : Usable P.table) (hs : NoShift P) (t : Option (List Nat)) (hg : gammaTable P = .ok t) (hi4 : P.init.length = 4) (hf : s.Fits w h)
    (hpx : ∀ r c, s.Covers r c → px r c ≤ P.clip) (hv : ∀ r c, s.Covers r c → look t (px r c) = .ok (v r c))
    (hc : ∀ i n, i < s.height / 2 → n < 2 * s.width → catOf (diff P.init px s.row s.col i n) < P.table.length)
    (k : Nat) (hw : P.widths[k]? = some s.width) (hh : P.heights[k]? = some s.height) (ho : P.lineOffsets[k]? = some (s.col, s.row))
    (data : List Nat) (pad : List Bool) (hd : bytesLSB data = encode P.table P.init px s ++ pad)
    (hlen : (encode P.table P.init px s).length + 15 ≤ 32 * (data.length / 4))
    (D : Nat → Nat → Prop) (out : List Nat) (ha : Agree w h v D out) :
    ∃ out', decodeStrip P data k w out = .ok out' ∧ Agree w h v (fun r c => D r c ∨ s.Covers r c) out' := by
  obtain ⟨f0, f1, f2, f3, f4⟩ := hf
  have hsw : (s.width >>> 1) * 4 = 4 * (s.width / 2) := by rw [Nat.shiftRight_eq_div_pow, Nat.mul_comm]
  have hcov : ∀ i n, i < s.height / 2 → n < 4 * (s.width / 2) →
      s.Covers (s.row + 2 * i + (inSquare n).1) (s.col + 2 * (n / 4) + (inSquare n).2) := by
    intro i n hi hn
    simp only [Strip.Covers, inSquare]
    omega
  have h2w : 4 * (s.width / 2) = 2 * s.width := by omega
  have hbl : ∀ l : List Nat, (bytesLSB l).length = 8 * l.length := by
    intro l; induction l with
    | nil => rfl
    | cons a l ih => rw [bytesLSB_cons, List.length_append, length_bitsLSB, ih, List.length_cons]; omega
  obtain ⟨rest, hrest, h15⟩ : ∃ rest, bytesLSB (data.take (data.length / 4 * 4)) = encode P.table P.init px s ++ rest ∧ 15 ≤ rest.length := by
    have e1 : bytesLSB data = bytesLSB (data.take (data.length / 4 * 4)) ++ bytesLSB (data.drop (data.length / 4 * 4)) := by
      rw [bytesLSB, bytesLSB, bytesLSB, ← List.flatMap_append, List.take_append_drop]
    have e2 : (bytesLSB (data.take (data.length / 4 * 4))).length = 32 * (data.length / 4) := by
      rw [hbl, List.length_take, Nat.min_eq_left (by omega)]; omega
    have hp : encode P.table P.init px s <+: bytesLSB (data.take (data.length / 4 * 4)) := by
      refine List.prefix_of_prefix_length_le (l₃ := bytesLSB data) ⟨pad, hd.symm⟩ ⟨_, e1.symm⟩ (by omega)
    obtain ⟨rest, hr⟩ := hp
    refine ⟨rest, hr.symm, ?_⟩
    have := congrArg List.length hr
    rw [List.length_append, e2] at this
    omega
  rw [decodeStrip, idx, hw]
  simp only [ok_bind]
  rw [idx, hh]
  simp only [ok_bind]
  rw [hg, ok_bind, huffNew_ok _ hu, ok_bind, hsw]
  have hrep := PumpRev.rep_new data
  rw [hrest, encode, ← h2w] at hrep
  have hinit : ∀ j, j < 4 → P.init[slot j]? = some (predicted P.init px s.row s.col 0 j) := by
    intro j hj
    have := slot_lt j
    rw [predicted, if_neg (by omega), if_neg (by omega), ← slot_eq, List.getD_eq_getElem?_getD, List.getElem?_eq_getElem (by omega)]
    rfl
  obtain ⟨p', st', e, -, -, -, hfin⟩ := forN_code (σ := Line × List Nat) PumpRev.Rep (s.height / 2)
    (rowPair P (symsOf P.table) t k s.width w)
    (fun i => (List.range (4 * (s.width / 2))).flatMap fun n => coded P.table (diff P.init px s.row s.col i n))
    (fun i st => st.1.buf.length = 4 * (s.width / 2) ∧ (∀ j, j < 4 → st.1.base[slot j]? = some (predicted P.init px s.row s.col i j)) ∧
      Agree w h v (fun r c => D r c ∨ (s.row ≤ r ∧ r < s.row + 2 * i ∧ s.col ≤ c ∧ c < s.col + s.width)) st.2) 15 (by
      rintro i hi p ⟨l, o⟩ r ⟨i1, i2, i3⟩ hr h15
      obtain ⟨p1, l1, e1, r1, q1, q2, q3⟩ := line_ok P px s hu hs (s.width / 2) i (by omega)
        (fun n hn => hpx _ _ (hcov i n hi hn)) (fun n hn => hc i n hi (by omega)) p l r i1 i2 hr h15
      obtain ⟨o1, e2, a2⟩ := forN_inv (s.width / 2) (copyGroup t l1.buf w (s.row + i * 2) s.col)
        (fun k o => Agree w h v (fun r c => (D r c ∨ (s.row ≤ r ∧ r < s.row + 2 * i ∧ s.col ≤ c ∧ c < s.col + s.width)) ∨
          (s.row + i * 2 ≤ r ∧ r < s.row + i * 2 + 2 ∧ s.col ≤ c ∧ c < s.col + 2 * k)) o) o
        ⟨i3.1, fun r c hr hc hd => i3.2 r c hr hc (by rcases hd with hd | hd; exact hd; omega)⟩
        (fun k o hk ha => copyGroup_ok t l1.buf (s.row + i * 2) s.col k (by omega) (by omega)
          (fun r c _ _ g1 g2 g3 g4 => hv r c ⟨by omega, by omega, by omega, by omega⟩)
          (fun a b ha hb => buf_at q2 k a b hk ha hb) o ha)
      refine ⟨p1, (l1, o1), ?_, r1, q1, q3, a2.1, fun r c hr hc hd => a2.2 r c hr hc ?_⟩
      · rw [rowPair]
        simp only []
        rw [hsw, e1, ok_bind]
        simp only []
        rw [assert', if_pos (by rw [q1]; simpa using h2w), ok_bind, if_pos f0, idx, ho]
        simp only [ok_bind]
        rw [e2, ok_bind]
      · rcases hd with hd | hd
        · exact .inl (.inl hd)
        · by_cases h1 : r < s.row + 2 * i
          · exact .inl (.inr ⟨hd.1, h1, hd.2.2⟩)
          · exact .inr ⟨by omega, by omega, hd.2.2.1, by omega⟩)
    (PumpRev.new data) ({ cur := P.init, base := P.init, buf := List.replicate (4 * (s.width / 2)) 0 }, out) rest
    ⟨by simp, hinit, ha.1, fun r c hr hc hd => ha.2 r c hr hc (by rcases hd with hd | hd; exact hd; omega)⟩ hrep h15
  rw [show s.height >>> 1 = s.height / 2 by rw [Nat.shiftRight_eq_div_pow], e]
  refine ⟨_, rfl, hfin.1, fun r c hr hc hd => hfin.2 r c hr hc ?_⟩
  rcases hd with hd | hd
  · exact .inl hd
  · exact .inr ⟨hd.1, by have := hd.2.1; omega, hd.2.2⟩

end

end Verif.Pana8
