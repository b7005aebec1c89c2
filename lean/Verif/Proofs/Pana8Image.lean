import Verif.Proofs.Pana8Strip
import Mathlib.Data.Nat.Bitwise
/-! Lemmas on whole pictures and the tone curve of Panasonic raw format 8. -/

namespace Verif.Pana8
open Verif Verif.Pumps Verif.Spec Verif.Spec.Pef Verif.Spec.Pana8
open Verif.Orf (ok_bind)

theorem gammaTable_linear (P : Params) (h1 : P.gammaPoint = List.replicate 6 65536) (h2 : P.gammaSlope = List.replicate 6 0) :
    gammaTable P = .ok none := by rw [gammaTable, if_pos ⟨h1, h2⟩]

theorem gammaTable_curve (P : Params) (cv : Nat → Nat) (h : ¬ (P.gammaPoint = List.replicate 6 65536 ∧ P.gammaSlope = List.replicate 6 0))
    (hc : ∀ v, v < 65536 → calcGamma P v = .ok (cv v)) : gammaTable P = .ok (some ((List.range 65536).map cv)) := by
  rw [gammaTable, if_neg h, mapM_ok_of _ cv _ (fun v hv => hc v (List.mem_range.1 hv))]
  rfl

theorem look_curve (cv : Nat → Nat) (v : Nat) (h : v < 65536) : look (some ((List.range 65536).map cv)) v = .ok (cv v) := by
  rw [look, idx_lt _ _ (by rw [List.length_map, List.length_range]; exact h), List.getElem_map, List.getElem_range]

/-- The settings say what the strips are. -/
structure Describes (P : Params) (ss : List Strip) : Prop where
  count : P.stripsH * P.stripsV = ss.length
  small : ss.length < 65536
  cols : P.stripsV ≠ 0
  offsets : P.byteOffsets = ss.map (·.offset)
  sizes : P.dataSizes = ss.map (·.size)
  widths : P.widths = ss.map (·.width)
  heights : P.heights = ss.map (·.height)
  places : P.lineOffsets = ss.map fun s => (s.col, s.row)

/-- The bytes of a strip. -/
def dataOf (file : List Nat) (s : Strip) : List Nat := (file.drop s.offset).take ((s.size + 7) / 8)

theorem decode_ok (P : Params) (ss : List Strip) (px v : Nat → Nat → Nat) (w h : Nat) (file : List Nat) (hu : Usable P.table) (hs : NoShift P)
    (t : Option (List Nat)) (hg : gammaTable P = .ok t) (hi4 : P.init.length = 4) (hD : Describes P ss)
    (hw : P.widths.sum / P.stripsV = w) (hf : ∀ s ∈ ss, s.Fits w h) (hcov : ∀ r c, r < h → c < w → ∃ s ∈ ss, s.Covers r c)
    (hpx : ∀ r c, r < h → c < w → px r c ≤ P.clip) (hv : ∀ r c, r < h → c < w → look t (px r c) = .ok (v r c))
    (hc : ∀ s ∈ ss, ∀ i n, i < s.height / 2 → n < 2 * s.width → catOf (diff P.init px s.row s.col i n) < P.table.length)
    (hd : ∀ s ∈ ss, s.offset + (s.size + 7) / 8 ≤ file.length ∧ (∃ pad, bytesLSB (dataOf file s) = encode P.table P.init px s ++ pad) ∧
      (encode P.table P.init px s).length + 15 ≤ 32 * ((s.size + 7) / 8 / 4)) :
    ∃ out, decode P file w h = .ok out ∧ Holds out w h v := by
  have hin : ∀ s ∈ ss, ∀ r c, s.Covers r c → r < h ∧ c < w := by
    intro s hs r c hc
    obtain ⟨-, -, -, f3, f4⟩ := hf s hs
    obtain ⟨c1, c2, c3, c4⟩ := hc
    omega
  have hlen : ∀ s ∈ ss, (dataOf file s).length = (s.size + 7) / 8 := by
    intro s hs
    rw [dataOf, List.length_take, List.length_drop, Nat.min_eq_left (by have := (hd s hs).1; omega)]
  rw [decode, assert', if_pos (by simpa using hD.cols), ok_bind, assert', if_pos (by simpa using hw), ok_bind, assert',
    if_pos (by rw [hD.count]; simpa using hD.small), ok_bind, hD.count]
  rw [mapM_ok_of _ (fun k => (ss.map (dataOf file)).getD k []) _ (by
    intro k hk
    have hk := List.mem_range.1 hk
    rw [hD.offsets, hD.sizes, idx_lt _ _ (by simpa using hk), ok_bind, idx_lt _ _ (by simpa using hk), ok_bind]
    rw [List.getElem_map, List.getElem_map, if_pos ((hd _ (List.getElem_mem hk)).1), List.getD_eq_getElem?_getD, List.getElem?_eq_getElem (by simpa using hk),
      Option.getD_some, List.getElem_map]
    rfl), ok_bind]
  obtain ⟨out, e, ha⟩ := forN_inv ss.length (fun k out => do
      let data ← idx ((List.range ss.length).map fun k => (ss.map (dataOf file)).getD k []) k
      decodeStrip P data k w out)
    (fun n out => Agree w h v (fun r c => ∃ k, k < n ∧ ∃ s, ss[k]? = some s ∧ s.Covers r c) out) (List.replicate (w * h) 0)
    ⟨by rw [List.length_replicate, Nat.mul_comm], fun r c _ _ ⟨k, hk, _⟩ => by omega⟩ (by
      intro k out hk ha
      have hm := List.getElem_mem hk
      obtain ⟨h1, ⟨pad, h2⟩, h3⟩ := hd _ hm
      obtain ⟨o, e, a⟩ := strip_ok P px v ss[k] w h hu hs t hg hi4 (hf _ hm) (fun r c hc => hpx r c (hin _ hm r c hc).1 (hin _ hm r c hc).2)
        (fun r c hc => hv r c (hin _ hm r c hc).1 (hin _ hm r c hc).2) (hc _ hm) k
        (by rw [hD.widths, List.getElem?_map, List.getElem?_eq_getElem hk]; rfl) (by rw [hD.heights, List.getElem?_map, List.getElem?_eq_getElem hk]; rfl)
        (by rw [hD.places, List.getElem?_map, List.getElem?_eq_getElem hk]; rfl) (dataOf file ss[k]) pad h2 (by rw [hlen _ hm]; exact h3) _ out ha
      refine ⟨o, ?_, a.1, fun r c hr hc hd => a.2 r c hr hc ?_⟩
      · rw [idx_lt _ _ (by simpa using hk), ok_bind, List.getElem_map, List.getElem_range, List.getD_eq_getElem?_getD,
          List.getElem?_eq_getElem (by simpa using hk), Option.getD_some, List.getElem_map, e]
      · obtain ⟨j, hj, s, hs, hc⟩ := hd
        rcases Nat.lt_or_eq_of_le (Nat.le_of_lt_succ hj) with h | rfl
        · exact .inl ⟨j, h, s, hs, hc⟩
        · rw [List.getElem?_eq_getElem hk] at hs
          cases hs
          exact .inr hc)
  refine ⟨out, e, ha.1, fun r c hr hc => ha.2 r c hr hc ?_⟩
  obtain ⟨s, hs, hc⟩ := hcov r c hr hc
  obtain ⟨k, hk, e⟩ := List.mem_iff_getElem.1 hs
  exact ⟨k, hk, s, by rw [List.getElem?_eq_getElem hk, e], hc⟩

/-! ## Tone curve -/

/-- The words of a curve of six pieces in the settings; what else is in the point words does not matter. -/
def Curve (P : Params) (g : List Seg) : Prop :=
  g.length = 6 ∧ P.gammaSlope = g.map (fun s => s.y * 65536 + s.x) ∧ P.gammaPoint.map (· % 32) = g.map (·.n) ∧
  ∀ s ∈ g, s.x < 65536 ∧ s.y < 65536 ∧ s.n < 32

theorem and_ffff (n : Nat) : 0xFFFF &&& n = n % 65536 := by
  rw [Nat.and_comm]; exact Nat.and_two_pow_sub_one_eq_mod n 16

/-- The number of the piece: the last that begins at or before `v`. -/
theorem segment_ok (g : List Seg) (hl : g.length = 6) (hx : ∀ s ∈ g, s.x < 65536) (hm : (g.map (·.x)).Pairwise (· ≤ ·)) (v : Nat) (hv : v < 65536)
    (h0 : (g.map (·.x))[0]? = some 0) :
    ∃ k s, segment (g.map fun s => s.y * 65536 + s.x) v = .ok k ∧ g[k]? = some s ∧ s.x ≤ v ∧ ∀ j u, k < j → g[j]? = some u → v < u.x := by
  obtain ⟨a, b, c, d, e, f, rfl⟩ : ∃ a b c d e f, g = [a, b, c, d, e, f] := by
    match g, hl with
    | [a, b, c, d, e, f], _ => exact ⟨_, _, _, _, _, _, rfl⟩
  have xa := hx a (by simp); have xb := hx b (by simp); have xc := hx c (by simp)
  have xd := hx d (by simp); have xe := hx e (by simp); have xf := hx f (by simp)
  have hm' : _ := hm
  simp only [List.map_cons, List.map_nil, List.pairwise_cons, List.mem_cons, List.not_mem_nil, or_false] at hm
  obtain ⟨m1, m2, m3, m4, m5, -⟩ := hm
  have m1 := m1 b.x (.inl rfl)
  have m2 := m2 c.x (.inl rfl)
  have m3 := m3 d.x (.inl rfl)
  have m4 := m4 e.x (.inl rfl)
  have m5 := m5 f.x rfl
  have h0 : a.x = 0 := by simpa using h0
  have hs : ∀ s : Seg, s.x < 65536 → 0xFFFF &&& (s.y * 65536 + s.x) = s.x := by
    intro s h; rw [and_ffff, Nat.add_comm, Nat.add_mul_mod_self_right, Nat.mod_eq_of_lt h]
  have hor : v ||| 0x500000000 = 0x500000000 + v := by
    rw [Nat.or_comm]
    exact (Nat.shiftLeft_add_eq_or_of_lt (b := v) (i := 32) (by omega) 5).symm
  simp only [segment, idx, List.map_cons, List.map_nil, List.getElem?_cons_succ, List.getElem?_cons_zero, ok_bind, hs b xb, hs c xc, hs d xd, hs e xe, hs f xf]
  have key : ∀ k s, [a, b, c, d, e, f][k]? = some s → s.x ≤ v → (∀ j u, k < j → [a, b, c, d, e, f][j]? = some u → v < u.x) →
      ∃ k' s, (Except.ok k : R Nat) = .ok k' ∧ [a, b, c, d, e, f][k']? = some s ∧ s.x ≤ v ∧ ∀ j u, k' < j → [a, b, c, d, e, f][j]? = some u → v < u.x :=
    fun k s h1 h2 h3 => ⟨k, s, rfl, h1, h2, h3⟩
  have get : ∀ j (u : Seg), [a, b, c, d, e, f][j]? = some u → (j = 0 ∧ u = a) ∨ (j = 1 ∧ u = b) ∨ (j = 2 ∧ u = c) ∨ (j = 3 ∧ u = d) ∨ (j = 4 ∧ u = e) ∨ (j = 5 ∧ u = f) := by
    intro j u h
    match j, h with
    | 0, h => cases h; simp
    | 1, h => cases h; simp
    | 2, h => cases h; simp
    | 3, h => cases h; simp
    | 4, h => cases h; simp
    | 5, h => cases h; simp
  by_cases h1 : v ≥ b.x
  · rw [if_pos h1]
    by_cases h2 : v ≥ c.x
    · rw [if_pos h2]
      by_cases h3 : v ≥ d.x
      · rw [if_pos h3]
        by_cases h4 : v ≥ e.x
        · rw [if_pos h4, hor, Nat.shiftRight_eq_div_pow]
          by_cases h5 : v ≥ f.x
          · rw [show (0x500000000 + v - f.x) / 2 ^ 32 = 5 by omega]
            exact key 5 f rfl h5 (fun j u hj hg => by rcases get j u hg with h | h | h | h | h | h <;> omega)
          · rw [show (0x500000000 + v - f.x) / 2 ^ 32 = 4 by omega]
            exact key 4 e rfl h4 (fun j u hj hg => by rcases get j u hg with h | h | h | h | h | h <;> first | omega | (rw [h.2]; omega))
        · rw [if_neg h4]
          exact key 3 d rfl h3 (fun j u hj hg => by rcases get j u hg with h | h | h | h | h | h <;> first | omega | (rw [h.2]; omega))
      · rw [if_neg h3]
        exact key 2 c rfl h2 (fun j u hj hg => by rcases get j u hg with h | h | h | h | h | h <;> first | omega | (rw [h.2]; omega))
    · rw [if_neg h2]
      exact key 1 b rfl h1 (fun j u hj hg => by rcases get j u hg with h | h | h | h | h | h <;> first | omega | (rw [h.2]; omega))
  · rw [if_neg h1]
    exact key 0 a rfl (by omega) (fun j u hj hg => by rcases get j u hg with h | h | h | h | h | h <;> first | omega | (rw [h.2]; omega))

/-- The value of the code for a piece, `next` where the following one begins. -/
def valueOf (clip : Nat) (s : Seg) (next v : Nat) : Nat :=
  if s.n = 31 then min next clip else if s.n = 15 then min s.y clip else min ((rise s.n (v - s.x) % 2 ^ 32 + s.y) % 65536) clip

theorem calcGamma_ok (P : Params) (g : List Seg) (hc : Curve P g) (hm : (g.map (·.x)).Pairwise (· ≤ ·)) (h0 : (g.map (·.x))[0]? = some 0)
    (v : Nat) (hv : v < 65536) :
    ∃ k s, g[k]? = some s ∧ s.x ≤ v ∧ (∀ j u, k < j → g[j]? = some u → v < u.x) ∧
      calcGamma P v = .ok (valueOf P.clip s (((g[k + 1]?).map (·.y)).getD 65535) v) := by
  obtain ⟨hl, h1, h2, h3⟩ := hc
  obtain ⟨k, s, e, hk, hx, hlast⟩ := segment_ok g hl (fun s hs => (h3 s hs).1) hm v hv h0
  refine ⟨k, s, hk, hx, hlast, ?_⟩
  obtain ⟨x1, y1, n1⟩ := h3 s (List.mem_of_getElem? hk)
  have hk6 : k < 6 := by
    rw [← hl]; exact (List.getElem?_eq_some_iff.1 hk).1
  have hx1 : (if v &&& 0x10000 = 0 then v &&& 0x1FFFF else v ||| 0xFFFF0000) = v := by
    have a : v &&& 0x10000 = 0 := by
      rw [show (0x10000 : Nat) = 2 ^ 16 by norm_num, Nat.and_two_pow]
      rw [Nat.testBit_lt_two_pow hv]; rfl
    rw [if_pos a]
    have := Nat.and_two_pow_sub_one_eq_mod v 17
    rw [show (0x1FFFF : Nat) = 2 ^ 17 - 1 by norm_num, this, Nat.mod_eq_of_lt (by omega)]
  have hx2 : v &&& 0x80000000 = 0 := by
    rw [show (0x80000000 : Nat) = 2 ^ 31 by norm_num, Nat.and_two_pow, Nat.testBit_lt_two_pow (by omega)]; rfl
  have hlen : P.gammaPoint.length = 6 := by
    have := congrArg List.length h2
    simpa [hl] using this
  have hpt : P.gammaPoint[k] % 32 = s.n := by
    have := congrArg (fun l => l[k]?) h2
    simp only [List.getElem?_map, hk, List.getElem?_eq_getElem (show k < P.gammaPoint.length by omega), Option.map_some] at this
    exact Option.some.inj this
  have hsl : P.gammaSlope[k]? = some (s.y * 65536 + s.x) := by rw [h1, List.getElem?_map, hk]; rfl
  have a1 : ∀ n, n &&& 0x1F = n % 32 := fun n => Nat.and_two_pow_sub_one_eq_mod n 5
  have a2 : ∀ n, n &&& 0xF = n % 16 := fun n => Nat.and_two_pow_sub_one_eq_mod n 4
  have a3 : ∀ n, n &&& 0xFFFF = n % 65536 := fun n => Nat.and_two_pow_sub_one_eq_mod n 16
  have a4 : ∀ n, n &&& 0x10 = 0 ↔ n % 32 < 16 := by
    intro n
    rw [show (0x10 : Nat) = 2 ^ 4 by norm_num, Nat.and_two_pow, Nat.testBit_eq_decide_div_mod_eq]
    have : n / 2 ^ 4 % 2 = 0 ∨ n / 2 ^ 4 % 2 = 1 := by omega
    rcases this with h | h
    · simp [h]; omega
    · simp [h]; omega
  have hy : ∀ s : Seg, s.x < 65536 → s.y < 65536 → ((s.y * 65536 + s.x) >>> 16) &&& 0xFFFF = s.y := by
    intro s hx hy
    rw [a3, Nat.shiftRight_eq_div_pow]; omega
  rw [calcGamma]
  simp only []
  rw [hx1, Nat.min_eq_left (by omega), if_neg (by simp [hx2]), h1, e, ok_bind, idx_lt _ _ (show k < P.gammaPoint.length by omega), ok_bind, ← h1, idx, hsl]
  simp only [ok_bind]
  rw [a3, a1, hpt, show (s.y * 65536 + s.x) % 65536 = s.x by omega, usub, if_pos hx, ok_bind, hy s x1 y1, valueOf]
  by_cases h31 : s.n = 31
  · rw [if_pos h31, if_pos h31]
    by_cases hk5 : k = 5
    · rw [if_pos hk5, ok_bind, List.getElem?_eq_none (by omega)]; rfl
    · have hk' : k + 1 < g.length := by omega
      obtain ⟨x2, y2, -⟩ := h3 _ (List.getElem_mem hk')
      rw [if_neg hk5, h1, idx, List.getElem?_map, List.getElem?_eq_getElem hk']
      simp only [Option.map_some, ok_bind, Option.getD_some]
      rw [hy _ x2 y2]
  · rw [if_neg h31, if_neg h31]
    by_cases h15 : s.n = 15
    · rw [if_pos ⟨(a4 _).2 (by omega), h15⟩, if_pos h15]
    · rw [if_neg (fun h => h15 h.2), if_neg h15]
      congr 3
      rw [rise]
      by_cases h16 : s.n < 16
      · rw [if_pos ((a4 _).2 (by omega))]
        by_cases hz : s.n = 0
        · rw [if_pos hz, if_neg (by omega), Nat.mod_eq_of_lt (by omega)]
        · have hp : 2 ^ (s.n - 1) ≤ 2 ^ 15 := Nat.pow_le_pow_right (by omega) (by omega)
          rw [if_neg hz, if_pos h16, if_pos (by omega), Nat.shiftRight_eq_div_pow, Nat.shiftLeft_eq, Nat.one_mul, Nat.mod_eq_of_lt]
          exact Nat.lt_of_le_of_lt (Nat.div_le_self _ _) (by omega)
      · rw [if_neg (by rw [a4]; omega), if_neg (by omega), if_neg h16, Nat.shiftLeft_eq, a2, show P.gammaPoint[k] % 16 = s.n - 16 by omega]

end Verif.Pana8
