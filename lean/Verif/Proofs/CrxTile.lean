import Verif.Proofs.CrxLevels

/-! Proofs about the inverse wavelet transform of CR3: from the specification of the bands of a tile to the invariant. -/

namespace Verif.Crx

open Verif.Wav

theorem reflect_id {w : Nat} {i : Int} (h0 : 0 ≤ i) (h1 : i < w) : reflect w i = i.toNat := by
  unfold reflect
  split
  · omega
  · have : i % (2 * ((w : Int) - 1)) = i := Int.emod_eq_of_lt h0 (by omega)
    simp only [this]
    rw [if_pos (by omega)]

theorem reflect_lt {w : Nat} {i : Int} (hw : 0 < w) : reflect w i < w := by
  unfold reflect
  split
  · exact hw
  · have := Int.emod_lt_of_pos i (show (0 : Int) < 2 * ((w : Int) - 1) by omega)
    have h0 := Int.emod_nonneg i (show 2 * ((w : Int) - 1) ≠ 0 by omega)
    dsimp only
    split <;> omega

theorem reflect_neg (w : Nat) (i : Int) : reflect w (-i) = reflect w i := by
  unfold reflect
  split
  · rfl
  · have hp : (0 : Int) < 2 * ((w : Int) - 1) := by omega
    generalize hq : 2 * ((w : Int) - 1) = p at *
    have h1 := Int.emod_nonneg i (show p ≠ 0 by omega)
    have h2 := Int.emod_lt_of_pos i hp
    have h3 := Int.emod_nonneg (-i) (show p ≠ 0 by omega)
    have h4 := Int.emod_lt_of_pos (-i) hp
    have h5 : (i % p + (-i) % p) % p = 0 := by
      rw [← Int.add_emod, Int.add_right_neg]; exact Int.zero_emod p
    generalize i % p = a at *
    generalize (-i) % p = b at *
    dsimp only
    by_cases hs : a + b < p
    · have : a + b = 0 := by rw [Int.emod_eq_of_lt (by omega) hs] at h5; exact h5
      have ha : a = 0 := by omega
      have hb : b = 0 := by omega
      rw [ha, hb]
    · have : a + b = p := by
        have h6 : (a + b - p) % p = 0 := by rw [Int.sub_emod, h5]; simp
        rw [Int.emod_eq_of_lt (by omega) (by omega)] at h6
        omega
      split <;> split <;> omega

theorem reflect_add (w : Nat) (i : Int) : reflect w (i + 2 * ((w : Int) - 1)) = reflect w i := by
  unfold reflect
  split
  · rfl
  · simp

theorem reflect_right (w : Nat) (k : Int) : reflect w ((w : Int) - 1 + k) = reflect w ((w : Int) - 1 - k) := by
  rw [← reflect_neg w ((w : Int) - 1 + k), ← reflect_add w (-((w : Int) - 1 + k))]
  congr 1; omega

theorem ext_bd {B : Int} (hB : 0 ≤ B) {rows} (h : RowsBd B rows) (n m : Nat) (r c : Int) : -B ≤ ext n m rows r c ∧ ext n m rows r c ≤ B := by
  unfold ext
  generalize reflect n r = a
  generalize reflect m c = b
  rw [List.getD_eq_getElem?_getD, List.getD_eq_getElem?_getD]
  cases ha : rows[a]? with
  | none => simp; omega
  | some row =>
    simp only [Option.getD_some]
    cases hb : row[b]? with
    | none => simp; omega
    | some v =>
      simp only [Option.getD_some]
      exact h row (List.mem_of_getElem? ha) v (List.mem_of_getElem? hb)

/-- The image of a tile: the image of the whole, moved to the left -/
def shift (x0 : Nat) (X : Img) : Img := fun r c => X r ((x0 : Int) + c)

theorem ext_ver (h w : Nat) (rows) (c : Int) : Sig false false h (fun r => ext h w rows r c) := by
  refine ⟨fun _ k => ?_, fun _ k => ?_, fun h1 k => ?_⟩
  · simp only [ext, reflect_neg]
  · simp only [ext, reflect_right]
  · subst h1; simp [ext, reflect]

theorem ext_hor (l r : Bool) (h w tw x0 : Nat) (rows) (hl : l = false → x0 = 0) (hr : r = false → x0 + tw = w) (h1 : tw = 1 → w = 1) (n : Int) :
    Sig l r tw (shift x0 (ext h w rows) n) := by
  refine ⟨fun e k => ?_, fun e k => ?_, fun e k => ?_⟩
  · have := hl e; subst this
    simp only [shift, ext]
    rw [show ((0 : Nat) : Int) + -k = -k by omega, show ((0 : Nat) : Int) + k = k by omega, reflect_neg]
  · have := hr e
    simp only [shift, ext]
    rw [show (x0 : Int) + ((tw : Int) - 1 + k) = (w : Int) - 1 + k by omega,
      show (x0 : Int) + ((tw : Int) - 1 - k) = (w : Int) - 1 - k by omega, reflect_right]
  · have := h1 e; subst this
    simp [shift, ext, reflect]

theorem high_shift (x : Int → Int) (a n : Int) : high (fun c => x (2 * a + c)) n = high x (a + n) := by
  simp only [high]
  rw [show 2 * a + (2 * n + 1) = 2 * (a + n) + 1 by omega, show 2 * a + 2 * n = 2 * (a + n) by omega,
    show 2 * a + (2 * n + 2) = 2 * (a + n) + 2 by omega]

theorem low_shift (x : Int → Int) (a n : Int) : low (fun c => x (2 * a + c)) n = low x (a + n) := by
  simp only [low, high_shift]
  rw [show 2 * a + 2 * n = 2 * (a + n) by omega, show a + (n - 1) = a + n - 1 by omega]

section
variable (X : Img) (x0 : Nat) (he : x0 % 2 = 0) (n j : Int)
include he

theorem LL_shift : LL (shift x0 X) n j = LL X n (((x0 / 2 : Nat) : Int) + j) := by
  have : vert low (shift x0 X) n = fun c => vert low X n (2 * ((x0 / 2 : Nat) : Int) + c) := by
    funext c; simp only [vert, shift]; rw [show 2 * ((x0 / 2 : Nat) : Int) = x0 by omega]
  simp only [LL, this, low_shift]

theorem HL_shift : HL (shift x0 X) n j = HL X n (((x0 / 2 : Nat) : Int) + j) := by
  have : vert low (shift x0 X) n = fun c => vert low X n (2 * ((x0 / 2 : Nat) : Int) + c) := by
    funext c; simp only [vert, shift]; rw [show 2 * ((x0 / 2 : Nat) : Int) = x0 by omega]
  simp only [HL, this, high_shift]

theorem LH_shift : LH (shift x0 X) n j = LH X n (((x0 / 2 : Nat) : Int) + j) := by
  have : vert high (shift x0 X) n = fun c => vert high X n (2 * ((x0 / 2 : Nat) : Int) + c) := by
    funext c; simp only [vert, shift]; rw [show 2 * ((x0 / 2 : Nat) : Int) = x0 by omega]
  simp only [LH, this, low_shift]

theorem HH_shift : HH (shift x0 X) n j = HH X n (((x0 / 2 : Nat) : Int) + j) := by
  have : vert high (shift x0 X) n = fun c => vert high X n (2 * ((x0 / 2 : Nat) : Int) + c) := by
    funext c; simp only [vert, shift]; rw [show 2 * ((x0 / 2 : Nat) : Int) = x0 by omega]
  simp only [HH, this, high_shift]

end

theorem window_row {n m : Nat} {s : Int} {Y : Img} {r : Nat} (hr : r < n) :
    (window n m s Y)[r]? = some ((List.range m).map fun (c : Nat) => Y (r : Nat) (s + (c : Nat))) := by
  simp [window, hr]

theorem ext_window {n m : Nat} {Y : Img} {r c : Nat} (hr : r < n) (hc : c < m) : ext n m (window n m 0 Y) (r : Nat) (c : Nat) = Y r c := by
  simp only [ext]
  rw [reflect_id (by omega) (by omega), reflect_id (by omega) (by omega)]
  simp only [Int.toNat_natCast, List.getD_eq_getElem?_getD]
  rw [window_row hr]
  simp [hc]

theorem window_cov {n m k : Nat} {s : Int} {Y : Img} {r : Nat} {g : Int → Int} (hr : r < n) (hk : k ≤ m) (hg : ∀ j : Nat, j < k → Y r (s + (j : Nat)) = g j) :
    ∃ row, (window n m s Y)[r]? = some row ∧ Cov k row g := by
  refine ⟨_, window_row hr, fun j hj => ?_⟩
  have hj' : j < m := by omega
  rw [← hg j hj]
  simp [hj']

theorem LL_bd {B : Int} {X : Img} (h : ∀ r c, -B ≤ X r c ∧ X r c ≤ B) (r c : Int) : -(4 * B + 6) ≤ LL X r c ∧ LL X r c ≤ 4 * B + 6 := by
  have h1 : Bd (2 * B + 2) (vert low X r) := by
    intro c; exact low_bd (x := fun r => X r c) (fun r => h r c) r
  have h2 := low_bd h1 c
  simp only [LL]; omega

theorem window_bd {B : Int} {n m : Nat} {s : Int} {Y : Img} (h : ∀ r c, -B ≤ Y r c ∧ Y r c ≤ B) : RowsBd B (window n m s Y) := by
  intro row hrow v hv
  simp only [window, List.mem_map, List.mem_range] at hrow
  obtain ⟨r, _, e⟩ := hrow
  subst e
  simp only [List.mem_map, List.mem_range] at hv
  obtain ⟨c, _, e⟩ := hv
  subst e
  exact h _ _

/-- The levels of a tile as the invariant sees them -/
def specs (left : Bool) : List TileW → Nat → Nat → Nat → List (List Int) → List LS
  | [], _, _, _, _ => []
  | t :: ts, h, w, x0, rows =>
    let X := ext h w rows
    { h := h, w := t.w, X := shift x0 X,
      B1 := window ((h + 1) / 2) t.ch (((x0 / 2 : Nat) : Int) - left.toNat) (HL X),
      B2 := window (h / 2) t.cl ((x0 / 2 : Nat) : Int) (LH X),
      B3 := window (h / 2) t.ch (((x0 / 2 : Nat) : Int) - left.toNat) (HH X) } ::
      specs left ts ((h + 1) / 2) ((w + 1) / 2) (x0 / 2) (window ((h + 1) / 2) ((w + 1) / 2) 0 (LL X))

theorem lowRow_specs (left : Bool) (ts : List TileW) (h w x0 wl : Nat) (rows) (k : Nat) (hk : k < h) :
    lowRow (tileBands left ts h w x0 wl rows).2 (specs left ts h w x0 rows) k =
      some (rowOf (belowW ts wl) (shift x0 (ext h w rows) k)) := by
  cases ts with
  | nil =>
    simp only [specs, lowRow, tileBands]
    rw [window_row hk]
    rfl
  | cons t ts =>
    simp only [specs, lowRow, hk, if_true, belowW]

/-- The images of all levels are within the bound. -/
def LevelsBd : Nat → Nat → Nat → List (List Int) → Prop
  | 0, _, _, _ => True
  | k + 1, h, w, rows => RowsBd 190000000 rows ∧
      LevelsBd k ((h + 1) / 2) ((w + 1) / 2) (window ((h + 1) / 2) ((w + 1) / 2) 0 (LL (ext h w rows)))

theorem rowsBd_mono {B B' : Int} (h : B ≤ B') {rows} (hr : RowsBd B rows) : RowsBd B' rows := by
  intro row h1 v h2
  have := hr row h1 v h2
  omega

theorem levelsBd_of : ∀ (k h w : Nat) (rows : List (List Int)) (B : Int), 0 ≤ B → RowsBd B rows → (B + 2) * 4 ^ (k - 1) ≤ 190000002 →
    LevelsBd k h w rows := by
  intro k
  induction k with
  | zero => intros; trivial
  | succ k ih =>
    intro h w rows B hB hrows hbd
    have hB1 : B + 2 ≤ 190000002 := by
      have h1 : (1 : Int) ≤ 4 ^ (k + 1 - 1) := by
        exact Int.pow_pos (by omega)
      have := Int.mul_le_mul_of_nonneg_left h1 (show 0 ≤ B + 2 by omega)
      omega
    refine ⟨rowsBd_mono (by omega) hrows, ?_⟩
    cases k with
    | zero => trivial
    | succ k =>
      refine ih _ _ _ (4 * B + 6) (by omega) (window_bd (LL_bd (ext_bd hB hrows h w))) ?_
      simp only [Nat.add_sub_cancel] at hbd ⊢
      rw [show 4 * B + 6 + 2 = (B + 2) * 4 by omega, Int.mul_assoc, ← Int.pow_succ']
      exact hbd

theorem specs_ok (f : Flags) : ∀ (ts : List TileW) (h w x0 wl : Nat) (rows : List (List Int)),
    TileOK f.left f.right ts h w x0 wl → LevelsBd ts.length h w rows →
    SpecOK f (tileBands f.left ts h w x0 wl rows).2 (specs f.left ts h w x0 rows) := by
  intro ts
  induction ts with
  | nil => intros; trivial
  | cons t ts ih =>
    intro h w x0 wl rows ok hbd
    obtain ⟨hh, hw, hsg, hev, hl0, hr0, hch, hcl, hnx, ok'⟩ := ok
    obtain ⟨hrows, hbd⟩ := hbd
    have hX := ext_bd (by omega) hrows h w
    have hright : f.right = false → x0 + t.w = w := by
      intro e; rw [e] at hr0; simpa using hr0
    refine ⟨?_, ?_, ?_, ?_, ?_⟩
    · refine ⟨hh, by simp only []; omega, hsg, fun c => ext_ver h w rows _, fun n => ext_hor _ _ _ _ _ _ _ hl0 hright (by omega) n, ?_⟩
      intro r c
      have := hX r (x0 + c)
      simp only [shift]; omega
    · intro n hn
      have e1 := lowRow_specs f.left ts ((h + 1) / 2) ((w + 1) / 2) (x0 / 2) wl (window ((h + 1) / 2) ((w + 1) / 2) 0 (LL (ext h w rows))) n hn
      obtain ⟨b1, e2, c2⟩ := window_cov (n := (h + 1) / 2) (m := t.ch) (s := ((x0 / 2 : Nat) : Int) - f.left.toNat) (Y := HL (ext h w rows)) (r := n)
        (k := nhi f.left f.right t.w) (g := fun j => HL (shift x0 (ext h w rows)) n (j - f.left.toNat)) hn hch (by
          intro j _; rw [HL_shift _ _ hev]; congr 1; omega)
      refine ⟨_, b1, e1, e2, ?_, c2⟩
      intro j hj
      have hj1 : j < (belowW ts wl) := Nat.lt_of_lt_of_le hj hnx
      rw [rowOf_get _ _ j hj1]
      simp only [shift]
      rw [LL_shift _ _ hev]
      have hj2 : x0 / 2 + j < (w + 1) / 2 := by
        unfold nlo at hj
        cases e : f.right with
        | true => rw [e] at hr0 hj; simp [needLow] at hr0 hj; omega
        | false => rw [e] at hr0 hj; simp at hr0 hj; omega
      rw [show ((x0 / 2 : Nat) : Int) + (j : Nat) = ((x0 / 2 + j : Nat) : Int) by omega]
      rw [ext_window hn hj2]
    · intro n hn
      obtain ⟨b2, e2, c2⟩ := window_cov (n := h / 2) (m := t.cl) (s := ((x0 / 2 : Nat) : Int)) (Y := LH (ext h w rows)) (r := n)
        (k := nlo f.right t.w) (g := LH (shift x0 (ext h w rows)) n) hn hcl (by
          intro j _; rw [LH_shift _ _ hev])
      obtain ⟨b3, e3, c3⟩ := window_cov (n := h / 2) (m := t.ch) (s := ((x0 / 2 : Nat) : Int) - f.left.toNat) (Y := HH (ext h w rows)) (r := n)
        (k := nhi f.left f.right t.w) (g := fun j => HH (shift x0 (ext h w rows)) n (j - f.left.toNat)) hn hch (by
          intro j _; rw [HH_shift _ _ hev]; congr 1; omega)
      exact ⟨b2, b3, e2, e3, c2, c3⟩
    · intro s' hs'
      cases ts with
      | nil => cases hs'
      | cons t' ts' => simp only [specs, List.head?_cons, Option.some.injEq] at hs'; subst hs'; rfl
    · exact ih _ _ _ _ _ ok' hbd

theorem fresh_ok {P : Type} (next : P → R (List Int × P)) (left : Bool) : ∀ (ts : List TileW) (h w x0 wl : Nat) (rows) (ps : List (P × P × P)) (ll : P)
    (B0 : List (List Int)), GivesAll next ps (tileBands left ts h w x0 wl rows).1 → Gives next ll B0 →
    Fresh next B0 (specs left ts h w x0 rows) (newLevels (tileSizes ts h) ps) ll := by
  intro ts
  induction ts with
  | nil =>
    intro h w x0 wl rows ps ll B0 hg hl
    exact ⟨rfl, hl⟩
  | cons t ts ih =>
    intro h w x0 wl rows ps ll B0 hg hl
    cases ps with
    | nil => simp [tileBands, GivesAll] at hg
    | cons p ps =>
      obtain ⟨p1, p2, p3⟩ := p
      simp only [tileBands, GivesAll, Gives3] at hg
      obtain ⟨⟨g1, g2, g3⟩, hg⟩ := hg
      exact ⟨p1, p2, p3, _, rfl, g1, g2, g3, ih _ _ _ _ _ _ _ _ hg hl⟩

theorem rowOf_cut (h w x0 tw : Nat) (rows : List (List Int)) (hr : rows.length = h) (hc : ∀ row ∈ rows, row.length = w) (hx : x0 + tw ≤ w) :
    (List.range h).map (fun r => rowOf tw (shift x0 (ext h w rows) (r : Nat))) = rows.map fun row => (row.drop x0).take tw := by
  apply List.ext_getElem (by simp [hr])
  intro r h1 h2
  simp only [List.length_map, List.length_range] at h1
  simp only [List.getElem_map, List.getElem_range]
  symm
  have hlen : rows[r].length = w := hc _ (List.getElem_mem _)
  apply eq_rowOf
  · simp [hlen]; omega
  · intro i hi
    simp only [shift, ext]
    rw [reflect_id (by omega) (by omega), reflect_id (by omega) (by omega)]
    simp only [List.getD_eq_getElem?_getD]
    rw [show (((r : Nat) : Int)).toNat = r by omega, show ((x0 : Int) + (i : Nat)).toNat = x0 + i by omega]
    rw [List.getElem?_eq_getElem (l := rows) (by omega)]
    simp only [Option.getD_some]
    have : x0 + i < rows[r].length := by omega
    simp [hi, this]

/-- Decoding the bands of a tile gives the samples of the tile. -/
theorem tile_ok {P : Type} (next : P → R (List Int × P)) (f : Flags) (ht : f.top = false) (hb : f.bottom = false) (t : TileW) (ts : List TileW)
    (h w x0 wl : Nat) (rows : List (List Int)) (hr : rows.length = h) (hc : ∀ row ∈ rows, row.length = w)
    (ok : TileOK f.left f.right (t :: ts) h w x0 wl) (hbd : LevelsBd (t :: ts).length h w rows)
    (ps : List (P × P × P)) (ll : P) (hg : GivesAll next ps (tileBands f.left (t :: ts) h w x0 wl rows).1)
    (hl : Gives next ll (tileBands f.left (t :: ts) h w x0 wl rows).2) :
    wavePlane next f h t.w (newLevels (tileSizes (t :: ts) h) ps) ll = .ok (rows.map fun row => (row.drop x0).take t.w) := by
  have h1 := specs_ok f (t :: ts) h w x0 wl rows ok hbd
  have h2 := fresh_ok next f.left (t :: ts) h w x0 wl rows ps ll _ hg hl
  simp only [specs] at h1 h2
  have := wavePlane_ok ht hb _ _ h1 _ _ h2
  simp only [] at this
  rw [this]
  congr 1
  apply rowOf_cut h w x0 t.w rows hr hc
  have := ok.2.2.2.2.2.1
  split at this <;> omega

end Verif.Crx
