import Verif.Proofs.CrxHeader
import Verif.Proofs.CrxBand
import Verif.Proofs.CrxNoRef
import Verif.Proofs.CrxBytes
import Verif.Proofs.Grid

/-! Decoding the planes of a lossless CR3 image and assembling the mosaic. -/

namespace Verif.Crx
open CrxSpec

/-! ## Layout -/

def tileOf (coded : Nat → Nat → Coded) (k : Nat) : List Coded := [coded k 0, coded k 1, coded k 2, coded k 3]

def tilesOf (coded : Nat → Nat → Coded) (id n : Nat) : List (List Coded) := (List.range' id n).map (tileOf coded)

theorem tilesOf_succ (coded : Nat → Nat → Coded) (id n : Nat) :
    tilesOf coded id (n + 1) = tileOf coded id :: tilesOf coded (id + 1) n := by
  simp [tilesOf, List.range'_succ]

def fin (fw fh : Nat → Nat) (t : Tile) : Tile :=
  { t with tileWidth := fw t.id, planeWidth := fw t.id >>> 1, tileHeight := fh t.id, planeHeight := fh t.id >>> 1,
           planes := t.planes.map fun p => { p with subbands := p.subbands.map fun b =>
             { b with width := fw t.id >>> 1, height := fh t.id >>> 1 } } }

theorem checkPlane_ok (p : Plane) (b : Sub) (h : p.subbands = [b]) (h1 : b.subbandSize ≠ 0) (h2 : b.subbandSize % 8 = 0)
    (h3 : p.planeSize = b.subbandSize) : checkPlane p = .ok () := by
  simp [checkPlane, h, assert', h1, h2, h3, bind, Except.bind, pure, Except.pure]

theorem forM_ok {α : Type} (f : α → R Unit) (l : List α) (h : ∀ x ∈ l, f x = .ok ()) : l.forM f = .ok () := by
  induction l with
  | nil => rfl
  | cons a l ih =>
    show (f a >>= fun _ => l.forM f) = _
    rw [h a (by simp)]
    exact ih (fun x hx => h x (by simp [hx]))

/-- What the header gives for a tile with one band per plane. -/
def GoodTile (t : Tile) : Prop :=
  t.qp = none ∧ t.tileSize = (t.planes.map (·.planeSize)).sum ∧
    ∀ p ∈ t.planes, ∃ b, p.subbands = [b] ∧ b.subbandSize ≠ 0 ∧ b.subbandSize % 8 = 0 ∧ p.planeSize = b.subbandSize

theorem processTiles_ok (c : Codec) (tiles : List Tile) (fw fh : Nat → Nat) (hl : c.levels = 0) (hg : ∀ t ∈ tiles, GoodTile t)
    (hw : ∀ t ∈ tiles, tileWidthOf c t.id = .ok (fw t.id)) (hh : ∀ t ∈ tiles, tileHeightOf c tiles.length t.id = .ok (fh t.id)) :
    processTiles c tiles = .ok (tiles.map (fin fw fh)) := by
  rw [processTiles, mapM_ok_of _ (fun t => { t with tileWidth := fw t.id, planeWidth := fw t.id >>> 1, tileHeight := fh t.id, planeHeight := fh t.id >>> 1 })]
  · simp only [bind, Except.bind]
    rw [mapM_ok_of _ (fun t => { t with planes := t.planes.map fun p => { p with subbands := p.subbands.map fun b =>
             { b with width := t.planeWidth, height := t.planeHeight } } })]
    · simp [List.map_map, Function.comp_def, fin]
    · intro t ht
      obtain ⟨t0, h0, rfl⟩ := List.mem_map.1 ht
      obtain ⟨q1, q2, q3⟩ := hg t0 h0
      simp only [hl, assert', decide_true, if_true, processSubbands]
      rw [mapM_ok_of _ (fun p => { p with subbands := p.subbands.map fun b =>
             { b with width := fw t0.id >>> 1, height := fh t0.id >>> 1 } })]
      · simp only [bind, Except.bind, checkTile]
        rw [forM_ok]
        · simp only [q1, usub, Nat.zero_le, if_true, Nat.sub_zero, q2, assert', List.map_map, Function.comp_def, decide_true]
        · intro p hp
          obtain ⟨p0, hp0, rfl⟩ := List.mem_map.1 hp
          obtain ⟨b, e1, e2, e3, e4⟩ := q3 p0 hp0
          exact checkPlane_ok _ { b with width := fw t0.id >>> 1, height := fh t0.id >>> 1 } (by rw [e1]; rfl) e2 e3 e4
      · intro p hp
        obtain ⟨b, e1, -⟩ := q3 p hp
        simp [e1]
  · intro t ht
    simp [hw t ht, hh t ht, bind, Except.bind]

theorem expTiles_good (coded : Nat → Nat → Coded) (n : Nat) : ∀ (id off : Nat),
    (∀ k j, k < id + n → j < 4 → (coded k j).size ≠ 0 ∧ (coded k j).size % 8 = 0) →
    ∀ t ∈ expTiles id off (tilesOf coded id n), GoodTile t ∧ id ≤ t.id ∧ t.id < id + n := by
  induction n with
  | zero => intro id off _ t ht; simp [tilesOf, expTiles] at ht
  | succ n ih =>
    intro id off h t ht
    rw [tilesOf_succ, expTiles, List.mem_cons] at ht
    rcases ht with rfl | ht
    · refine ⟨⟨rfl, by simp [expTile, expPlanes, expPlane, tileOf], ?_⟩, Nat.le_refl _, by simp [expTile]⟩
      intro p hp
      simp only [expTile, tileOf, expPlanes, List.mem_cons, List.not_mem_nil, or_false] at hp
      rcases hp with rfl | rfl | rfl | rfl
      · exact ⟨_, rfl, (h id 0 (by omega) (by omega)).1, (h id 0 (by omega) (by omega)).2, rfl⟩
      · exact ⟨_, rfl, (h id 1 (by omega) (by omega)).1, (h id 1 (by omega) (by omega)).2, rfl⟩
      · exact ⟨_, rfl, (h id 2 (by omega) (by omega)).1, (h id 2 (by omega) (by omega)).2, rfl⟩
      · exact ⟨_, rfl, (h id 3 (by omega) (by omega)).1, (h id 3 (by omega) (by omega)).2, rfl⟩
    · have := ih (id + 1) _ (fun k j hk hj => h k j (by omega) hj) t ht
      exact ⟨this.1, by omega, by omega⟩

theorem expTiles_length (ts : List (List Coded)) : ∀ (id off : Nat), (expTiles id off ts).length = ts.length := by
  induction ts with
  | nil => intros; rfl
  | cons t ts ih => intro id off; simp [expTiles, ih]

/-! ## Planes -/

theorem decodePlane_ok (t : Tile) (A B : List Nat) (c : Coded) (off : Nat) (lines : List (List Int)) (hq : t.qp = none)
    (hw : 0 < t.planeWidth) (hh : 0 < t.planeHeight) (hlen : lines.length = t.planeHeight)
    (hl : ∀ l ∈ lines, l.length = t.planeWidth ∧ ∀ v ∈ l, v.natAbs ≤ 131072) (hc : Codes lines c) (hA : A.length = t.dataOffset + off) :
    decodePlane t (A ++ (c.data ++ B))
      { planeSize := c.size, supportPartial := c.ref, mask := 0, dataOffset := off,
        subbands := [{ (expSub 0 c) with width := t.planeWidth, height := t.planeHeight }] } = .ok lines := by
  obtain ⟨⟨tail, hd⟩, -⟩ := hc
  have hs : slice (A ++ (c.data ++ B)) (t.dataOffset + 0 + off + 0) c.data.length = .ok c.data := by
    rw [slice, if_pos (by simp; omega)]
    rw [show t.dataOffset + 0 + off + 0 = A.length by omega, List.drop_left, List.take_left]
  rw [decodePlane]
  simp only [assert', hh, hw, hq, decide_true, if_true, bind, Except.bind, expSub, hs]
  obtain ⟨pad, hp, -, -⟩ := toBytes_spec _ (if c.ref then encBand lines else encBandNoRef lines) (Nat.le_refl _)
  have e : bytesMSB c.data = (if c.ref then encBand lines else encBandNoRef lines) ++ (pad ++ bytesMSB tail) := by
    rw [hd, bytesMSB_append, hp, List.append_assoc]
  rw [e]
  cases hr : c.ref
  · have := bandNoRef_ok lines t.planeWidth (pad ++ bytesMSB tail)
      (fun l hl' => ⟨(hl l hl').1, fun v hv => by have := (hl l hl').2 v hv; constructor <;> omega⟩)
    rw [hlen] at this
    simpa [newBand] using this
  · have := band_ok lines t.planeWidth (pad ++ bytesMSB tail) hw (fun l hl' => ⟨(hl l hl').1, fun v hv => (hl l hl').2 v hv⟩)
    rw [hlen] at this
    simpa [newBand] using this

theorem tile_decode (coded : Nat → Nat → Coded) (L : Nat → Nat → List (List Int)) (fw fh : Nat → Nat) (k : Nat) (A B : List Nat)
    (hw : 0 < fw k >>> 1) (hh : 0 < fh k >>> 1)
    (H : ∀ j, j < 4 → (L k j).length = fh k >>> 1 ∧ (∀ l ∈ L k j, l.length = fw k >>> 1 ∧ ∀ v ∈ l, v.natAbs ≤ 131072) ∧ Codes (L k j) (coded k j)) :
    (fin fw fh (expTile k A.length (tileOf coded k))).planes.mapM
      (decodePlane (fin fw fh (expTile k A.length (tileOf coded k))) (A ++ (tileBody (tileOf coded k) ++ B))) =
      .ok [L k 0, L k 1, L k 2, L k 3] := by
  have e0 := H 0 (by omega); have e1 := H 1 (by omega); have e2 := H 2 (by omega); have e3 := H 3 (by omega)
  have d0 := decodePlane_ok (fin fw fh (expTile k A.length (tileOf coded k))) A
    (List.replicate (coded k 0).unused 0 ++ ((coded k 1).data ++ List.replicate (coded k 1).unused 0 ++ ((coded k 2).data ++
      List.replicate (coded k 2).unused 0 ++ ((coded k 3).data ++ List.replicate (coded k 3).unused 0 ++ B)))) (coded k 0) 0 (L k 0) rfl hw hh e0.1 e0.2.1 e0.2.2 rfl
  have d1 := decodePlane_ok (fin fw fh (expTile k A.length (tileOf coded k))) (A ++ ((coded k 0).data ++ List.replicate (coded k 0).unused 0))
    (List.replicate (coded k 1).unused 0 ++ ((coded k 2).data ++
      List.replicate (coded k 2).unused 0 ++ ((coded k 3).data ++ List.replicate (coded k 3).unused 0 ++ B))) (coded k 1) (coded k 0).size (L k 1) rfl hw hh e1.1 e1.2.1 e1.2.2
    (by simp [fin, expTile, Coded.size])
  have d2 := decodePlane_ok (fin fw fh (expTile k A.length (tileOf coded k)))
    (A ++ ((coded k 0).data ++ List.replicate (coded k 0).unused 0 ++ ((coded k 1).data ++ List.replicate (coded k 1).unused 0)))
    (List.replicate (coded k 2).unused 0 ++ ((coded k 3).data ++ List.replicate (coded k 3).unused 0 ++ B)) (coded k 2)
    ((coded k 0).size + (coded k 1).size) (L k 2) rfl hw hh e2.1 e2.2.1 e2.2.2
    (by simp [fin, expTile, Coded.size, Nat.add_assoc])
  have d3 := decodePlane_ok (fin fw fh (expTile k A.length (tileOf coded k)))
    (A ++ ((coded k 0).data ++ List.replicate (coded k 0).unused 0 ++ ((coded k 1).data ++ List.replicate (coded k 1).unused 0 ++
      ((coded k 2).data ++ List.replicate (coded k 2).unused 0))))
    (List.replicate (coded k 3).unused 0 ++ B) (coded k 3)
    ((coded k 0).size + (coded k 1).size + (coded k 2).size) (L k 3) rfl hw hh e3.1 e3.2.1 e3.2.2
    (by simp [fin, expTile, Coded.size, Nat.add_assoc])
  have hb : A ++ (tileBody (tileOf coded k) ++ B) = A ++ ((coded k 0).data ++ (List.replicate (coded k 0).unused 0 ++ ((coded k 1).data ++
      List.replicate (coded k 1).unused 0 ++ ((coded k 2).data ++
      List.replicate (coded k 2).unused 0 ++ ((coded k 3).data ++ List.replicate (coded k 3).unused 0 ++ B))))) := by
    simp [tileBody, tileOf]
  rw [hb]
  simp only [List.append_assoc] at d0 d1 d2 d3 ⊢
  have hp : (fin fw fh (expTile k A.length (tileOf coded k))).planes = [_, _, _, _] := rfl
  rw [hp]
  simp only [List.mapM_cons, List.mapM_nil]
  generalize hX : decodePlane (fin fw fh (expTile k A.length (tileOf coded k))) = X at d0 d1 d2 d3 ⊢
  have d0' := d0; have d1' := d1; have d2' := d2; have d3' := d3
  simp only [fin, expTile] at d0' d1' d2' d3'
  simp only [expPlane, expTile, tileOf, List.map_cons, List.map_nil, Nat.zero_add]
  rw [d0', d1', d2', d3']
  rfl

theorem tiles_decode (coded : Nat → Nat → Coded) (L : Nat → Nat → List (List Int)) (fw fh : Nat → Nat) (B : List Nat) (n : Nat) :
    ∀ (id : Nat) (A : List Nat), (∀ k, k < id + n → 0 < fw k >>> 1 ∧ 0 < fh k >>> 1) →
    (∀ k j, k < id + n → j < 4 → (L k j).length = fh k >>> 1 ∧ (∀ l ∈ L k j, l.length = fw k >>> 1 ∧ ∀ v ∈ l, v.natAbs ≤ 131072) ∧ Codes (L k j) (coded k j)) →
    ((expTiles id A.length (tilesOf coded id n)).map (fin fw fh)).mapM
      (fun t => t.planes.mapM (decodePlane t (A ++ ((tilesOf coded id n).flatMap tileBody ++ B)))) =
      .ok ((List.range' id n).map fun k => [L k 0, L k 1, L k 2, L k 3]) := by
  induction n with
  | zero => intros; rfl
  | succ n ih =>
    intro id A hd hL
    rw [tilesOf_succ, expTiles, List.map_cons, List.mapM_cons, List.flatMap_cons, List.append_assoc,
      tile_decode coded L fw fh id A _ (hd id (by omega)).1 (hd id (by omega)).2 (fun j hj => hL id j (by omega) hj)]
    have hlen : A.length + ((tileOf coded id).map Coded.size).sum = (A ++ tileBody (tileOf coded id)).length := by
      simp [tileOf, tileBody, Coded.size]; omega
    have := ih (id + 1) (A ++ tileBody (tileOf coded id)) (fun k hk => hd k (by omega)) (fun k j hk hj => hL k j (by omega) hj)
    rw [← hlen, List.append_assoc] at this
    simp only [bind, Except.bind, this, List.range'_succ, List.map_cons]
    rfl

/-! ## Assembly -/

/-- The positions in `S` hold the samples of the image. -/
def Agrees (N : Nat) (img : Nat → Nat) (S : Nat → Prop) (cfa : List Nat) : Prop := cfa.length = N ∧ ∀ i, S i → cfa[i]? = some (img i)

/-- Where sample `col` of line `row` of plane `p` of a tile goes. -/
def posOf (c : Codec) (id p row col : Nat) : Nat :=
  (id / c.tileCols * c.tileWidth + row * 2 + p / 2) * c.imageWidth + (id % c.tileCols * c.tileWidth + col * 2 + p % 2)

theorem integrateCfa_ok (c : Codec) (tile : Tile) (id p row : Nat) (plane cfa : List Nat) (N : Nat) (img : Nat → Nat) (S : Nat → Prop)
    (hpl : plane.length = tile.planeWidth) (hpw : 0 < tile.planeWidth)
    (hpos : ∀ col, col < tile.planeWidth → posOf c id p row col < N ∧ plane[col]? = some (img (posOf c id p row col)))
    (h : Agrees N img S cfa) :
    ∃ cfa', integrateCfa c tile id p row plane cfa = .ok cfa' ∧
      Agrees N img (fun i => S i ∨ ∃ col, col < tile.planeWidth ∧ i = posOf c id p row col) cfa' := by
  have hN : 0 < N := by have := (hpos 0 hpw).1; omega
  have hcfa : cfa.length ≠ 0 := by rw [h.1]; omega
  have hple : plane.length ≠ 0 := by omega
  rw [integrateCfa]
  simp only [assert', hcfa, hple, ne_eq, not_false_eq_true, decide_true, if_true, bind, Except.bind]
  refine forN_inv tile.planeWidth _ (fun n s => Agrees N img (fun i => S i ∨ ∃ col, col < n ∧ i = posOf c id p row col) s) cfa ?_ ?_
  · refine ⟨h.1, fun i hi => h.2 i ?_⟩
    rcases hi with hi | ⟨col, hc, -⟩
    · exact hi
    · omega
  · intro col s hcol hs
    obtain ⟨h1, h2⟩ := hpos col hcol
    have e : idx plane col = .ok (img (posOf c id p row col)) := by rw [idx, h2]
    simp only [e]
    refine ⟨s.set (posOf c id p row col) (img (posOf c id p row col)), upd_lt _ _ _ (by rw [hs.1]; exact h1), by simpa using hs.1, ?_⟩
    intro i hi
    rw [List.getElem?_set]
    by_cases he : posOf c id p row col = i
    · rw [if_pos he, if_pos (by rw [hs.1]; exact h1), he]
    · rw [if_neg he]
      refine hs.2 i ?_
      rcases hi with hi | ⟨k, hk, hi⟩
      · exact Or.inl hi
      · refine Or.inr ⟨k, ?_, hi⟩
        rcases Nat.lt_succ_iff_lt_or_eq.1 hk with hk | rfl
        · exact hk
        · exact absurd hi.symm he

theorem conv0_ok (bits f : Nat) (hb : 1 ≤ bits ∧ bits ≤ 16) (hf : f < 2 ^ bits) :
    conv0 (2 ^ (bits - 1)) (2 ^ bits - 1) ((f : Int) - 2 ^ (bits - 1)) = .ok f := by
  have h16 : 2 ^ bits ≤ 2 ^ 16 := Nat.pow_le_pow_right (by omega) hb.2
  have hI : ((2 ^ bits : Nat) : Int) = (2 : Int) ^ bits := by simp
  rw [conv0, i32, show (2 : Int) ^ (bits - 1) + ((f : Int) - 2 ^ (bits - 1)) = f by omega]
  rw [if_pos (by omega)]
  simp only [bind, Except.bind, constrain]
  rw [← hI]
  congr 1; omega

theorem convert_ok (c : Codec) (n : Nat) (f : Nat → Nat → Nat) (he : c.encType = 0) (hb : 1 ≤ c.medianBits ∧ c.medianBits ≤ 16)
    (hf : ∀ j i, j < 4 → i < n → f j i < 2 ^ c.medianBits) :
    convertPlaneLine c ((List.range n).map fun i => (f 0 i : Int) - 2 ^ (c.medianBits - 1)) ((List.range n).map fun i => (f 1 i : Int) - 2 ^ (c.medianBits - 1))
      ((List.range n).map fun i => (f 2 i : Int) - 2 ^ (c.medianBits - 1)) ((List.range n).map fun i => (f 3 i : Int) - 2 ^ (c.medianBits - 1)) =
      .ok ((List.range n).map (f 0), (List.range n).map (f 1), (List.range n).map (f 2), (List.range n).map (f 3)) := by
  rw [convertPlaneLine, convertQuads, if_pos he]
  have hm : medianMax c.medianBits = .ok (2 ^ (c.medianBits - 1), 2 ^ c.medianBits - 1) := by
    rw [medianMax, assert', if_pos (by simp; omega)]; rfl
  simp only [hm, bind, Except.bind, zip4, List.zip_map', List.mapM_map]
  rw [mapM_ok_of _ (fun i => (f 0 i, f 1 i, f 2 i, f 3 i))]
  · simp [List.map_map, Function.comp_def]
  · intro i hi
    have hi := List.mem_range.1 hi
    simp only [Function.comp_apply]
    rw [conv0_ok _ _ hb (hf 0 i (by omega) hi), conv0_ok _ _ hb (hf 1 i (by omega) hi), conv0_ok _ _ hb (hf 2 i (by omega) hi),
      conv0_ok _ _ hb (hf 3 i (by omega) hi)]

/-- The lines of plane `p` of tile `id`, by position. -/
def lineOf (c : Codec) (img : Nat → Nat) (pw id p row : Nat) : List Int :=
  (List.range pw).map fun col => (img (posOf c id p row col) : Int) - 2 ^ (c.medianBits - 1)

theorem integrateLine_ok (c : Codec) (tile : Tile) (id row : Nat) (cfa : List Nat) (N : Nat) (img : Nat → Nat) (S : Nat → Prop)
    (he : c.encType = 0) (hb : 1 ≤ c.medianBits ∧ c.medianBits ≤ 16) (himg : ∀ i, i < N → img i < 2 ^ c.medianBits) (hpw : 0 < tile.planeWidth)
    (hpos : ∀ p col, p < 4 → col < tile.planeWidth → posOf c id p row col < N) (h : Agrees N img S cfa) :
    ∃ cfa', integrateLine c tile id row (lineOf c img tile.planeWidth id 0 row) (lineOf c img tile.planeWidth id 1 row)
        (lineOf c img tile.planeWidth id 2 row) (lineOf c img tile.planeWidth id 3 row) cfa = .ok cfa' ∧
      Agrees N img (fun i => S i ∨ ∃ p col, p < 4 ∧ col < tile.planeWidth ∧ i = posOf c id p row col) cfa' := by
  have hcv := convert_ok c tile.planeWidth (fun j i => img (posOf c id j row i)) he hb (fun j i hj hi => himg _ (hpos j i hj hi))
  have key : ∀ (p : Nat) (hp : p < 4) (S : Nat → Prop) (cfa : List Nat), Agrees N img S cfa → _ := fun p hp S cfa h =>
    integrateCfa_ok c tile id p row ((List.range tile.planeWidth).map fun col => img (posOf c id p row col)) cfa N img S (by simp) hpw
      (fun col hcol => ⟨hpos p col hp hcol, by simp [List.getElem?_map, List.getElem?_range hcol]⟩) h
  rw [integrateLine]
  simp only [lineOf]
  rw [hcv]
  simp only [bind, Except.bind]
  obtain ⟨a0, e0, h0⟩ := key 0 (by omega) S cfa h
  obtain ⟨a1, e1, h1⟩ := key 1 (by omega) _ a0 h0
  obtain ⟨a2, e2, h2⟩ := key 2 (by omega) _ a1 h1
  obtain ⟨a3, e3, h3⟩ := key 3 (by omega) _ a2 h2
  refine ⟨a3, by rw [e0]; simp only []; rw [e1]; simp only []; rw [e2]; simp only []; rw [e3], h3.1, ?_⟩
  intro i hi
  refine h3.2 i ?_
  rcases hi with hi | ⟨p, col, hp, hc, hi⟩
  · exact Or.inl (Or.inl (Or.inl (Or.inl hi)))
  · have : p = 0 ∨ p = 1 ∨ p = 2 ∨ p = 3 := by omega
    rcases this with rfl | rfl | rfl | rfl
    · exact Or.inl (Or.inl (Or.inl (Or.inr ⟨col, hc, hi⟩)))
    · exact Or.inl (Or.inl (Or.inr ⟨col, hc, hi⟩))
    · exact Or.inl (Or.inr ⟨col, hc, hi⟩)
    · exact Or.inr ⟨col, hc, hi⟩

theorem integrateLines_ok (c : Codec) (tile : Tile) (id : Nat) (N : Nat) (img : Nat → Nat)
    (he : c.encType = 0) (hb : 1 ≤ c.medianBits ∧ c.medianBits ≤ 16) (himg : ∀ i, i < N → img i < 2 ^ c.medianBits) (hpw : 0 < tile.planeWidth) (n : Nat) :
    ∀ (r : Nat) (cfa : List Nat) (S : Nat → Prop),
    (∀ p row col, p < 4 → row < r + n → col < tile.planeWidth → posOf c id p row col < N) → Agrees N img S cfa →
    ∃ cfa', integrateLines c tile id r ((List.range' r n).map (lineOf c img tile.planeWidth id 0)) ((List.range' r n).map (lineOf c img tile.planeWidth id 1))
        ((List.range' r n).map (lineOf c img tile.planeWidth id 2)) ((List.range' r n).map (lineOf c img tile.planeWidth id 3)) cfa = .ok cfa' ∧
      Agrees N img (fun i => S i ∨ ∃ p row col, p < 4 ∧ r ≤ row ∧ row < r + n ∧ col < tile.planeWidth ∧ i = posOf c id p row col) cfa' := by
  induction n with
  | zero =>
    intro r cfa S _ h
    refine ⟨cfa, by simp [integrateLines], h.1, fun i hi => h.2 i ?_⟩
    rcases hi with hi | ⟨p, row, col, -, h1, h2, -⟩
    · exact hi
    · omega
  | succ n ih =>
    intro r cfa S hpos h
    simp only [List.range'_succ, List.map_cons, integrateLines]
    obtain ⟨a, e, ha⟩ := integrateLine_ok c tile id r cfa N img S he hb himg hpw (fun p col hp hc => hpos p r col hp (by omega) hc) h
    rw [e]
    simp only [bind, Except.bind]
    obtain ⟨b, e', hb'⟩ := ih (r + 1) a _ (fun p row col hp hr hc => hpos p row col hp (by omega) hc) ha
    refine ⟨b, e', hb'.1, fun i hi => hb'.2 i ?_⟩
    rcases hi with hi | ⟨p, row, col, h1, h2, h3, h4, h5⟩
    · exact Or.inl (Or.inl hi)
    · rcases Nat.lt_or_ge r row with hr | hr
      · exact Or.inr ⟨p, row, col, h1, by omega, by omega, h4, h5⟩
      · have : row = r := by omega
        subst this
        exact Or.inl (Or.inr ⟨p, col, h1, h4, h5⟩)

theorem integrateTiles_ok (c : Codec) (coded : Nat → Nat → Coded) (fw fh : Nat → Nat) (N : Nat) (img : Nat → Nat)
    (he : c.encType = 0) (hb : 1 ≤ c.medianBits ∧ c.medianBits ≤ 16) (himg : ∀ i, i < N → img i < 2 ^ c.medianBits) (n : Nat) :
    ∀ (id off : Nat) (cfa : List Nat) (S : Nat → Prop), (∀ k, k < id + n → 0 < fw k >>> 1) →
    (∀ k p row col, k < id + n → p < 4 → row < fh k >>> 1 → col < fw k >>> 1 → posOf c k p row col < N) → Agrees N img S cfa →
    ∃ cfa', integrateTiles c id ((expTiles id off (tilesOf coded id n)).map (fin fw fh))
        ((List.range' id n).map fun k => [(List.range (fh k >>> 1)).map (lineOf c img (fw k >>> 1) k 0), (List.range (fh k >>> 1)).map (lineOf c img (fw k >>> 1) k 1),
          (List.range (fh k >>> 1)).map (lineOf c img (fw k >>> 1) k 2), (List.range (fh k >>> 1)).map (lineOf c img (fw k >>> 1) k 3)]) cfa = .ok cfa' ∧
      Agrees N img (fun i => S i ∨ ∃ k p row col, id ≤ k ∧ k < id + n ∧ p < 4 ∧ row < fh k >>> 1 ∧ col < fw k >>> 1 ∧ i = posOf c k p row col) cfa' := by
  induction n with
  | zero =>
    intro id off cfa S _ _ h
    refine ⟨cfa, by simp [integrateTiles], h.1, fun i hi => h.2 i ?_⟩
    rcases hi with hi | ⟨k, p, row, col, h1, h2, -⟩
    · exact hi
    · omega
  | succ n ih =>
    intro id off cfa S hw hpos h
    rw [tilesOf_succ, expTiles, List.map_cons, List.range'_succ, List.map_cons, integrateTiles]
    obtain ⟨a, e, ha⟩ := integrateLines_ok c (fin fw fh (expTile id off (tileOf coded id))) id N img he hb himg (hw id (by omega)) (fh id >>> 1) 0 cfa S
      (fun p row col hp hr hc => hpos id p row col (by omega) hp (by omega) hc) h
    rw [show (fin fw fh (expTile id off (tileOf coded id))).planeWidth = fw id >>> 1 from rfl] at e ha
    simp only [List.range_eq_range'] at e ⊢
    rw [e]
    simp only [bind, Except.bind]
    obtain ⟨b, e', hb'⟩ := ih (id + 1) _ a _ (fun k hk => hw k (by omega)) (fun k p row col hk => hpos k p row col (by omega)) ha
    simp only [List.range_eq_range'] at e'
    refine ⟨b, e', hb'.1, fun i hi => hb'.2 i ?_⟩
    rcases hi with hi | ⟨k, p, row, col, h1, h2, h3, h4, h5, h6⟩
    · exact Or.inl (Or.inl hi)
    · rcases Nat.lt_or_ge id k with hk | hk
      · exact Or.inr ⟨k, p, row, col, by omega, by omega, h3, h4, h5, h6⟩
      · have : k = id := by omega
        subst this
        exact Or.inl (Or.inr ⟨p, row, col, h3, by omega, by omega, h5, h6⟩)

theorem agrees_all (N : Nat) (img : Nat → Nat) (S : Nat → Prop) (cfa : List Nat) (h : Agrees N img S cfa) (hS : ∀ i, i < N → S i) :
    cfa = (List.range N).map img := by
  apply List.ext_getElem?
  intro i
  by_cases hi : i < N
  · rw [h.2 i (hS i hi), List.getElem?_map, List.getElem?_range hi]; rfl
  · rw [List.getElem?_eq_none (by rw [h.1]; omega), List.getElem?_eq_none (by simp; omega)]

end Verif.Crx
