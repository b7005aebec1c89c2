import Verif.Model.CrxLine

/-!
# Model of the inverse wavelet transform of CR3 (`rawler/src/decompressors/crx/idwt.rs`)

The code keeps the levels in `iwt_transforms[0 ..]` and the bands in `params[0 ..]`, level `l` with
the bands `3 l + 1`, `3 l + 2`, `3 l + 3`; a call for a level only touches that level and the ones
below. Here a level comes with its three bands, and the levels are a list with the highest level
first, so that a call for a level works on the head of the list and recurses on the tail. The
LL band is kept apart.

A band is any state `P` with a function `next : P → R (List Int × P)` that decodes its next line
(`decode_line_with_iquantization`). All `+`, `-` on `i32` are checked (`i32`), `>>` is the
arithmetic shift. The flags say whether the tile has neighbours. Tiles with a tile above
(`tiles_top`) are not modelled: they are `panic'` here.
-/

namespace Verif.Crx

/-- Which neighbours a tile has (mdat.rs:31-34) -/
structure Flags where
  top : Bool
  bottom : Bool
  left : Bool
  right : Bool
  deriving DecidableEq, Repr

/-- idwt.rs:16-44 `WaveletTransform`. The positions `band0_pos ..` are 0 at the start of every use
and kept in the loops below. -/
structure Wt where
  b0 : List Int
  b1 : List Int
  b2 : List Int
  b3 : List Int
  /-- `line_buf`: eight lines -/
  lines : List (List Int)
  curLine : Nat
  curH : Nat
  /-- `flt_tap_h` -/
  tap : Nat
  height : Nat
  width : Nat
  deriving DecidableEq, Repr

/-- idwt.rs:47-77 `WaveletTransform::new` -/
def newWt (height width : Nat) : Wt :=
  { b0 := [], b1 := [], b2 := [], b3 := [], lines := List.replicate 8 (List.replicate width 0),
    curLine := 0, curH := 0, tap := 0, height, width }

/-- idwt.rs:79-84 `getline`. The index is computed in `i32`; a negative one becomes a huge `usize`, which panics or not depending on
its remainder: the model panics. `debug_assert!(cur_h > 0)` comes after the line is chosen. -/
def getline (w : Wt) : R (List Int × Wt) := do
  let i ← usub (w.tap + 5) w.curH
  let l ← idx w.lines (i % 5 + 3)
  assert' (0 < w.curH)
  .ok (l, { w with curH := w.curH - 1 })

/-! ## One dimension -/

/-- `lo - ((h0 + h1 + 2) >> 2)` -/
def even2 (lo h0 h1 : Int) : R Int := do
  let a ← i32 (h0 + h1)
  let a ← i32 (a + 2)
  i32 (lo - a / 4)

/-- `lo - ((h + 1) >> 1)` -/
def even1 (lo h : Int) : R Int := do
  let a ← i32 (h + 1)
  i32 (lo - a / 2)

/-- `h + ((a + b) >> 1)` -/
def odd2 (h a b : Int) : R Int := do
  let s ← i32 (a + b)
  i32 (h + s / 2)

/-- The three copies of the code for one line differ at the right end: idwt.rs:161-227 (`first`), 400-433 and 490-541 (`later`), 326-358
(`single`, for an image of one line). -/
inductive Site where
  | first
  | later
  | single
  deriving DecidableEq, Repr

/-- idwt.rs:174-183, 275-281, 329-334, 403-409, 495-503: the first sample; the position in the high band after it -/
def hFirst (left : Bool) (lo hi line : List Int) : R (List Int × Nat) :=
  if left then do
    let a ← idx lo 0
    let h0 ← idx hi 0
    let h1 ← idx hi 1
    let v ← even2 a h0 h1
    let line ← upd line 0 v
    .ok (line, 1)
  else do
    let a ← idx lo 0
    let h0 ← idx hi 0
    let v ← even1 a h0
    let line ← upd line 0 v
    .ok (line, 0)

/-- idwt.rs:188-203, 337-344, 411-418, 506-516: round `k` of the loop; `j` is the position in the high band before the loop -/
def hStep (lo hi : List Int) (j k : Nat) (line : List Int) : R (List Int) := do
  let a ← idx lo (1 + k)
  let h0 ← idx hi (j + k)
  let h1 ← idx hi (j + k + 1)
  let delta ← even2 a h0 h1
  let x ← idx line (2 * k)
  let v ← odd2 h0 delta x
  let line ← upd line (2 * k + 1) v
  upd line (2 * k + 2) delta

/-- idwt.rs:204-215, 346-350, 419-425, 517-528: the end of the line if there is a tile to the right -/
def hRight (site : Site) (w : Nat) (lo hi : List Int) (j k : Nat) (line : List Int) : R (List Int) := do
  let a ← idx lo (1 + k)
  let h0 ← idx hi (j + k)
  let h1 ← idx hi (j + k + 1)
  let delta ← even2 a h0 h1
  let x ← idx line (2 * k)
  let v ← odd2 h0 delta x
  let line ← upd line (2 * k + 1) v
  if w % 2 = 1 ∨ site = .single then upd line (2 * k + 2) delta else .ok line

/-- idwt.rs:217-218: `band1 + ((line + band0 - ((band1 + 1) >> 1)) >> 1)`, evaluated from the left -/
def oddFirst (h a x : Int) : R Int := do
  let s ← i32 (x + a)
  let t ← i32 (h + 1)
  let s ← i32 (s - t / 2)
  i32 (h + s / 2)

/-- The odd sample at the end of a line of odd width, by copy of the code -/
def oddEnd (site : Site) (h a x delta : Int) : R Int :=
  if site = .first then oddFirst h a x else odd2 h delta x

/-- idwt.rs:216-221, 351-354, 426-429, 529-536: the end of a line of odd width -/
def hOdd (site : Site) (lo hi : List Int) (j k : Nat) (line : List Int) : R (List Int) := do
  let a ← idx lo (1 + k)
  let h ← idx hi (j + k)
  let x ← idx line (2 * k)
  let delta ← even1 a h
  let v ← oddEnd site h a x delta
  let line ← upd line (2 * k + 1) v
  upd line (2 * k + 2) delta

/-- idwt.rs:222-225, 355-357, 430-432, 537-540: the end of a line of even width -/
def hEven (hi : List Int) (j k : Nat) (line : List Int) : R (List Int) := do
  let h ← idx hi (j + k)
  let x ← idx line (2 * k)
  let v ← i32 (x + h)
  upd line (2 * k + 1) v

/-- One line from its low and its high band, written to `line`: idwt.rs:170-226 (twice), 326-358, 400-433, 490-541 (twice). `width - 3` is
unsigned: a width of 2 panics. -/
def horiz (site : Site) (f : Flags) (w : Nat) (lo hi line : List Int) : R (List Int) :=
  if w ≤ 1 then do
    let a ← idx lo 0
    upd line 0 a
  else do
    let (line, j) ← hFirst f.left lo hi line
    let n ← usub w 3
    let line ← forN ((n + 1) / 2) (hStep lo hi j) line
    if f.right then hRight site w lo hi j ((n + 1) / 2) line
    else if w % 2 = 1 then hOdd site lo hi j ((n + 1) / 2) line
    else hEven hi j ((n + 1) / 2) line

/-! ## One level -/

/-- A level with the parameters of its bands HL, LH, HH -/
structure Lvl (P : Type) where
  wt : Wt
  p1 : P
  p2 : P
  p3 : P

variable {P : Type}

/-- Replace line `i` of `line_buf` by what `f` makes of it. -/
def setLine (w : Wt) (i : Nat) (f : List Int → R (List Int)) : R Wt := do
  let l ← idx w.lines i
  let l ← f l
  let ls ← upd w.lines i l
  .ok { w with lines := ls }

/-- `line_buf.swap(1, 2)` -/
def swap12 (w : Wt) : R Wt := do
  let a ← idx w.lines 1
  let b ← idx w.lines 2
  let ls ← upd w.lines 1 b
  let ls ← upd ls 2 a
  .ok { w with lines := ls }

/-- The vertical loops (`for i in 0..width`) write lines that they do not read at later positions, so they are written here as: compute
the new line from the old ones, position by position. -/
def column (w : Wt) (f : Nat → R Int) : R (List Int) := (List.range w.width).mapM f

/-- Decode the next line of HL (idwt.rs:141, 153) -/
def load1 (next : P → R (List Int × P)) (l : Lvl P) : R (Lvl P) := do
  let (b, p) ← next l.p1
  .ok { l with wt := { l.wt with b1 := b }, p1 := p }

/-- Decode the next lines of LH and HH (idwt.rs:154-155) -/
def load23 (next : P → R (List Int × P)) (l : Lvl P) : R (Lvl P) := do
  let (b, p) ← next l.p2
  let l := { l with wt := { l.wt with b2 := b }, p2 := p }
  let (b, p) ← next l.p3
  .ok { l with wt := { l.wt with b3 := b }, p3 := p }

/-- Decode the next line of LL into the lowest level (idwt.rs:138, 149) -/
def load0 (next : P → R (List Int × P)) (l : Lvl P) (ll : P) : R (Lvl P × P) := do
  let (b, ll) ← next ll
  .ok ({ l with wt := { l.wt with b0 := b } }, ll)

/-- idwt.rs:118-159 `idwt_53_filter_decode` -/
def filterDecode (next : P → R (List Int × P)) (f : Flags) : List (Lvl P) → P → R (List (Lvl P) × P)
  | [], _ => panic'
  | l :: rest, ll =>
    if 0 < l.wt.curH then .ok (l :: rest, ll)
    else do
      let h ← usub l.wt.height 3
      let last : Bool := h ≤ l.wt.curLine ∧ !f.bottom
      if last ∧ l.wt.height % 2 = 0 then .ok (l :: rest, ll)
      else (if rest.isEmpty then do
          let (l, ll) ← load0 next l ll
          .ok (l, rest, ll)
        else do
          let (rest, ll) ← filterDecode next f rest ll
          .ok (l, rest, ll)) >>= fun (l, rest, ll) => do
        let l ← load1 next l
        if last then .ok (l :: rest, ll)
        else do
          let l ← load23 next l
          .ok (l :: rest, ll)

/-- idwt.rs:399-447: the last three lines of an image of odd height -/
def endOdd (f : Flags) (w : Wt) : R Wt := do
  let w ← setLine w 0 (horiz .later f w.width w.b0 w.b1)
  let w ← swap12 w
  let h0 := w.tap + 3
  let h1 := (w.tap + 1) % 5 + 3
  let h2 := (w.tap + 2) % 5 + 3
  let l0 ← idx w.lines 0
  let l1 ← idx w.lines 1
  let g ← idx w.lines h0
  let delta ← column w fun i => do
    let a ← idx l0 i
    let b ← idx l1 i
    even1 a b
  let v ← column w fun i => do
    let b ← idx l1 i
    let d ← idx delta i
    let x ← idx g i
    odd2 b d x
  let w ← setLine w h1 fun _ => .ok v
  let w ← setLine w h2 fun _ => .ok delta
  .ok { w with curH := w.curH + 3, curLine := w.curLine + 3, tap := (w.tap + 3) % 5 }

/-- idwt.rs:449-465: the last two lines of an image of even height -/
def endEven (w : Wt) : R Wt := do
  let h0 := w.tap + 3
  let h1 := (w.tap + 1) % 5 + 3
  let g ← idx w.lines h0
  let l2 ← idx w.lines 2
  let v ← column w fun i => do
    let x ← idx g i
    let b ← idx l2 i
    i32 (x + b)
  let w ← setLine w h1 fun _ => .ok v
  let w ← swap12 w
  .ok { w with curH := w.curH + 2, curLine := w.curLine + 2, tap := (w.tap + 2) % 5 }

/-- idwt.rs:475-565: two more lines. The branch of lines 557-560 is kept although `cur_line < height - 3` here. -/
def middle (f : Flags) (w : Wt) : R Wt := do
  let w ← setLine w 0 (horiz .later f w.width w.b0 w.b1)
  let w ← setLine w 1 (horiz .later f w.width w.b2 w.b3)
  let w ← swap12 w
  let h0 := w.tap + 3
  let h1 := (w.tap + 1) % 5 + 3
  let h2 := (w.tap + 2) % 5 + 3
  let l0 ← idx w.lines 0
  let l1 ← idx w.lines 1
  let l2 ← idx w.lines 2
  let g ← idx w.lines h0
  let delta ← column w fun i => do
    let a ← idx l0 i
    let c ← idx l2 i
    let b ← idx l1 i
    even2 a c b
  let v ← column w fun i => do
    let b ← idx l1 i
    let d ← idx delta i
    let x ← idx g i
    odd2 b d x
  let w ← setLine w h1 fun _ => .ok v
  let w ← setLine w h2 fun _ => .ok delta
  let h ← usub w.height 3
  if h ≤ w.curLine ∧ w.height % 2 = 1 then .ok { w with curH := w.curH + 3, curLine := w.curLine + 3, tap := (w.tap + 3) % 5 }
  else .ok { w with curH := w.curH + 2, curLine := w.curLine + 2, tap := (w.tap + 2) % 5 }

/-- `band0_buf = iwt_transforms[level - 1].getline().clone()` (idwt.rs:248, 387, 473) -/
def fromBelow (l : Lvl P) : List (Lvl P) → R (Lvl P × List (Lvl P))
  | [] => .ok (l, [])
  | b :: rest => do
    let (line, wt) ← getline b.wt
    .ok ({ l with wt := { l.wt with b0 := line } }, { b with wt := wt } :: rest)

/-- `curH` of the level below is 0 (idwt.rs:384, 470) -/
def empty : List (Lvl P) → Bool
  | [] => false
  | b :: _ => b.wt.curH = 0

/-- idwt.rs:389-447 or 475-565; `h` is `height - 3` -/
def nextLines (f : Flags) (h : Nat) (w : Wt) : R Wt := if h ≤ w.curLine then endOdd f w else middle f w

/-- idwt.rs:369-569 `idwt_53_filter_transform` -/
def filterTransform (f : Flags) : List (Lvl P) → R (List (Lvl P))
  | [] => panic'
  | l :: rest =>
    if 0 < l.wt.curH then .ok (l :: rest)
    else do
      let h ← usub l.wt.height 3
      if h ≤ l.wt.curLine ∧ f.bottom then .ok (l :: rest)
      else if h ≤ l.wt.curLine ∧ l.wt.height % 2 = 0 then do
        let wt ← endEven l.wt
        .ok ({ l with wt := wt } :: rest)
      else (if empty rest then filterTransform f rest else .ok rest) >>= fun rest => do
        let (l, rest) ← fromBelow l rest
        let wt ← nextLines f h l.wt
        .ok ({ l with wt := wt } :: rest)

/-- idwt.rs:311-315: the first line of an image of more than one line, if there is no tile above -/
def initMany (f : Flags) (w : Wt) : R Wt := do
  let w ← setLine w 0 (horiz .first f w.width w.b0 w.b1)
  let w ← setLine w 2 (horiz .first f w.width w.b2 w.b3)
  let l0 ← idx w.lines 0
  let l2 ← idx w.lines 2
  let v ← column w fun i => do
    let a ← idx l0 i
    let b ← idx l2 i
    even1 a b
  setLine w (w.tap + 3) fun _ => .ok v

/-- idwt.rs:322-361: an image of one line -/
def initSingle (f : Flags) (w : Wt) : R Wt := do
  let w ← setLine w (w.tap + 3) (horiz .single f w.width w.b0 w.b1)
  .ok { w with curLine := w.curLine + 1, curH := w.curH + 1, tap := (w.tap + 1) % 5 }

/-- idwt.rs:247-251: the line of the low band with which a level begins -/
def initLow (next : P → R (List Int × P)) (l : Lvl P) (rest : List (Lvl P)) (ll : P) : R (Lvl P × List (Lvl P) × P) :=
  match rest with
  | [] => do
    let (l, ll) ← load0 next l ll
    .ok (l, [], ll)
  | _ => do
    let (l, rest) ← fromBelow l rest
    .ok (l, rest, ll)

/-- idwt.rs:229-367 `idwt_53_filter_init`: level by level from the lowest -/
def filterInit (next : P → R (List Int × P)) (f : Flags) : List (Lvl P) → P → R (List (Lvl P) × P)
  | [], ll => .ok ([], ll)
  | l :: rest, ll => do
    let (rest, ll) ← filterInit next f rest ll
    let (l, rest, ll) ← initLow next l rest ll
    let l ← load1 next l
    if 1 < l.wt.height then do
      let l ← load23 next l
      assert' (!f.top)
      let wt ← initMany f l.wt
      let (ls, ll) ← filterDecode next f ({ l with wt := wt } :: rest) ll
      let ls ← filterTransform f ls
      .ok (ls, ll)
    else do
      let wt ← initSingle f l.wt
      .ok ({ l with wt := wt } :: rest, ll)

/-- decoder.rs:102-114 `decode_plane_line` with levels, `n` times (decoder.rs:130-159); `debug_assert_eq!(line_data.len(), plane_width)` -/
def waveLines (next : P → R (List Int × P)) (f : Flags) (width : Nat) : Nat → List (Lvl P) → P → R (List (List Int))
  | 0, _, _ => .ok []
  | n + 1, ls, ll => do
    let (ls, ll) ← filterDecode next f ls ll
    let ls ← filterTransform f ls
    match ls with
    | [] => panic'
    | l :: rest => do
      let (line, wt) ← getline l.wt
      assert' (line.length = width)
      let lines ← waveLines next f width n ({ l with wt := wt } :: rest) ll
      .ok (line :: lines)

/-- decoder.rs:77-89, 155-159: all lines of a plane of `height` lines -/
def wavePlane (next : P → R (List Int × P)) (f : Flags) (height width : Nat) (ls : List (Lvl P)) (ll : P) : R (List (List Int)) := do
  let (ls, ll) ← filterInit next f ls ll
  waveLines next f width height ls ll

/-- decoder.rs:75-87: the transforms, one for every level, highest first, with the sizes of their images -/
def newLevels (sizes : List (Nat × Nat)) (ps : List (P × P × P)) : List (Lvl P) :=
  List.zipWith (fun s p => ⟨newWt s.1 s.2, p.1, p.2.1, p.2.2⟩) sizes ps

end Verif.Crx
