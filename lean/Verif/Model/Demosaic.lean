import Verif.Model.Dng
import Mathlib.Algebra.Order.Field.Rat
import Mathlib.Algebra.Order.Group.Unbundled.Abs
/-! # Demosaicing

`PPGDemosaic`, `Superpixel3Channel` (rawler/src/imgop/sensor/bayer) and `XTransBilinearDemosaic` (rawler/src/imgop/sensor/xtrans). Samples are rational
numbers: the rounding of `f32` is not modelled, nor are NaN and the infinities. The colour of a place is `CFA::color_at` of `Model/Dng.lean`. -/

namespace Verif.Demosaic
open Verif Verif.Dng

/-- (row, column, channel) of a picture with several channels per pixel -/
abbrev Cell := Nat × Nat × Nat

/-- What the cells of a picture hold -/
abbrev Mem := Cell → ℚ

/-- One store -/
def Mem.set (m : Mem) (c : Cell) (v : ℚ) : Mem := fun d => if d = c then v else m d

/-- `Rect`, imgop/mod.rs: left, top, width, height -/
structure Roi where
  x : Nat
  y : Nat
  w : Nat
  h : Nat
  deriving DecidableEq, Repr

/-- `CFA::is_rgb`, cfa.rs:197-199 -/
def isRgb (c : CFA) : Bool :=
  c.name.all (fun ch => ch = 'R' || ch = 'G' || ch = 'B') && c.name.contains 'R' && c.name.contains 'G' && c.name.contains 'B'

/-- `color_at` as a plain function; the pattern has 48 x 48 entries, so that the lookup of cfa.rs:167-169 never fails. -/
def colFn (c : CFA) (row col : Nat) : Nat :=
  match c.colorAt row col with
  | .ok k => k
  | .error _ => 0

/-! ## PPG -/

/-- `expand_bayer_rgb`, sensor/bayer/mod.rs:21-34. `raw` has rows of `dw` samples, `col` is the shifted pattern. The rows are filled in parallel, each
by its own task from the unchanging input; the model gives the filled picture at once. -/
def expand (raw : List ℚ) (dw : Nat) (col : Nat → Nat → Nat) (roi : Roi) : R Mem :=
  if roi.w = 0 then panic'
  else if (List.range roi.h).any (fun row => decide (raw.length < (roi.y + row) * dw + roi.x + roi.w)) then panic'
  else .ok fun (r, c, k) => if r < roi.h ∧ c < roi.w ∧ k = col r c then raw.getD ((roi.y + r) * dw + roi.x + c) 0 else 0

/-- `i.saturating_sub(1)..=i.add(1)` with the test against the size, ppg.rs:85-88 -/
def window (n i : Nat) : List Nat := (List.range' (i - 1) (i + 2 - (i - 1))).filter (· < n)

/-- The pixels visited for one pixel, ppg.rs:85-88 -/
def around (w h r c : Nat) : List (Nat × Nat) := (window h r).flatMap fun y => (window w c).map fun x => (y, x)

/-- `sum[k]`, ppg.rs:83-94 -/
def sums (m : Mem) (col : Nat → Nat → Nat) (l : List (Nat × Nat)) (k : Nat) : ℚ × Nat :=
  l.foldl (fun s p => if col p.1 p.2 = k then (s.1 + m (p.1, p.2, k), s.2 + 1) else s) (0, 0)

/-- One pixel of `interpolate_borders`, ppg.rs:82-102 -/
def borderPixel (w h : Nat) (col : Nat → Nat → Nat) (r c : Nat) (m : Mem) : Mem :=
  (List.range 3).foldl (fun m' k =>
    let s := sums m col (around w h r c) k
    if k ≠ col r c ∧ 0 < s.2 then m'.set (r, c, k) (s.1 / s.2) else m') m

/-- The `while` loop of `interpolate_borders` from column `c` on, ppg.rs:76-104; `none`: still running after `fuel` rounds. -/
def borderRow (w h : Nat) (col : Nat → Nat → Nat) (r : Nat) : Nat → Nat → Mem → Option Mem
  | 0, _, _ => none
  | fuel + 1, c, m =>
    if c < w then
      let c' := if c = 3 ∧ 3 ≤ r ∧ r < h - 3 then w - 3 else c
      borderRow w h col r fuel (c' + 1) (borderPixel w h col r c' m)
    else some m

/-- `interpolate_borders`, ppg.rs:71-106 -/
def borders (fuel w h : Nat) (col : Nat → Nat → Nat) (m : Mem) : Option Mem :=
  (List.range h).foldlM (fun m r => borderRow w h col r fuel 0 m) m

/-- `hue_transit`, ppg.rs:253-259 -/
def hueTransit (l1 l2 l3 v1 v3 : ℚ) : ℚ :=
  if (l1 < l2 ∧ l2 < l3) ∨ (l1 > l2 ∧ l2 > l3) then v1 + (v3 - v1) * (l2 - l1) / (l3 - l1)
  else (v1 + v3) / 2 + (l2 * 2 - l1 - l3) / 4

/-- The green value computed at a red or blue place, ppg.rs:134-161 -/
def greenValue (x n1 n2 e1 e2 s1 s2 w1 w2 : ℚ) : ℚ :=
  let n := |x - n2| * 2 + |n1 - s1|
  let e := |x - e2| * 2 + |w1 - e1|
  let w := |x - w2| * 2 + |w1 - e1|
  let s := |x - s2| * 2 + |n1 - s1|
  let min := n
  let min := if e < min then e else min
  let min := if w < min then w else min
  let min := if s < min then s else min
  if min = n then (n1 * 3 + s1 + x - n2) / 4
  else if min = e then (e1 * 3 + w1 + x - e2) / 4
  else if min = w then (w1 * 3 + e1 + x - w2) / 4
  else (s1 * 3 + n1 + x - s2) / 4

/-- What one of the parallel row tasks does, access by access: loads through the shared pointer or its own row, stores into its own row. -/
inductive Prog where
  | done
  | read (c : Cell) (k : ℚ → Prog)
  | write (c : Cell) (v : ℚ) (next : Prog)

/-- One access of one task -/
def Prog.step (p : Prog) (m : Mem) : Prog × Mem :=
  match p with
  | .done => (.done, m)
  | .read c k => (k (m c), m)
  | .write c v p => (p, m.set c v)

/-- One access of task `i` among the tasks that run at the same time -/
def stepAt (s : List Prog × Mem) (i : Nat) : List Prog × Mem :=
  match s.1[i]? with
  | none => s
  | some p => (s.1.set i (p.step s.2).1, (p.step s.2).2)

/-- A schedule: which task makes the next access -/
def runSched (sched : List Nat) (s : List Prog × Mem) : List Prog × Mem := sched.foldl stepAt s

/-- `par_chunks_exact_mut(w)...for_each`: started on `m`, the tasks have all ended and left `m'` for some schedule. rayon hands rows to a few worker
threads; schedules in which a thread finishes one row before it starts the next are among these. -/
def Par (ps : List Prog) (m m' : Mem) : Prop := ∃ sched, (∀ p ∈ (runSched sched (ps, m)).1, p = .done) ∧ (runSched sched (ps, m)).2 = m'

/-- One pixel of `interpolate_green`, ppg.rs:122-163 -/
def greenPixel (col : Nat → Nat → Nat) (r c : Nat) (next : Prog) : Prog :=
  if col r c ≠ 1 then
    let ch := col r c
    .read (r, c, ch) fun x =>
    .read (r - 1, c, 1) fun n1 => .read (r - 2, c, ch) fun n2 =>
    .read (r, c + 1, 1) fun e1 => .read (r, c + 2, ch) fun e2 =>
    .read (r + 1, c, 1) fun s1 => .read (r + 2, c, ch) fun s2 =>
    .read (r, c - 1, 1) fun w1 => .read (r, c - 2, ch) fun w2 =>
    .write (r, c, 1) (greenValue x n1 n2 e1 e2 s1 s2 w1 w2) next
  else next

/-- One pixel of `interpolate_rb_at_green`, ppg.rs:181-200 -/
def rbAtGreenPixel (col : Nat → Nat → Nat) (r c : Nat) (next : Prog) : Prog :=
  if col r c = 1 then
    let hch := col r (c + 1)
    let vch := col (r + 1) c
    .read (r, c, 1) fun gx => .read (r, c - 1, 1) fun gw => .read (r, c + 1, 1) fun ge =>
    .read (r - 1, c, 1) fun gn => .read (r + 1, c, 1) fun gs =>
    .read (r, c - 1, hch) fun hw => .read (r, c + 1, hch) fun he =>
    .read (r - 1, c, vch) fun vn => .read (r + 1, c, vch) fun vs =>
    .write (r, c, hch) (hueTransit gw gx ge hw he) <|
    .write (r, c, vch) (hueTransit gn gx gs vn vs) next
  else next

/-- One pixel of `interpolate_rb_at_non_green`, ppg.rs:218-246 -/
def rbAtNonGreenPixel (col : Nat → Nat → Nat) (r c : Nat) (next : Prog) : Prog :=
  if col r c ≠ 1 then
    let xch := col r c
    let ych := if xch = 0 then 2 else 0
    .read (r - 1, c + 1, ych) fun yne => .read (r + 1, c - 1, ych) fun ysw =>
    .read (r - 2, c + 2, xch) fun xne => .read (r, c, xch) fun xc => .read (r + 2, c - 2, xch) fun xsw =>
    .read (r - 1, c + 1, 1) fun gne => .read (r, c, 1) fun gc => .read (r + 1, c - 1, 1) fun gsw =>
    .read (r - 1, c - 1, ych) fun ynw => .read (r + 1, c + 1, ych) fun yse =>
    .read (r - 2, c - 2, xch) fun xnw => .read (r + 2, c + 2, xch) fun xse =>
    .read (r - 1, c - 1, 1) fun gnw => .read (r + 1, c + 1, 1) fun gse =>
    let ne := |yne - ysw| + |xne - xc| + |xc - xsw| + |gne - gc| + |gc - gsw|
    let nw := |ynw - yse| + |xnw - xc| + |xc - xse| + |gnw - gc| + |gc - gse|
    .write (r, c, ych) (if ne < nw then hueTransit gne gc gsw yne ysw else hueTransit gnw gc gse ynw yse) next
  else next

/-- The row tasks of a pass, `skip(3).take(h - 6)` and within a row `skip(3).take(w - 6)`, ppg.rs:120-121, 179-180, 216-217 -/
def rowTasks (w h : Nat) (pixel : Nat → Nat → Prog → Prog) : List Prog :=
  (List.range' 3 (h - 6)).map fun r => (List.range' 3 (w - 6)).foldr (fun c p => pixel r c p) .done

/-- `PPGDemosaic::demosaic`, ppg.rs:37-59: `out` is a possible result. The three passes fail (`h - 6`, `w - 6`) below 6 rows or columns. -/
def PpgRuns (raw : List ℚ) (dw : Nat) (cfa : CFA) (roi : Roi) (out : Mem) : Prop :=
  isRgb cfa = true ∧ ∃ s m0 m1 m2 m3 fuel, cfa.shift roi.x roi.y = .ok s ∧ expand raw dw (colFn s) roi = .ok m0 ∧
    borders fuel roi.w roi.h (colFn s) m0 = some m1 ∧ 6 ≤ roi.h ∧ 6 ≤ roi.w ∧
    Par (rowTasks roi.w roi.h (greenPixel (colFn s))) m1 m2 ∧
    Par (rowTasks roi.w roi.h (rbAtGreenPixel (colFn s))) m2 m3 ∧
    Par (rowTasks roi.w roi.h (rbAtNonGreenPixel (colFn s))) m3 out

/-! ## Superpixels -/

/-- The arm of the `match pattern`, superpixel.rs:41-47, 62-67; `p` is the 2 x 2 block row after row. -/
def superRgb (name : List Char) (p0 p1 p2 p3 : ℚ) : R (ℚ × ℚ × ℚ) :=
  if name = ['R', 'G', 'G', 'B'] then .ok (p0, (p1 + p2) / 2, p3)
  else if name = ['B', 'G', 'G', 'R'] then .ok (p3, (p1 + p2) / 2, p0)
  else if name = ['G', 'B', 'R', 'G'] then .ok (p2, (p0 + p3) / 2, p1)
  else if name = ['G', 'R', 'B', 'G'] then .ok (p1, (p0 + p3) / 2, p2)
  else panic'

/-- `Superpixel3Channel::demosaic`, superpixel.rs:28-74, for three colour planes: width, height and pixels of the result. The parallel map over pairs of
rows keeps their order. -/
def superpixel3 (raw : List ℚ) (dw : Nat) (cfa : CFA) (roi : Roi) : R (Nat × Nat × List (ℚ × ℚ × ℚ)) := do
  if isRgb cfa = false then panic' else
  let w := roi.w / 2 * 2
  let h := roi.h / 2 * 2
  let s ← cfa.shift roi.x roi.y
  let _ ← superRgb s.name 0 0 0 0
  if raw.length < roi.y * dw + h * dw ∨ dw = 0 then panic' else
  let rows ← (List.range (h / 2)).mapM fun i => do
    if dw < roi.x + w then panic' else
    (List.range (w / 2)).mapM fun j => do
      let a := (roi.y + 2 * i) * dw + roi.x + 2 * j
      let b := (roi.y + 2 * i + 1) * dw + roi.x + 2 * j
      let p0 ← idx raw a
      let p1 ← idx raw (a + 1)
      let p2 ← idx raw b
      let p3 ← idx raw (b + 1)
      superRgb s.name p0 p1 p2 p3
  .ok (w / 2, h / 2, rows.flatten)

/-! ## X-Trans -/

/-- `lo..=hi` of one direction, xtrans/bilinear.rs:83-86 -/
def window5 (n i : Nat) : List Nat := List.range' (i - 2) (min (i + 2) (n - 1) + 1 - (i - 2))

/-- One pixel of `interpolate_bilinear`, xtrans/bilinear.rs:80-98. The sums start at zero and run over the window row by row. -/
def xtransPixel (raw : List ℚ) (dw : Nat) (col : Nat → Nat → Nat) (roi : Roi) (y x : Nat) : R (ℚ × ℚ × ℚ) := do
  let win := (window5 roi.h y).flatMap fun row => (window5 roi.w x).map fun cl => (row, cl)
  let vals ← win.mapM fun p => do
    let v ← idx raw ((roi.y + p.1) * dw + (roi.x + p.2))
    .ok (col p.1 p.2, v)
  let chan := fun (k : Nat) =>
    let s : ℚ × Nat := vals.foldl (fun s v => if v.1 = k then (s.1 + v.2, s.2 + 1) else s) (0, 0)
    if 0 < s.2 then s.1 / s.2 else 0
  .ok (chan 0, chan 1, chan 2)

/-- `XTransBilinearDemosaic::demosaic`, xtrans/bilinear.rs:49-102: the pixels row by row. The rows are computed in parallel, from the unchanging
input. `PixF32::at` (pixarray.rs) looks a sample up by `row * width + column`. -/
def xtrans (raw : List ℚ) (dw : Nat) (cfa : CFA) (roi : Roi) : R (List (ℚ × ℚ × ℚ)) := do
  if isRgb cfa = false then panic' else
  let s ← cfa.shift roi.x roi.y
  if roi.w = 0 then panic' else
  let rows ← (List.range roi.h).mapM fun y => (List.range roi.w).mapM fun x => xtransPixel raw dw (colFn s) roi y x
  .ok rows.flatten

end Verif.Demosaic
