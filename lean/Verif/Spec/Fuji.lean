import Verif.Spec.Crx
/-! # Compressed Fuji pictures

A picture is cut into strips of 768 columns. In a strip the samples of each colour are laid out in lines of their own: green
has a line per picture row, red and blue have one per two rows. The lines are stored in turn, six rows at a time. Even
positions are predicted from the two lines above, odd positions from their neighbours in the same line and the line above.
Differences are divided by a step, 1 for lossless files, and stored with an adaptive code. -/

namespace Verif.Spec.Fuji
open Verif

/-! ## Numbers -/

/-- Class of a difference: 0 up to `q`, then four ranges to either side. -/
def level (q : Nat) (v : Int) : Int :=
  let k : Int := if v.natAbs ≤ q then 0 else if v.natAbs < 3 * q + 18 then 1 else if v.natAbs < 5 * q + 67 then 2
    else if v.natAbs < 7 * q + 276 then 3 else 4
  if v < 0 then -k else k

/-- How many differences are told apart when values are below `2 ^ b` and an error of `q` is allowed. -/
def steps (b q : Nat) : Nat := (2 ^ b - 1 + 2 * q) / (2 * q + 1) + 1

/-- Binary digits for `n ≥ 2` different numbers. -/
def digits (n : Nat) : Nat := Nat.log2 (n - 1) + 1

/-- Where there is little activity, finer steps are used. -/
def tableOf (q act : Nat) : Nat :=
  if 1 ≤ q ∧ act ≤ 5 then 1 else if 2 ≤ q ∧ act ≤ 6 then 2 else if 3 ≤ q ∧ act ≤ 7 then 3 else 0

/-- The error allowed by a table. -/
def errorOf (q t : Nat) : Nat := if t = 0 then q else t - 1

/-- What is known of a sample before it is read: two differences nearby, and the prediction. -/
structure Look where
  v1 : Int
  v2 : Int
  pred : Int

def Look.act (l : Look) : Nat := l.v1.natAbs + l.v2.natAbs

def Look.table (l : Look) (q : Nat) : Nat := tableOf q l.act

def Look.error (l : Look) (q : Nat) : Nat := errorOf q (l.table q)

/-- The context of a sample. Its sign tells the sign of the stored difference. -/
def Look.ctx (l : Look) (q : Nat) : Int :=
  (if l.table q = 0 then 9 else 3) * level (l.error q) l.v1 + level (l.error q) l.v2

/-- Prediction from `b` above, its neighbours `c` and `d`, and `f` above it: the one that differs most from `b` is left out,
unless none stands out. -/
def above (b c d f : Int) : Int :=
  if (f - b).natAbs < (c - b).natAbs ∧ (d - b).natAbs < (c - b).natAbs then (2 * b + d + f) / 4
  else if (f - b).natAbs < (d - b).natAbs ∧ (c - b).natAbs < (d - b).natAbs then (2 * b + c + f) / 4
  else (2 * b + c + d) / 4

/-- An even position, from the line above (`u1`) and the one above that (`u2`). -/
def lookEven (u2 u1 : Nat → Nat) (i : Nat) : Look where
  v1 := (u1 i : Int) - u2 i
  v2 := (u1 (i - 1) : Int) - u1 i
  pred := above (u1 i) (u1 (i - 1)) (u1 (i + 1)) (u2 i)

/-- An odd position, from the line above (`u1`) and the even positions of its own line (`u0`). -/
def lookOdd (u1 u0 : Nat → Nat) (i : Nat) : Look where
  v1 := (u1 i : Int) - u1 (i - 1)
  v2 := (u1 (i - 1) : Int) - u0 (i - 1)
  pred := if (u1 (i - 1) < u1 i ∧ u1 (i + 1) < u1 i) ∨ (u1 i < u1 (i - 1) ∧ u1 i < u1 (i + 1))
    then ((u0 (i - 1) : Int) + u0 (i + 1) + 2 * u1 i) / 4 else ((u0 (i - 1) : Int) + u0 (i + 1)) / 2

/-- The difference in steps. -/
def delta (e : Nat) (pred : Int) (x : Nat) : Int := ((x : Int) - pred + e) / (2 * e + 1)

/-- The value a reader gets for `x`: it is reached from the prediction in whole steps. -/
def near (b e : Nat) (pred : Int) (x : Nat) : Nat := (max 0 (min (2 ^ b - 1) (pred + delta e pred x * (2 * e + 1)))).toNat

/-! ## Lines -/

/-- A line at even positions. Lines have a border on either side, taken from the line above. A position without a pixel holds its
prediction. -/
def evenRow (b W q : Nat) (u2 u1 : Nat → Nat) (gap : Nat → Bool) (x : Nat → Nat) (i : Nat) : Nat :=
  if i = 0 then u1 1 else if i = W + 1 then u1 W
  else if gap (i - 1) then (lookEven u2 u1 i).pred.toNat
  else near b ((lookEven u2 u1 i).error q) (lookEven u2 u1 i).pred (x (i - 1))

/-- A line. Its sample at position `j` is entry `j + 1`. -/
def nextRow (b W q : Nat) (u2 u1 : Nat → Nat) (gap : Nat → Bool) (x : Nat → Nat) (i : Nat) : Nat :=
  if i = 0 ∨ i % 2 = 1 then evenRow b W q u2 u1 gap x i
  else near b ((lookOdd u1 (evenRow b W q u2 u1 gap x) i).error q) (lookOdd u1 (evenRow b W q u2 u1 gap x) i).pred (x (i - 1))

/-- The lines of a colour, after two lines of zeros. -/
def lines (b W : Nat) (q : Nat → Nat) (gap : Nat → Nat → Bool) (x : Nat → Nat → Nat) : Nat → Nat → Nat
  | 0 => fun _ => 0
  | 1 => fun _ => 0
  | n + 2 => nextRow b W (q n) (lines b W q gap x n) (lines b W q gap x (n + 1)) (gap n) (x n)

/-! ## Strips -/

/-- A strip of a picture: pixels of `b` bits, colours 0, 1, 2 (red, green, blue) with period 6, allowed errors per six rows. -/
structure Strip where
  b : Nat
  xtrans : Bool
  cfa : Nat → Nat → Nat
  q : Nat → Nat
  px : Nat → Nat → Nat

/-- Length of the lines: two thirds or half of 768. -/
def Strip.W (S : Strip) : Nat := if S.xtrans then 512 else 384

/-- Lines of a colour for six picture rows. -/
def lineCount (c : Nat) : Nat := if c = 1 then 6 else 3

/-- The line of a pixel of colour `c`. -/
def lineNo (c r : Nat) : Nat := if c = 1 then r else r / 2

/-- Its place in the line: of three columns the last two have the same place, or of two columns both. -/
def place (xtrans : Bool) (col : Nat) : Nat := if xtrans then 2 * (col / 3) + min 1 (col % 3) else col / 2

/-- The pixels that could be at place `j` of line `n` of colour `c`. -/
def candidates (xtrans : Bool) (c n j : Nat) : List (Nat × Nat) :=
  (if c = 1 then [n] else [2 * n, 2 * n + 1]).flatMap fun r =>
    (if xtrans then (if j % 2 = 0 then [3 * (j / 2)] else [3 * (j / 2) + 1, 3 * (j / 2) + 2]) else [2 * j, 2 * j + 1]).map fun col => (r, col)

/-- The pixel that is there. -/
def Strip.pixelAt (S : Strip) (c n j : Nat) : Option (Nat × Nat) :=
  (candidates S.xtrans c n j).find? fun p => S.cfa (p.1 % 6) (p.2 % 6) == c

def Strip.gap (S : Strip) (c n j : Nat) : Bool := (S.pixelAt c n j).isNone

def Strip.x (S : Strip) (c n j : Nat) : Nat := (S.pixelAt c n j).elim 0 fun p => S.px p.1 p.2

/-- Allowed error in a line. -/
def Strip.qLine (S : Strip) (c n : Nat) : Nat := S.q (n / lineCount c)

/-- The lines of a colour as a reader has them. -/
def Strip.plane (S : Strip) (c : Nat) : Nat → Nat → Nat := lines S.b S.W (S.qLine c) (S.gap c) (S.x c)

/-! ## The code -/

/-- What has been seen in a context: sum of differences and their number, both halved from time to time. -/
abbrev Stat := Nat × Nat

def fresh (b e : Nat) : Stat := (max 2 ((steps b e + 32) / 64), 1)

def Stat.add (s : Stat) (d : Nat) : Stat := if s.2 = 64 then ((s.1 + d) / 2, 33) else (s.1 + d, s.2 + 1)

/-- The low digits stored as they are: enough for the average. -/
def Stat.low (s : Stat) : Nat := ((List.range 15).find? fun k => decide (s.1 ≤ s.2 * 2 ^ k)).getD 15

/-- A difference modulo `n` as a number below `n`: 0, -1, 1, -2, 2, ... -/
def symbol (n : Nat) (d : Int) : Nat := if 0 ≤ Int.bmod d n then (2 * Int.bmod d n).toNat else (-2 * Int.bmod d n - 1).toNat

/-- Its code: high digits in unary, low digits in binary, and an escape for large numbers. -/
def codeBits (b n : Nat) (s : Stat) (sym : Nat) : List Bool :=
  if sym / 2 ^ s.low < 4 * b - digits n - 1 then
    List.replicate (sym / 2 ^ s.low) false ++ true :: bitsMSB s.low (sym % 2 ^ s.low)
  else List.replicate (4 * b - digits n - 1) false ++ true :: bitsMSB (digits n) (sym - 1)

/-- Statistics per group of lines, parity of the position, table and context. -/
abbrev Stats := Nat → Nat → Nat → Nat → Stat

/-- A sample: colour, line, place, and the group of its line. -/
structure Sample where
  c : Nat
  n : Nat
  j : Nat
  grp : Nat

def Strip.look (S : Strip) (e : Sample) : Look :=
  if e.j % 2 = 0 then lookEven (S.plane e.c e.n) (S.plane e.c (e.n + 1)) (e.j + 1)
  else lookOdd (S.plane e.c (e.n + 1)) (S.plane e.c (e.n + 2)) (e.j + 1)

/-- The stored number. -/
def Strip.sym (S : Strip) (e : Sample) : Nat :=
  let l := S.look e
  let q := S.qLine e.c e.n
  symbol (steps S.b (l.error q)) ((if l.ctx q < 0 then -1 else 1) * delta (l.error q) l.pred (S.x e.c e.n e.j))

/-- Even positions without a pixel are not stored. -/
def Strip.skips (S : Strip) (e : Sample) : Bool := e.j % 2 == 0 && S.gap e.c e.n e.j

/-- The statistics a sample uses. -/
def Strip.stat (S : Strip) (s : Stats) (e : Sample) : Stat :=
  s e.grp (e.j % 2) ((S.look e).table (S.qLine e.c e.n)) ((S.look e).ctx (S.qLine e.c e.n)).natAbs

def Strip.bits (S : Strip) (s : Stats) (e : Sample) : List Bool :=
  if S.skips e then []
  else codeBits S.b (steps S.b ((S.look e).error (S.qLine e.c e.n))) (S.stat s e) (S.sym e)

def Strip.after (S : Strip) (s : Stats) (e : Sample) : Stats :=
  if S.skips e then s
  else fun g o t k =>
    if g = e.grp ∧ o = e.j % 2 ∧ t = (S.look e).table (S.qLine e.c e.n) ∧ k = ((S.look e).ctx (S.qLine e.c e.n)).natAbs then
      (S.stat s e).add ((S.sym e + 1) / 2)
    else s g o t k

def Strip.enc (S : Strip) : Stats → List Sample → List Bool
  | _, [] => []
  | s, e :: l => S.bits s e ++ S.enc (S.after s e) l

def Strip.run (S : Strip) : Stats → List Sample → Stats := List.foldl S.after

/-- The order of the places of a line: the odd places follow four even ones behind. -/
def places (W : Nat) : List Nat :=
  (List.range (W / 2 + 4)).flatMap fun k => (if k < W / 2 then [2 * k] else []) ++ if 4 ≤ k then [2 * (k - 4) + 1] else []

/-- The two colours stored together for row `r` of six: red and green, then green and blue. -/
def colours (r : Nat) : Nat × Nat := if r % 2 = 0 then (0, 1) else (1, 2)

/-- The samples of the six rows from row `6 * t`. -/
def block (W t : Nat) : List Sample :=
  (List.range 6).flatMap fun r => (places W).flatMap fun j =>
    [⟨(colours r).1, lineCount (colours r).1 * t + lineNo (colours r).1 r, j, r % 3⟩,
     ⟨(colours r).2, lineCount (colours r).2 * t + lineNo (colours r).2 r, j, r % 3⟩]

/-- The statistics start anew for the main table when the allowed error changes. -/
def Strip.restart (S : Strip) (t : Nat) (s : Stats) : Stats :=
  if t = 0 ∨ S.q t ≠ S.q (t - 1) then fun g o k => if k = 0 then fun _ => fresh S.b (S.q t) else s g o k else s

def Strip.stats0 (S : Strip) : Stats := fun _ _ t _ => fresh S.b (errorOf (S.q 0) t)

/-- Blocks `t`, `t + 1`, ..., `m` of them. -/
def Strip.blocks (S : Strip) : Nat → Nat → Stats → List Bool
  | 0, _, _ => []
  | m + 1, t, s => S.enc (S.restart t s) (block S.W t) ++ S.blocks m (t + 1) (S.run (S.restart t s) (block S.W t))

/-- The data of a strip of `m` blocks. -/
def Strip.data (S : Strip) (m : Nat) : List Nat := CrxSpec.toBytes (S.blocks m 0 S.stats0)

/-! ## Files -/

/-- A picture of `w` columns and `h` rows. `q n t` is the error allowed in strip `n` for rows `6 * t` to `6 * t + 5`. -/
structure Picture where
  b : Nat
  xtrans : Bool
  lossless : Bool
  w : Nat
  h : Nat
  cfa : Nat → Nat → Nat
  q : Nat → Nat → Nat
  px : Nat → Nat → Nat

def Picture.strips (P : Picture) : Nat := (P.w + 767) / 768

def Picture.strip (P : Picture) (n : Nat) : Strip where
  b := P.b
  xtrans := P.xtrans
  cfa := P.cfa
  q := if P.lossless then fun _ => 0 else P.q n
  px := fun r c => if 768 * n + c < P.w then P.px r (768 * n + c) else 0

def be16 (v : Nat) : List Nat := [v / 256 % 256, v % 256]

def be32 (v : Nat) : List Nat := [v / 16777216 % 256, v / 65536 % 256, v / 256 % 256, v % 256]

/-- Zeros up to a multiple of 16. -/
def fill16 (l : List Nat) : List Nat := l ++ List.replicate ((16 - l.length % 16) % 16) 0

def Picture.header (P : Picture) : List Nat :=
  be16 0x4953 ++ [if P.lossless then 1 else 0, if P.xtrans then 16 else 0, P.b] ++ be16 P.h ++ be16 (768 * P.strips) ++ be16 P.w ++
    be16 768 ++ [P.strips] ++ be16 (P.h / 6)

/-- The file: header, sizes of the strips, allowed errors, strips, and the sixteen bytes the reader appends. -/
def Picture.file (P : Picture) : List Nat :=
  P.header ++ fill16 ((List.range P.strips).flatMap fun n => be32 ((P.strip n).data (P.h / 6)).length) ++
    (if P.lossless then [] else (List.range P.strips).flatMap fun n => fill16 ((List.range (P.h / 6)).map (P.q n))) ++
    ((List.range P.strips).flatMap fun n => (P.strip n).data (P.h / 6)) ++ List.replicate 16 0

/-- The places that hold no pixel: none in Bayer arrays; in X-Trans arrays the even places of every third line, and for red and
blue every fourth place of the other lines. -/
def empty (xtrans : Bool) (c n j : Nat) : Bool :=
  xtrans && j % 2 == 0 && (if c = 1 then n % 3 == 2 else n % 3 == 0 || (if (c == 0) = (n % 3 == 1) then j % 4 == 0 else j % 4 == 2))

/-- The filter array fits the format: every pixel has a place of its own in the lines of its colour, and the places left over are
the empty ones. -/
def Layout (xtrans : Bool) (cfa : Nat → Nat → Nat) : Prop :=
  (∀ r, r < 6 → ∀ c, c < 6 → cfa r c ≤ 2 ∧
    (candidates xtrans (cfa r c) (lineNo (cfa r c) r) (place xtrans c)).find? (fun p => cfa (p.1 % 6) (p.2 % 6) == cfa r c) = some (r, c)) ∧
  ∀ c, c < 3 → ∀ n, n < 6 → ∀ j, j < 12 →
    ((candidates xtrans c n j).find? fun p => cfa (p.1 % 6) (p.2 % 6) == c).isNone = empty xtrans c n j

instance (xtrans : Bool) (cfa : Nat → Nat → Nat) : Decidable (Layout xtrans cfa) := by unfold Layout; infer_instance

/-- Sizes and numbers a file can have. -/
structure Picture.Good (P : Picture) : Prop where
  bits : P.b = 12 ∨ P.b = 14 ∨ P.b = 16
  width : 768 ≤ P.w ∧ P.w ≤ 12288 ∧ P.w % 24 = 0
  height : 6 ≤ P.h ∧ P.h ≤ 12288 ∧ P.h % 6 = 0
  values : ∀ r c, r < P.h → c < P.w → P.px r c < 2 ^ P.b
  layout : Layout P.xtrans P.cfa
  errors : ∀ n t, n < P.strips → t < P.h / 6 → P.q n t < 256

end Verif.Spec.Fuji
