import Verif.Base

/-!
# Specification: the entropy coding of lossless CR3 (CRX) bands

What a CR3 encoder writes for a band of samples, after the description of the format
(T.87 style run mode and median edge detection, adaptive Golomb-Rice codes). The repository only
contains the decoder; these definitions are written from the encoder's side: they look at the
samples to be coded and produce bits.
-/

namespace Verif.CrxSpec

/-- The sign is folded into bit 0: 0, -1, 1, -2, 2, ... ↦ 0, 1, 2, 3, 4, ... -/
def zigzag (e : Int) : Nat := if 0 ≤ e then 2 * e.toNat else 2 * (-e).toNat - 1

/-- Golomb-Rice code of `n` with parameter `k`: the quotient in unary, a 1, the low `k` bits. From
quotient 41 on: 41 zeros, a 1 and the value in 21 bits. -/
def riceCode (k n : Nat) : List Bool :=
  if n / 2 ^ k < 41 then List.replicate (n / 2 ^ k) false ++ true :: bitsMSB k n
  else List.replicate 41 false ++ true :: bitsMSB 21 n

/-- How the Golomb-Rice parameter follows the values: one down if `n` is less than half of `2^k`, one
up from 3 times `2^k` on, two up from 6 times `2^k` on. -/
def adapt (k n : Nat) : Nat :=
  if n < 2 ^ k / 2 then k - 1 else if 6 ≤ n / 2 ^ k then k + 2 else if 3 ≤ n / 2 ^ k then k + 1 else k

/-- ... limited to 15 -/
def adapt15 (k n : Nat) : Nat := min (adapt k n) 15

/-- T.87 table of run length orders -/
def runOrder (s : Nat) : Nat :=
  [0, 0, 0, 0, 1, 1, 1, 1, 2, 2, 2, 2, 3, 3, 3, 3, 4, 4, 5, 5, 6, 6, 7, 7, 8, 9, 10, 11, 12, 13, 14, 15].getD s 15

/-- T.87 A.7.1.2: code of a run of `n` samples of which `r` are already accounted for, when
`remaining` samples are left in the line; gives the bits and the new run index. -/
def runCode : Nat → (remaining n r s : Nat) → List Bool × Nat
  | 0, _, _, _, s => ([], s)
  | fuel + 1, remaining, n, r, s =>
    if r = remaining then ([], s)
    else if r + 2 ^ runOrder s ≤ n then
      let (b, s') := runCode fuel remaining n (r + 2 ^ runOrder s) (min (s + 1) 31)
      (true :: b, s')
    else if n = remaining then ([true], s)
    else (false :: bitsMSB (runOrder s) (n - r), s - 1)

/-- A flag that says whether there is a run at all, and its length. -/
def runBits (remaining n s : Nat) : List Bool × Nat :=
  if n = 0 then ([false], s)
  else
    let (b, s') := runCode (n + 1) remaining n 1 s
    (true :: b, s')

/-- The number of leading samples equal to `a`. -/
def runLength (a : Int) (l : List Int) : Nat := (l.takeWhile (· = a)).length

/-- Median edge detection (T.87 A.4.1): the median of `a`, `b` and `a + b - c`. -/
def median (a b c : Int) : Int := max (min a b) (min (max a b) (a + b - c))

/-- The first line of a band: each sample is predicted by its left neighbour `a` (initially 0); after a
0 a run of zeros is coded. Result: bits, Golomb-Rice parameter and run index afterwards. -/
def encTop : Nat → Int → List Int → Nat → Nat → List Bool × Nat × Nat
  | 0, _, _, k, s => ([], k, s)
  | _ + 1, _, [], k, s => ([], k, s)
  | _ + 1, a, [v], k, s => (riceCode k (zigzag (v - a)), adapt15 k (zigzag (v - a)), s)
  | fuel + 1, a, v :: w :: todo, k, s =>
    if a ≠ 0 then
      let (b, r) := encTop fuel v (w :: todo) (adapt15 k (zigzag (v - a))) s
      (riceCode k (zigzag (v - a)) ++ b, r)
    else
      let n := runLength 0 (v :: w :: todo)
      let (rb, s') := runBits (todo.length + 2) n s
      match (v :: w :: todo).drop n with
      | [] => (rb, k, s')
      | x :: rest =>
        let (b, r) := encTop fuel x rest (adapt15 k (zigzag x)) s'
        (rb ++ riceCode k (zigzag x) ++ b, r)

/-- The value that steers the Golomb-Rice parameter after a sample with code `c`: the mean of `c` and
twice the step of the line above to the next column; `c` itself at the end of the line. -/
def lookAhead (up : Nat → Int) (pos c : Nat) (last : Bool) : Nat :=
  if last then c else (c + 2 * (up (pos + 1) - up pos).natAbs) / 2

/-- Any other line: `up i` is the line above (`up 0` is its left border), `pos` the current column
counted from 1. In a flat neighbourhood (`a = b = d`) a run of `a` is coded and the sample
after it is predicted by the sample above; elsewhere median edge detection predicts. -/
def encNontop (up : Nat → Int) : Nat → Nat → Int → List Int → Nat → Nat → List Bool × Nat × Nat
  | 0, _, _, _, k, s => ([], k, s)
  | _ + 1, _, _, [], k, s => ([], k, s)
  | _ + 1, pos, a, [v], k, s =>
    let c := zigzag (v - median a (up pos) (up (pos - 1)))
    (riceCode k c, adapt15 k c, s)
  | fuel + 1, pos, a, v :: w :: todo, k, s =>
    if a = up pos ∧ a = up (pos + 1) then
      let n := runLength a (v :: w :: todo)
      let (rb, s') := runBits (todo.length + 2) n s
      match (v :: w :: todo).drop n with
      | [] => (rb, k, s')
      | x :: rest =>
        let c := zigzag (x - up (pos + n))
        let (b, r) := encNontop up fuel (pos + n + 1) x rest (adapt15 k (lookAhead up (pos + n) c rest.isEmpty)) s'
        (rb ++ riceCode k c ++ b, r)
    else
      let c := zigzag (v - median a (up pos) (up (pos - 1)))
      let (b, r) := encNontop up fuel (pos + 1) v (w :: todo) (adapt15 k (lookAhead up pos c false)) s
      (riceCode k c ++ b, r)

/-- The lines after the first: `left` is the left border of the line above, `above` its samples. -/
def encRest (left : Int) (above : List Int) : List (List Int) → Nat → Nat → List Bool
  | [], _, _ => []
  | line :: lines, k, s =>
    let up := fun i => if i = 0 then left else above.getD (i - 1) 0
    let (b, k', s') := encNontop up line.length 1 (up 1) line k s
    b ++ encRest (up 1) line lines k' s'

/-- A band whose lines refer to the line above. -/
def encBand : List (List Int) → List Bool
  | [] => []
  | line :: lines =>
    let (b, k, s) := encTop line.length 0 line 0 0
    b ++ encRest 0 line lines k s

/-! ## Bands that do not refer to the line above (wavelet detail bands) -/

/-- First line: samples are coded directly; after a 0 a run of zeros is coded, and the sample after
the run, which is not 0, is coded as one less. The third component lists the parameter after
each sample (0 within a run). -/
def encTopNoRef : Nat → Int → List Int → Nat → Nat → List Bool × List Nat × Nat × Nat
  | 0, _, _, k, s => ([], [], k, s)
  | _ + 1, _, [], k, s => ([], [], k, s)
  | _ + 1, _, [v], k, s => (riceCode k (zigzag v), [adapt15 k (zigzag v)], adapt15 k (zigzag v), s)
  | fuel + 1, a, v :: w :: todo, k, s =>
    if a ≠ 0 then
      let k' := adapt15 k (zigzag v)
      let (b, ks, r) := encTopNoRef fuel v (w :: todo) k' s
      (riceCode k (zigzag v) ++ b, k' :: ks, r)
    else
      let n := runLength 0 (v :: w :: todo)
      let (rb, s') := runBits (todo.length + 2) n s
      match (v :: w :: todo).drop n with
      | [] => (rb, List.replicate n 0, k, s')
      | x :: rest =>
        let k' := adapt15 k (zigzag x - 1)
        let (b, ks, r) := encTopNoRef fuel x rest k' s'
        (rb ++ riceCode k (zigzag x - 1) ++ b, List.replicate n 0 ++ k' :: ks, r)

/-- The parameter follows the line above when that is well ahead. -/
def steer (k q : Nat) : Nat := if q ≤ k + 1 then min k 15 else k + 1

/-- Any other line: a run of zeros is coded where the left, the upper and the upper right neighbour are 0.
`kUp i` is the parameter the line above had after its column `i` (counted from 0). -/
def encNontopNoRef (up : Nat → Int) (kUp : Nat → Nat) :
    Nat → Nat → Int → List Int → Nat → Nat → List Bool × List Nat × Nat × Nat
  | 0, _, _, _, k, s => ([], [], k, s)
  | _ + 1, _, _, [], k, s => ([], [], k, s)
  | _ + 1, _, _, [v], k, s => (riceCode k (zigzag v), [adapt15 k (zigzag v)], adapt15 k (zigzag v), s)
  | fuel + 1, pos, a, v :: w :: todo, k, s =>
    if a ≠ 0 ∨ up pos ≠ 0 ∨ up (pos + 1) ≠ 0 then
      let k' := steer (adapt k (zigzag v)) (kUp pos)
      let (b, ks, r) := encNontopNoRef up kUp fuel (pos + 1) v (w :: todo) k' s
      (riceCode k (zigzag v) ++ b, k' :: ks, r)
    else
      let n := runLength 0 (v :: w :: todo)
      let (rb, s') := runBits (todo.length + 2) n s
      match (v :: w :: todo).drop n with
      | [] => (rb, List.replicate n 0, k, s')
      | [x] => (rb ++ riceCode k (zigzag x - 1), List.replicate n 0 ++ [adapt15 k (zigzag x - 1)], adapt15 k (zigzag x - 1), s')
      | x :: y :: rest =>
        let k' := steer (adapt k (zigzag x - 1)) (kUp (pos + n))
        let (b, ks, r) := encNontopNoRef up kUp fuel (pos + n + 1) x (y :: rest) k' s'
        (rb ++ riceCode k (zigzag x - 1) ++ b, List.replicate n 0 ++ k' :: ks, r)

/-- The lines after the first; `above` are the samples and `ks` the parameters of the line above. -/
def encRestNoRef (above : List Int) (ks : List Nat) : List (List Int) → Nat → Nat → List Bool
  | [], _, _ => []
  | line :: lines, k, s =>
    let up := fun i => if i = 0 then 0 else above.getD (i - 1) 0
    let (b, ks', k', s') := encNontopNoRef up (fun i => ks.getD i 0) line.length 1 0 line k s
    b ++ encRestNoRef line ks' lines k' s'

/-- A band whose lines do not refer to the line above. -/
def encBandNoRef : List (List Int) → List Bool
  | [] => []
  | line :: lines =>
    let (b, ks, k, s) := encTopNoRef line.length 0 line 0 0
    b ++ encRestNoRef line ks lines k s

/-! ## Bits in bytes -/

/-- Bits packed into bytes, most significant bit first, the last byte filled up with 0 bits. -/
def toBytes : List Bool → List Nat
  | b0 :: b1 :: b2 :: b3 :: b4 :: b5 :: b6 :: b7 :: r => natMSB [b0, b1, b2, b3, b4, b5, b6, b7] :: toBytes r
  | [] => []
  | l => [natMSB (l ++ List.replicate (8 - l.length) false)]

end Verif.CrxSpec
