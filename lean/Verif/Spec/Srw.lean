import Verif.Spec.Pef
/-! # Samsung SRW compressed images -/

namespace Verif.Spec.Srw
open Verif Verif.Spec Verif.Spec.Pef

/-- A number in two's complement of `n` digits. -/
def field (n : Nat) (d : Int) : List Bool := bitsMSB n (d % 2 ^ n).toNat

/-- The numbers that have `n` digits. -/
def InField (n : Nat) (d : Int) : Prop := if n = 0 then d = 0 else -2 ^ (n - 1) ≤ d ∧ d < 2 ^ (n - 1)

instance (n : Nat) (d : Int) : Decidable (InField n d) := by unfold InField; infer_instance

/-- A new length: as before, one more, one less, or a given one. -/
def newLen (op num l : Nat) : Nat := if op = 0 then l else if op = 1 then l + 1 else if op = 2 then l - 1 else num

/-- Four codes of two bits, and numbers of four bits for those that are 3. -/
def lenBits (op num : Nat → Nat) : List Bool :=
  (List.range 4).flatMap (fun i => bitsMSB 2 (op i)) ++ (List.range 4).flatMap fun i => if op i = 3 then bitsMSB 4 (num i) else []

/-! ## First generation -/

/-- What a camera chooses for a group of 16 pixels: compare with the pixels above, and the lengths of its four fields. -/
structure Group where
  up : Bool
  op : Nat → Nat
  num : Nat → Nat

/-- The lengths before group `k` of a row. -/
def lens (start : Nat) (g : Nat → Group) : Nat → Nat → Nat
  | 0, _ => start
  | k + 1, i => newLen ((g k).op i) ((g k).num i) (lens start g k i)

/-- What pixel `(r, c)` is compared with: the pixel of the same colour one or two rows above, or the last pixel of the same
colour of the group before, or 128. -/
def before1 (g : Nat → Nat → Group) (px : Nat → Nat → Nat) (r c : Nat) : Int :=
  if (g r (c / 16)).up then (px (if c % 2 = 0 then r - 1 else r - 2) c : Int)
  else if c / 16 = 0 then 128 else (px r (16 * (c / 16) - 2 + c % 2) : Int)

/-- The pixels of a group are stored in this order: even ones, then odd ones. -/
def order : List Nat := [0, 2, 4, 6, 8, 10, 12, 14, 1, 3, 5, 7, 9, 11, 13, 15]

/-- The lengths at the start of a row. -/
def start (r : Nat) : Nat := if r < 2 then 7 else 4

/-- Which of the four lengths the pixel `c` of a group has. -/
def quarter (c : Nat) : Nat := c / 8 + 2 * (c % 2)

/-- The code of a group. -/
def group1Bits (g : Nat → Nat → Group) (px : Nat → Nat → Nat) (r k : Nat) : List Bool :=
  [(g r k).up] ++ lenBits (g r k).op (g r k).num ++ order.flatMap fun c =>
    field (lens (start r) (g r) (k + 1) (quarter c)) ((px r (16 * k + c) : Int) - before1 g px r (16 * k + c))

/-- The choices are possible: the first two rows are not compared with rows above, all lengths are 0 to 16, and the
differences fit. -/
def Fits1 (g : Nat → Nat → Group) (px : Nat → Nat → Nat) (r k : Nat) : Prop :=
  ((g r k).up = true → 2 ≤ r) ∧
  (∀ i, i < 4 → (g r k).op i < 4 ∧ (g r k).num i < 16 ∧ ((g r k).op i = 2 → 0 < lens (start r) (g r) k i) ∧
    lens (start r) (g r) (k + 1) i ≤ 16) ∧
  ∀ c, c < 16 → px r (16 * k + c) < 65536 ∧
    InField (lens (start r) (g r) (k + 1) (quarter c)) ((px r (16 * k + c) : Int) - before1 g px r (16 * k + c))

/-- The code of a row. -/
def row1Bits (g : Nat → Nat → Group) (px : Nat → Nat → Nat) (m r : Nat) : List Bool := (List.range m).flatMap (group1Bits g px r)

/-- The red and the blue pixels are stored in each other's place. -/
def swapped (px : Nat → Nat → Nat) (r c : Nat) : Nat :=
  if r % 2 = 0 ∧ c % 2 = 1 then px (r + 1) (c - 1) else if r % 2 = 1 ∧ c % 2 = 0 then px (r - 1) (c + 1) else px r c

/-- Entry `r` of a table of little-endian numbers of four bytes. -/
def Entry (table : List Nat) (r v : Nat) : Prop := v < 2 ^ 32 ∧ ∀ i, i < 4 → table[4 * r + i]? = some (v / 256 ^ i % 256)

/-- From position `off` on, the file holds these bits, in little-endian words of four bytes. -/
def BitsAt (buf : List Nat) (off : Nat) (bits : List Bool) : Prop :=
  off ≤ buf.length ∧ ∃ n pad, off + 4 * n ≤ buf.length ∧ bytesMSB (swapWords ((buf.drop off).take (4 * n))) = bits ++ pad

/-! ## Second generation -/

/-- The words for differences of 0 to 13 binary digits: length and value. -/
def words2 : Words := [(6, 0b110100), (5, 0b11011), (4, 0b1111), (4, 0b1100), (3, 0b000), (2, 0b10), (2, 0b01), (3, 0b001), (4, 0b1110),
  (7, 0b1101010), (8, 0b11010110), (9, 0b110101110), (10, 0b1101011110), (10, 0b1101011111)]

/-! ## Third generation -/

/-- What is fixed for an image: whether lengths can be left out, whether the two simple kinds of prediction are used,
whether differences are scaled, the number of bits of a pixel and the start value. -/
structure Params where
  always : Bool
  simple : Bool
  plain : Bool
  depth : Nat
  init : Nat

/-- What a camera chooses for a block of 16 pixels. -/
structure Block where
  /-- change of the scale, or a new one -/
  sel : Nat
  scl : Nat
  /-- a new kind of prediction -/
  moved : Bool
  mv : Nat
  /-- all lengths are 0 -/
  zero : Bool
  op : Nat → Nat
  num : Nat → Nat
  diff : Nat → Int

/-- The scale of block `k` of a row. -/
def scale (p : Params) (b : Nat → Block) : Nat → Int
  | 0 => if p.plain then 0 else if (b 0).sel = 0 then 0 else if (b 0).sel = 1 then -2 else if (b 0).sel = 2 then 2 else (b 0).scl
  | k + 1 =>
    let s := scale p b k
    let c := b (k + 1)
    if p.plain ∨ (k + 1) % 4 ≠ 0 then s else if c.sel = 0 then s else if c.sel = 1 then s - 2 else if c.sel = 2 then s + 2 else c.scl

/-- The kind of prediction of block `k`: 7 is the pixel of the same colour of the block before, the others take pixels from above. -/
def motion (p : Params) (b : Nat → Block) : Nat → Nat
  | 0 => if p.simple then if (b 0).moved then 3 else 7 else if (b 0).moved then (b 0).mv else 7
  | k + 1 => if p.simple then if (b (k + 1)).moved then 3 else 7 else if (b (k + 1)).moved then (b (k + 1)).mv else motion p b k

/-- The lengths of the last block before `k` that has lengths. -/
def lens3 (start : Nat) (b : Nat → Block) : Nat → Nat → Nat
  | 0, _ => start
  | k + 1, i => if (b k).zero then lens3 start b k i else newLen ((b k).op i) ((b k).num i) (lens3 start b k i)

/-- The lengths of block `k`. -/
def len3 (start : Nat) (b : Nat → Block) (k i : Nat) : Nat := if (b k).zero then 0 else lens3 start b (k + 1) i

/-- How far to the left or right the pixel above is, and whether it is the mean of two. -/
def shift (m : Nat) : Int := if m = 0 then -4 else if m = 1 ∨ m = 2 then -2 else if m = 5 then 2 else if m = 6 then 4 else 0
def mean (m : Nat) : Bool := m = 2 ∨ m = 4

/-- Row and column of the pixel above: a pixel of the same colour, for red and blue two rows above, for green in the row above. -/
def refRow (r c : Nat) : Nat := if (r + c) % 2 = 1 then r - 2 else r - 1
def refCol (m r c : Nat) : Int := (c : Int) + shift m + if (r + c) % 2 = 1 then 0 else if c % 2 = 1 then -1 else 1

/-- What pixel `(r, c)` is compared with. -/
def before3 (p : Params) (b : Nat → Nat → Block) (px : Nat → Nat → Nat) (r c : Nat) : Nat :=
  let m := motion p (b r) (c / 16)
  if m = 7 then if c / 16 = 0 then p.init else px r (16 * (c / 16) - 2 + c % 2)
  else
    let q := (refCol m r c).toNat
    if mean m then (px (refRow r c) q + px (refRow r c) (q + 2) + 1) / 2 else px (refRow r c) q

/-- Cut off to `0 … 2 ^ depth - 1`. -/
def clamp (depth : Nat) (v : Int) : Nat := if v < 0 then 0 else if 2 ^ depth ≤ v then 2 ^ depth - 1 else v.toNat

/-- The pixels of a block in the order in which they are stored. -/
def order3 (r j : Nat) : Nat := if r % 2 = 0 then order.getD j 0 else if j < 8 then 2 * j + 1 else 2 * (j - 8)

/-- The picture: each pixel is what it is compared with, changed by its scaled difference. -/
def Picture (p : Params) (b : Nat → Nat → Block) (w h : Nat) (px : Nat → Nat → Nat) : Prop :=
  ∀ r c, r < h → c < w → px r c =
    clamp p.depth ((before3 p b px r c : Int) + (b r (c / 16)).diff (c % 16) * (2 * scale p (b r) (c / 16) + 1) + scale p (b r) (c / 16))

/-- The code of a block. -/
def blockBits (p : Params) (b : Nat → Block) (r k : Nat) : List Bool :=
  (if p.plain ∨ k % 4 ≠ 0 then [] else bitsMSB 2 (b k).sel ++ if (b k).sel = 3 then bitsMSB 12 (b k).scl else []) ++
  (if p.simple then [(b k).moved] else if (b k).moved then false :: bitsMSB 3 (b k).mv else [true]) ++
  (if p.always then [] else [(b k).zero]) ++
  (if (b k).zero then [] else lenBits (b k).op (b k).num) ++
  (List.range 16).flatMap fun j => field (len3 (start r) b k (j / 4)) ((b k).diff (order3 r j))

/-- The choices are possible. -/
structure Fits3 (p : Params) (b : Nat → Block) (w r k : Nat) : Prop where
  sel : (b k).sel < 4 ∧ (b k).scl < 4096
  scale : -2 ^ 14 < scale p b k ∧ scale p b k < 2 ^ 14
  mv : (b k).mv < 8
  top : r < 2 → motion p b k = 7
  inside : motion p b k ≠ 7 → ∀ i, i < 16 → 0 ≤ refCol (motion p b k) r (16 * k + i) ∧
    refCol (motion p b k) r (16 * k + i) + (if mean (motion p b k) then 2 else 0) < w
  zero : (b k).zero = true → p.always = false
  ops : ∀ i, i < 4 → (b k).op i < 4 ∧ (b k).num i < 16 ∧ ((b k).zero = false → (b k).op i = 2 → 0 < lens3 (start r) b k i) ∧
    ((b k).zero = false → lens3 (start r) b (k + 1) i ≤ p.depth + 1)
  diffs : ∀ j, j < 16 → InField (len3 (start r) b k (j / 4)) ((b k).diff (order3 r j))

/-- The code of a row. -/
def row3Bits (p : Params) (b : Nat → Nat → Block) (m r : Nat) : List Bool := (List.range m).flatMap (blockBits p (b r) r)

/-- The header: 128 bits, most of them of no interest. -/
def headerBits (p : Params) (opt : Nat) (x y z : List Bool) : List Bool :=
  x ++ bitsMSB 4 (p.depth - 1) ++ y ++ bitsMSB 4 opt ++ z ++ bitsMSB 14 p.init

/-- The three flags, as bits of a number of four bits. -/
def Flags (p : Params) (opt : Nat) : Prop :=
  opt < 16 ∧ opt % 2 = p.always.toNat ∧ opt / 2 % 2 = p.simple.toNat ∧ opt / 4 % 2 = p.plain.toNat

/-- Rows start at multiples of 16 bytes, the first one after the header. -/
def rowStart (p : Params) (b : Nat → Nat → Block) (m : Nat) : Nat → Nat
  | 0 => 16
  | r + 1 => rowStart p b m r + 16 * (((row3Bits p b m r).length + 127) / 128)

end Verif.Spec.Srw
