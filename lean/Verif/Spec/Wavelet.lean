import Verif.Base

/-!
# Specification: the reversible 5/3 wavelet transform (JPEG 2000 part 1, annex F)

A signal is a function on all integers; a line of `w` samples is a signal by symmetric extension.
`high` and `low` are the forward transform. `/` is the floor.
-/

namespace Verif.Wav

/-- The high-pass coefficient `n` -/
def high (x : Int → Int) (n : Int) : Int := x (2 * n + 1) - (x (2 * n) + x (2 * n + 2)) / 2

/-- The low-pass coefficient `n` -/
def low (x : Int → Int) (n : Int) : Int := x (2 * n) + (high x (n - 1) + high x n + 2) / 4

/-- An image on the whole plane: row, column -/
abbrev Img := Int → Int → Int

/-- The columns of an image filtered by `f`: first index the coefficient, second the column -/
def vert (f : (Int → Int) → Int → Int) (X : Img) : Img := fun n c => f (fun r => X r c) n

/-- The four bands of one level: the columns are filtered first, then the rows. The first letter
is the filter of the rows, the second that of the columns. -/
def LL (X : Img) : Img := fun n => low (vert low X n)
def HL (X : Img) : Img := fun n => high (vert low X n)
def LH (X : Img) : Img := fun n => low (vert high X n)
def HH (X : Img) : Img := fun n => high (vert high X n)

/-- Where the sample at `i` of the symmetric extension of `w` samples comes from: `.. 2 1 0 1 2 .. w-2 w-1 w-2 ..` -/
def reflect (w : Nat) (i : Int) : Nat :=
  if w ≤ 1 then 0
  else
    let m := (i % (2 * (w - 1) : Int)).toNat
    if m < w then m else 2 * (w - 1) - m

/-- The image of `h` rows with `w` samples, extended symmetrically to the whole plane -/
def ext (h w : Nat) (rows : List (List Int)) : Img := fun r c => (rows.getD (reflect h r) []).getD (reflect w c) 0

/-- `n` rows of `m` values of `Y`, beginning at row 0 and column `start` -/
def window (n m : Nat) (start : Int) (Y : Img) : List (List Int) :=
  (List.range n).map fun r => (List.range m).map fun c => Y (r : Nat) (start + (c : Nat))

/-- Three bands of one level: HL, LH, HH -/
abbrev Bands3 := List (List Int) × List (List Int) × List (List Int)

/-- The forward transform of an image with `k` levels: the bands HL, LH, HH of every level, that of the full image first, and the rest
image LL of the last level -/
def forward : Nat → Nat → Nat → List (List Int) → List Bands3 × List (List Int)
  | 0, _, _, rows => ([], rows)
  | k + 1, h, w, rows =>
    let X := ext h w rows
    let r := forward k ((h + 1) / 2) ((w + 1) / 2) (window ((h + 1) / 2) ((w + 1) / 2) 0 (LL X))
    ((window ((h + 1) / 2) (w / 2) 0 (HL X), window (h / 2) ((w + 1) / 2) 0 (LH X), window (h / 2) (w / 2) 0 (HH X)) :: r.1, r.2)

/-- The source `p` gives the lines `ls`, one after the other. -/
def Gives {P : Type} (next : P → R (List Int × P)) : P → List (List Int) → Prop
  | _, [] => True
  | p, l :: ls => ∃ p', next p = .ok (l, p') ∧ Gives next p' ls

/-- Three sources give three bands. -/
def Gives3 {P : Type} (next : P → R (List Int × P)) (p : P × P × P) (b : Bands3) : Prop :=
  Gives next p.1 b.1 ∧ Gives next p.2.1 b.2.1 ∧ Gives next p.2.2 b.2.2

/-- Sources for a list of levels -/
def GivesAll {P : Type} (next : P → R (List Int × P)) : List (P × P × P) → List Bands3 → Prop
  | [], [] => True
  | p :: ps, b :: bs => Gives3 next p b ∧ GivesAll next ps bs
  | _, _ => False

/-! ## Tiles -/

/-- The widths of a tile in one level: its image, its bands HL and HH, its band LH -/
structure TileW where
  w : Nat
  ch : Nat
  cl : Nat

/-- The bands of the tile that begins at column `x0` of the image: cut out of the bands of the whole image. If there is a tile to the
left, the high bands begin one coefficient earlier. `wl` is the width of LL. -/
def tileBands (left : Bool) : List TileW → Nat → Nat → Nat → Nat → List (List Int) → List Bands3 × List (List Int)
  | [], h, w, x0, wl, rows => ([], window h wl x0 (ext h w rows))
  | t :: ts, h, w, x0, wl, rows =>
    let X := ext h w rows
    let r := tileBands left ts ((h + 1) / 2) ((w + 1) / 2) (x0 / 2) wl (window ((h + 1) / 2) ((w + 1) / 2) 0 (LL X))
    ((window ((h + 1) / 2) t.ch (((x0 / 2 : Nat) : Int) - left.toNat) (HL X), window (h / 2) t.cl ((x0 / 2 : Nat) : Int) (LH X),
      window (h / 2) t.ch (((x0 / 2 : Nat) : Int) - left.toNat) (HH X)) :: r.1, r.2)

/-- A tile of a neighbour to the right needs one more coefficient. -/
def needLow (right : Bool) (w : Nat) : Nat := if right then w / 2 + 1 else (w + 1) / 2

def needHigh (left right : Bool) (w : Nat) : Nat := left.toNat + (if right then w / 2 + 1 else w / 2)

/-- The width of what the level above `ts` takes as its low band -/
def belowW : List TileW → Nat → Nat
  | [], wl => wl
  | t :: _, _ => t.w

/-- Sizes for which a tile can be decoded, from the full image down. `h`, `w` is the image, `x0` the first column of the tile. -/
def TileOK (left right : Bool) : List TileW → Nat → Nat → Nat → Nat → Prop
  | [], _, _, _, _ => True
  | t :: ts, h, w, x0, wl =>
    (h = 1 ∨ 3 ≤ h) ∧ ((t.w = 1 ∧ w = 1) ∨ 3 ≤ t.w) ∧ (h = 1 → right = true → t.w % 2 = 1) ∧ x0 % 2 = 0 ∧ (left = false → x0 = 0) ∧
    (if right then x0 / 2 + needLow right t.w ≤ (w + 1) / 2 ∧ x0 + t.w ≤ w else x0 + t.w = w) ∧
    needHigh left right t.w ≤ t.ch ∧ needLow right t.w ≤ t.cl ∧
    needLow right t.w ≤ belowW ts wl ∧
    TileOK left right ts ((h + 1) / 2) ((w + 1) / 2) (x0 / 2) wl

/-- The sizes (height, width) of the images of a tile in all levels -/
def tileSizes : List TileW → Nat → List (Nat × Nat)
  | [], _ => []
  | t :: ts, h => (h, t.w) :: tileSizes ts ((h + 1) / 2)

/-- The sizes of the images of a whole plane -/
def planeSizes : Nat → Nat → Nat → List (Nat × Nat)
  | 0, _, _ => []
  | k + 1, h, w => (h, w) :: planeSizes k ((h + 1) / 2) ((w + 1) / 2)

/-- No level has a height or a width of 0 or 2. -/
def SizesOK (l : List (Nat × Nat)) : Prop := ∀ s ∈ l, s.1 ≠ 0 ∧ s.1 ≠ 2 ∧ s.2 ≠ 0 ∧ s.2 ≠ 2

instance (l : List (Nat × Nat)) : Decidable (SizesOK l) := inferInstanceAs (Decidable (∀ s ∈ l, _))

/-- `n` rows with `m` values each -/
def Rect (n m : Nat) (l : List (List Int)) : Prop := l.length = n ∧ ∀ row ∈ l, row.length = m

/-- Bands with the sizes of a transform of an image of `h` times `w` -/
def Shape : List Bands3 → List (List Int) → Nat → Nat → Prop
  | [], ll, h, w => Rect h w ll
  | b :: bs, ll, h, w => Rect ((h + 1) / 2) (w / 2) b.1 ∧ Rect (h / 2) ((w + 1) / 2) b.2.1 ∧ Rect (h / 2) (w / 2) b.2.2 ∧
      Shape bs ll ((h + 1) / 2) ((w + 1) / 2)

/-- All values are within `-B .. B`. -/
def RowsBd (B : Int) (rows : List (List Int)) : Prop := ∀ row ∈ rows, ∀ v ∈ row, -B ≤ v ∧ v ≤ B

end Verif.Wav
