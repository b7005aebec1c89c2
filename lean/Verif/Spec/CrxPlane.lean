import Verif.Model.CrxQuant
import Verif.Spec.CrxQuant
import Verif.Spec.Wavelet

/-!
# Specification: a quantized and coded plane of a CR3 file

From the model only the record `BandHdr` (what the header of a band contains) is used.
-/

namespace Verif.CrxSpec

open Crx Wav

/-- A band: its header and its quantized coefficients -/
abbrev QBand := BandHdr × List (List Int)

/-- The bands HL, LH, HH of one level -/
abbrev QBand3 := QBand × QBand × QBand

/-- A band in the file -/
def codeBand (q : QBand) : BandHdr × List Nat := (q.1, toBytes (encBandNoRef q.2))

/-- The band LL in the file: with or without reference to the line above -/
def codeLL (ref : Bool) (q : QBand) : BandHdr × List Nat := (q.1, toBytes (if ref then encBand q.2 else encBandNoRef q.2))

/-- All bands in the order of the file: LL, then HL, LH, HH of every level, the full image last. `bs` begins with the full image. -/
def planeBands (ref : Bool) (ll : QBand) (bs : List QBand3) : List (BandHdr × List Nat) :=
  codeLL ref ll :: bs.reverse.flatMap fun b => [codeBand b.1, codeBand b.2.1, codeBand b.2.2]

/-- The step of the coefficient in row `r` and column `c` of a band. Without a table it follows from the parameter of the band. `T level` is
the table of the level (1 is the full image). The band has `n` coefficients of its own in every row and `start` before them that it shares
with a tile to the left. -/
def factor (T : Option (Nat → List (List Nat))) (b : BandHdr) (level start n : Nat) : Nat → Nat → Int :=
  match T with
  | none => fun _ _ => qStep b.qParam
  | some T => fun r c => bandStep b.base b.multi (((T level).getD r []).getD (tableCol start n (3 - level) c) 0)

/-- The coefficients of the bands after multiplication by their steps, from level `lv` on; `w` is the width of the image of the tile in
this level. -/
def dequant (T : Option (Nat → List (List Nat))) (left : Bool) : Nat → Nat → List QBand3 → List Bands3
  | _, _, [] => []
  | lv, w, b :: bs =>
    (scaleAt (factor T b.1.1 lv left.toNat (w / 2)) b.1.2, scaleAt (factor T b.2.1.1 lv 0 ((w + 1) / 2)) b.2.1.2,
      scaleAt (factor T b.2.2.1 lv left.toNat (w / 2)) b.2.2.2) :: dequant T left (lv + 1) ((w + 1) / 2) bs

/-- `n` halved `k` times, rounded up -/
def halved : Nat → Nat → Nat
  | 0, n => n
  | k + 1, n => halved k ((n + 1) / 2)

/-- The coefficients of LL; with reference to the line above they are not scaled. -/
def dequantLL (T : Option (Nat → List (List Nat))) (ref : Bool) (levels w : Nat) (ll : QBand) : List (List Int) :=
  if ref then ll.2 else scaleAt (factor T ll.1 levels 0 (halved levels w)) ll.2

/-- A header with which a band can be decoded. `table`: the tile has a table. -/
def HdrOK (table : Bool) (b : BandHdr) : Prop :=
  b.dataSize ≠ 0 ∧
  if table then b.multi < 65536 ∧ -2147483648 ≤ b.base ∧ b.base ≤ 1073741823
  else b.supportPartial = false ∧ 4 ≤ b.qParam ∧ b.qParam < 36

/-- All coefficients can be coded. -/
def CoeffRows (rows : List (List Int)) : Prop := ∀ row ∈ rows, ∀ v ∈ row, -1048576 ≤ v ∧ v < 1048576

/-- LL with reference to the line above: the values are small and the step is 1. -/
def LLOK (table ref : Bool) (ll : QBand) : Prop :=
  if ref then (∀ row ∈ ll.2, ∀ v ∈ row, v.natAbs ≤ 131072) ∧ (if table then ll.1.multi = 0 ∧ ll.1.base ≤ 1 else ll.1.qParam = 4) else CoeffRows ll.2

end Verif.CrxSpec
