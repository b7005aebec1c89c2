import Verif.Base
/-!
# Huffman table builder (`rawler/src/ljpeg92.rs:166-495`, `HuffTableBuilder`)

Arrays are lists of the array's length. A code (`BitArray16`) is the pair `(nbits, storage)` of
`rawler/src/bitarray.rs:17-20`.
-/

namespace Verif.Ljpeg
open Verif

/-- `CLASSES`, ljpeg92.rs:215. -/
def CLASSES : Nat := 17

/-- `BitArray16` (bitarray.rs:17-20): number of bits and left-aligned storage. -/
structure Code where
  nbits : Nat
  storage : Nat
  deriving DecidableEq, Repr, Inhabited

/-- `BitArray16::from_lsb`, bitarray.rs:119-124: `value << (16 - nbits)`; `u16` drops high bits. Shifting by 16
panics. -/
def Code.fromLsb (nbits value : Nat) : R Code := do
  let sh ← usub 16 nbits
  if sh < 16 then .ok ⟨nbits, (value <<< sh) % 2 ^ 16⟩ else panic'

/-- `BitArray16::get_lsb`, bitarray.rs:111-113. Shifting by 16 panics. -/
def Code.getLsb (c : Code) : R Nat := do
  let sh ← usub 16 c.nbits
  if sh < 16 then .ok (c.storage >>> sh) else panic'

/-- One search for the smallest non-zero frequency, skipping index `excl` (ljpeg92.rs:243-257). The Rust code starts
from `u64::MAX`, which every `u64` is `<=`; the model starts from `none`. Ties keep the highest index. -/
def findMin (freq : List Nat) (excl : Option Nat) : Option (Nat × Nat) :=
  (List.range freq.length).foldl (fun best i =>
    let f := freq.getD i 0
    if f > 0 ∧ some i ≠ excl then
      match best with
      | none => some (i, f)
      | some (_, bf) => if f ≤ bf then some (i, f) else best
    else best) none

/-- The part of the builder state used by `gen_codesizes` (ljpeg92.rs:182-189). -/
structure Gen where
  freq : List Nat
  codesize : List Nat
  others : List (Option Nat)
  deriving DecidableEq, Repr

/-- The chain walk `loop { codesize[v] += 1; if let Some(o) = others[v] { v = o } else { break } }`
(ljpeg92.rs:268-275 and 277-284): increments along the chain, returns the new sizes and the last index. -/
def walk : Nat → List (Option Nat) → List Nat → Nat → R (List Nat × Nat)
  | 0, _, _, _ => panic'
  | fuel + 1, others, cs, v => do
    let c ← idx cs v
    let cs ← upd cs v (c + 1)
    match ← idx others v with
    | some o => walk fuel others cs o
    | none => .ok (cs, v)

/-- One iteration of the outer loop of `gen_codesizes` (ljpeg92.rs:234-291); `none` means `break`. -/
def genStep (g : Gen) : R (Option Gen) :=
  match findMin g.freq none with
  | none => .ok none
  | some (v1, f1) =>
    match findMin g.freq (some v1) with
    | none => .ok none
    | some (v2, f2) =>
      if f1 + f2 < 2 ^ 64 then do
        let freq ← upd g.freq v1 (f1 + f2)
        let freq ← upd freq v2 0
        let (cs, last1) ← walk 18 g.others g.codesize v1
        let others ← upd g.others last1 (some v2)
        let (cs, _) ← walk 18 others cs v2
        .ok (some ⟨freq, cs, others⟩)
      else panic'                                         -- u64 addition overflow

/-- `gen_codesizes`, ljpeg92.rs:233-293, with a bound on the number of iterations. -/
def genLoop : Nat → Gen → R Gen
  | 0, _ => panic'
  | fuel + 1, g => do
    match ← genStep g with
    | none => .ok g
    | some g' => genLoop fuel g'

/-- `new` + `gen_codesizes`, ljpeg92.rs:222-293: code size per symbol. 18 symbols merge at most 17 times. -/
def genCodesizes (histogram : List Nat) : R (List Nat) := do
  let g ← genLoop 19 ⟨histogram ++ [1], List.replicate 18 0, List.replicate 18 none⟩
  .ok g.codesize

/-- First half of `count_bits`, ljpeg92.rs:296-302. `bits` has 33 entries (`resize(33, 0)`, ljpeg92.rs:224). -/
def countBits (codesize : List Nat) : R (List Nat) :=
  forN 18 (fun i bits => do
    let c ← idx codesize i
    if c > 0 then do
      let b ← idx bits c
      upd bits c (b + 1)
    else .ok bits) (List.replicate 33 0)

/-- `while self.bits[j] == 0 { j -= 1; }` (ljpeg92.rs:405-407, 417-419). -/
def findDown (bits : List Nat) : Nat → R Nat
  | 0 => do
    let b ← idx bits 0
    if b = 0 then panic' else .ok 0                        -- `0 - 1` underflows
  | j + 1 => do
    let b ← idx bits (j + 1)
    if b = 0 then findDown bits j else .ok (j + 1)

/-- `bits[i] -= n`. -/
def decAt (bits : List Nat) (i n : Nat) : R (List Nat) := do
  let b ← idx bits i
  let b ← usub b n
  upd bits i b

/-- `bits[i] += n`; `u8` overflow panics. -/
def incAt (bits : List Nat) (i n : Nat) : R (List Nat) := do
  let b ← idx bits i
  if b + n < 256 then upd bits i (b + n) else panic'

/-- The first loop of `adjust_bits` (ljpeg92.rs:400-415). -/
def adjustLoop : Nat → Nat → List Nat → R (List Nat)
  | 0, _, _ => panic'
  | fuel + 1, i, bits =>
    if i > 16 then do
      let b ← idx bits i
      if b > 0 then do
        let j ← findDown bits (i - 2)
        let bits ← decAt bits i 2
        let bits ← incAt bits (i - 1) 1
        let bits ← incAt bits (j + 1) 2
        let bits ← decAt bits j 1
        adjustLoop fuel i bits
      else adjustLoop fuel (i - 1) bits
    else .ok bits

/-- `adjust_bits`, ljpeg92.rs:399-421. After the first loop `i = 16`. -/
def adjustBits (bits : List Nat) : R (List Nat) := do
  let bits ← adjustLoop 64 32 bits
  let i ← findDown bits 16
  decAt bits i 1

/-- `sort_input`, ljpeg92.rs:320-331: the symbols 0..=16 ordered by code size then value. The Rust code stores them as
the leading `Some`s of an array of 17 entries; the model is the list of these. -/
def sortInput (codesize : List Nat) : List Nat :=
  (List.range 32).flatMap fun i => (List.range 17).filter fun j => codesize.getD j 0 = i + 1

/-- `gen_size_table`, ljpeg92.rs:334-349: the sequence of code lengths. The Rust code stores it into
`huffcode[k].bits` followed by a terminating 0. -/
def genSizeTable (bits : List Nat) : List Nat :=
  (List.range 16).flatMap fun i => List.replicate (bits.getD (i + 1) 0) (i + 1)

/-- The inner loop `loop { code <<= 1; si += 1; if bits == si { break } }` (ljpeg92.rs:369-375). -/
def shiftLoop : Nat → Nat → Nat → Nat → R (Nat × Nat)
  | 0, _, _, _ => panic'
  | fuel + 1, code, si, target =>
    let code := (code <<< 1) % 2 ^ 16
    let si := si + 1
    if target = si then .ok (code, si) else shiftLoop fuel code si target

/-- `gen_code_table`, ljpeg92.rs:352-376. `lens` is the remaining part of `huffcode[k..].bits` up to the
terminating 0; the result lists the codes `huffcode[k..].enc`. -/
def genCodeTable : List Nat → Nat → Nat → R (List Nat)
  | [], _, _ => .ok []
  | l :: lens, code, si => do
    -- invariant of the Rust loops: here `huffcode[k].bits == si == l`
    if l ≠ si then panic' else
    if code + 1 < 2 ^ 16 then                                -- `code += 1` on u16
      match lens with
      | [] => .ok [code]
      | l' :: _ =>
        if l' = si then do
          let r ← genCodeTable lens (code + 1) si
          .ok (code :: r)
        else do
          let (c, s) ← shiftLoop 17 (code + 1) si l'
          let r ← genCodeTable lens c s
          .ok (code :: r)
    else panic'

/-- `build`, ljpeg92.rs:424-461: table of 17 codes; a class without symbol keeps the empty code. -/
def buildTable (histogram : List Nat) : R (List Code) := do
  let cs ← genCodesizes histogram
  let bits ← countBits cs
  let bits ← adjustBits bits
  let huffval := sortInput cs
  let sizes := genSizeTable bits
  -- `self.huffval[k]` / `self.huffcode[k]` indices stay inside the arrays of 17 and 18 entries
  if huffval.length ≤ 17 ∧ sizes.length ≤ 17 ∧ 0 < sizes.length then do
    let codes ← genCodeTable sizes 0 (sizes.headD 0)
    (List.range 17).mapM fun ssss =>
      match huffval.idxOf? ssss with                         -- `huffsym[ssss]`
      | none => .ok ⟨0, 0⟩
      | some k => do
        let nb := sizes.getD k 0                             -- `huffcode[k].bits`, 0 past the end
        let enc := codes.getD k 0
        Code.fromLsb nb enc
  else panic'

end Verif.Ljpeg
