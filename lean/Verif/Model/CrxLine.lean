import Verif.Base

/-!
# Model of the CR3 (CRX) entropy decoder and line decoders

`rawler/src/decompressors/crx/rice.rs`, `runlength.rs` and the line decoders of `decoder.rs`.
The bit reader of the external crate `bitstream_io` (big endian `BitReader`) is modelled as the
list of the bits that have not been read yet; reading past the end is an `Err`. `i32` values are
`Int`, and every `+`, `-`, `*` on them goes through `i32`, which panics outside the range
(checked build). `u32` counters are `Nat`.
-/

namespace Verif.Crx

/-- An `i32` result of checked arithmetic. -/
def i32 (v : Int) : R Int := if -2147483648 ≤ v ∧ v ≤ 2147483647 then .ok v else panic'

/-- `BitRead::read_unary::<1>` (crate `bitstream_io`, used in rice.rs:40-42): number of 0 bits
before the next 1 bit, which is consumed too. -/
def unary : List Bool → R (Nat × List Bool)
  | [] => fail'
  | true :: r => .ok (0, r)
  | false :: r => do
    let (n, r) ← unary r
    .ok (n + 1, r)

/-- rice.rs:48-51 `bitstream_get_bits`: `debug_assert!(bits <= 32)`, then `read_var(bits)`. -/
def getBits (n : Nat) (bits : List Bool) : R (Nat × List Bool) :=
  if 32 < n then panic'
  else if bits.length < n then fail'
  else .ok (natMSB (bits.take n), bits.drop n)

/-- decoder.rs:20 -/
abbrev kMax : Nat := 15
/-- decoder.rs:21 -/
abbrev escape : Nat := 41
/-- decoder.rs:22 -/
abbrev escBits : Nat := 21

/-- rice.rs:58-71 `rice_decode` (with `escape`, `esc_bits` the constants every caller passes).
`prefix << k` drops high bits and panics for `k ≥ 32`. -/
def riceDecode (k : Nat) (bits : List Bool) : R (Nat × List Bool) := do
  let (pre, bits) ← unary bits
  if escape ≤ pre then getBits escBits bits
  else if 0 < k then do
    assert' (k < 32)
    let (low, bits) ← getBits k bits
    .ok ((pre <<< k) % 4294967296 ||| low, bits)
  else .ok (pre, bits)

/-- rice.rs:94-107 `predict_k_param_max`: shifts by 32 or more panic; `new_k -= 1` panics at 0. -/
def predictK (prevK value maxK : Nat) : R Nat := do
  assert' (prevK < 32)
  let k := prevK + (if 2 < value >>> prevK then 1 else 0) + (if 5 < value >>> prevK then 1 else 0)
  let k ← usub k (if value < (1 <<< prevK) >>> 1 then 1 else 0)
  .ok (if 0 < maxK then min k maxK else k)

/-- runlength.rs:13-16 -/
def jTable : List Nat :=
  [0, 0, 0, 0, 1, 1, 1, 1, 2, 2, 2, 2, 3, 3, 3, 3, 4, 4, 5, 5, 6, 6, 7, 7, 8, 9, 10, 11, 12, 13, 14, 15]

/-- mod.rs `BandParam` (the fields the line decoders use) together with its `RiceDecoder`. -/
structure Band where
  width : Nat
  height : Nat
  /-- `rounded_bits_mask` -/
  mask : Int
  /-- `rounded_bits` -/
  rbits : Nat
  curLine : Nat
  /-- `line_buf[0]`: the line above -/
  line0 : List Int
  /-- `line_buf[1]`: the line being decoded -/
  line1 : List Int
  lineK : List Nat
  pos : Nat
  /-- `s_param` -/
  s : Nat
  supportsPartial : Bool
  /-- `RiceDecoder::k_param` -/
  k : Nat
  /-- what is left of the bit stream -/
  bits : List Bool
  deriving DecidableEq, Repr

/-- mod.rs `coeff_a` -/
def coeffA (p : Band) : R Int := do
  let i ← usub p.pos 1
  idx p.line1 i
/-- mod.rs `coeff_b` -/
def coeffB (p : Band) : R Int := idx p.line0 p.pos
/-- mod.rs `coeff_c` -/
def coeffC (p : Band) : R Int := do
  let i ← usub p.pos 1
  idx p.line0 i
/-- mod.rs `coeff_d` -/
def coeffD (p : Band) : R Int := idx p.line0 (p.pos + 1)

/-- `p.line_buf[1][p.line_pos] = v` -/
def put (p : Band) (v : Int) : R Band := do
  let l ← upd p.line1 p.pos v
  .ok { p with line1 := l }

/-- `p.line_k[p.line_pos - 1] = k` -/
def putK (p : Band) (k : Nat) : R Band := do
  let i ← usub p.pos 1
  let l ← upd p.lineK i k
  .ok { p with lineK := l }

/-- `p.rice.bitstream_get_bits(n)?` -/
def takeBits (n : Nat) (p : Band) : R (Nat × Band) := do
  let (v, r) ← getBits n p.bits
  .ok (v, { p with bits := r })

/-- `p.rice.adaptive_rice_decode(false, ..)?` (rice.rs:77-83) -/
def rice (p : Band) : R (Nat × Band) := do
  let (v, r) ← riceDecode p.k p.bits
  .ok (v, { p with bits := r })

/-- `p.rice.update_k_param(code, maxK)` (rice.rs:86-88) -/
def updateK (p : Band) (code maxK : Nat) : R Band := do
  let k ← predictK p.k code maxK
  .ok { p with k := k }

/-- `p.rice.adaptive_rice_decode(true, .., maxK)?` (rice.rs:77-83) -/
def riceAdapt (p : Band) (maxK : Nat) : R (Nat × Band) := do
  let (v, p) ← rice p
  let p ← updateK p v maxK
  .ok (v, p)

/-- runlength.rs:37-45, the `while` loop of `symbol_run_count`; `run < remaining` grows by at
least one each time round, so `remaining` rounds suffice. -/
def runLoop : Nat → Nat → Nat → Band → R (Nat × Band)
  | 0, _, _, _ => panic'
  | fuel + 1, remaining, run, p =>
    if run = remaining then .ok (run, p)
    else do
      let (b, p) ← takeBits 1 p
      if b = 1 then do
        let j ← idx jTable p.s
        if remaining < run + 2 ^ j then .ok (remaining, p)
        else runLoop fuel remaining (run + 2 ^ j) { p with s := min (p.s + 1) 31 }
      else .ok (run, p)

/-- runlength.rs:47-57, code segment A.16 of `symbol_run_count` -/
def runTail (remaining run : Nat) (p : Band) : R (Nat × Band) :=
  if run < remaining then do
    let j ← idx jTable p.s
    let (v, p) ← takeBits j p
    if remaining < run + v then fail'
    else .ok (run + v, { p with s := p.s - 1 })
  else .ok (run, p)

/-- runlength.rs:32-58 `symbol_run_count` (`JSHIFT[i]` is `1 << J[i]`; the value reads nothing when
`J[s] = 0`, as `takeBits 0` does) -/
def runCount (p : Band) (remaining : Nat) : R (Nat × Band) := do
  assert' (1 < remaining)
  let (run, p) ← runLoop remaining remaining 1 p
  runTail remaining run p

/-- `for _ in 0..n { line_buf[1][line_pos] = coeff_a(); line_pos += 1 }` (decoder.rs:358-361,
408-411, 486-489, 540-543) -/
def fillA : Nat → Band → R Band
  | 0, p => .ok p
  | n + 1, p => do
    let a ← coeffA p
    let p ← put p a
    fillA n { p with pos := p.pos + 1 }

/-- `for _ in 0..n { line_buf[1][line_pos] = 0; line_k[line_pos - 1] = 0; line_pos += 1 }`
(decoder.rs:238-244, 295-301) -/
def fillZero : Nat → Band → R Band
  | 0, p => .ok p
  | n + 1, p => do
    let p ← put p 0
    let p ← putK p 0
    fillZero n { p with pos := p.pos + 1 }

/-- decoder.rs:646-648 `error_code_signed`: `-(c & 1) ^ (c >> 1)` -/
def errSigned (c : Nat) : Int := if c % 2 = 1 then -(c / 2 : Nat) - 1 else (c / 2 : Nat)

/-- decoder.rs:653-661 `med` -/
def med (a b c : Int) : R Int :=
  if max a b ≤ c then .ok (min a b)
  else if c ≤ min a b then .ok (max a b)
  else do
    let t ← i32 (a + b)
    i32 (t - c)

/-- `line_buf[1][line_pos] = coeff_a() + 1` after the loop (decoder.rs:380-381, 442-443, 558-559) -/
def closeLine (p : Band) : R Band := do
  assert' (p.pos < p.line1.length)
  let a ← coeffA p
  let v ← i32 (a + 1)
  put p v

/-! ## Lines of a band that refers to the line above (`supports_partial`, no rounding) -/

/-- The run length part shared by the line decoders (decoder.rs:354-361, 404-412): a flag bit, and
if it is set a run that is copied from `a`. -/
def runA (p : Band) (remaining : Nat) : R (Band × Nat) := do
  let (b, p) ← takeBits 1 p
  if b = 1 then do
    let (n, p) ← runCount p remaining
    let p ← fillA n p
    .ok (p, remaining - n)
  else .ok (p, remaining)

/-- decoder.rs:351-367: the prediction for the next sample of the top line (`none`: the run has
reached the end of the line) -/
def topPredict (p : Band) (remaining : Nat) : R (Band × Nat × Option Int) := do
  let a ← coeffA p
  if a ≠ 0 then .ok (p, remaining, some a)
  else do
    let (p, remaining) ← runA p remaining
    if remaining = 0 then .ok (p, remaining, none) else .ok (p, remaining, some 0)

/-- decoder.rs:368-370: decode one sample with prediction `x`, adapting `k` -/
def addSymbol (p : Band) (x : Int) : R Band := do
  let (c, p) ← riceAdapt p kMax
  let v ← i32 (x + errSigned c)
  let p ← put p v
  .ok { p with pos := p.pos + 1 }

/-- decoder.rs:349-372, the loop of `decode_top_line` -/
def topLoop : Nat → Nat → Band → R (Band × Nat)
  | 0, remaining, p => .ok (p, remaining)
  | fuel + 1, remaining, p =>
    if 1 < remaining then do
      let (p, remaining, x) ← topPredict p remaining
      match x with
      | none => .ok (p, remaining)
      | some x => do
        let p ← addSymbol p x
        topLoop fuel (remaining - 1) p
    else .ok (p, remaining)

/-- decoder.rs:374-379: the last sample of the line, predicted by `a` -/
def topLast (p : Band) (remaining : Nat) : R Band :=
  if remaining = 1 then do
    let x ← coeffA p
    addSymbol p x
  else .ok p

/-- decoder.rs:344-383 `decode_top_line` -/
def topLine (p : Band) : R Band := do
  assert' (p.pos = 1)
  let l ← upd p.line1 0 0
  let (p, remaining) ← topLoop p.width p.width { p with line1 := l }
  let p ← topLast p remaining
  closeLine p

/-- decoder.rs:402: `coeff_a() == coeff_b() && coeff_a() == coeff_d()` -/
def flat (p : Band) : R Bool := do
  let a ← coeffA p
  let b ← coeffB p
  if a = b then do
    let d ← coeffD p
    .ok (a = d)
  else .ok false

/-- decoder.rs:398-419: run length or median edge detection prediction -/
def nontopPredict (p : Band) (remaining : Nat) : R (Band × Nat × Int) := do
  let f ← flat p
  if f then do
    let (p, remaining) ← runA p remaining
    if 0 < remaining then do
      let b ← coeffB p
      .ok (p, remaining, b)
    else .ok (p, remaining, 0)
  else do
    let a ← coeffA p
    let b ← coeffB p
    let c ← coeffC p
    let x ← med a b c
    .ok (p, remaining, x)

/-- decoder.rs:425-429: the code from which the next `k` is predicted (`delta << 1` drops high bits
in Rust; here it is an exact product, and a product outside `i32` is a panic) -/
def nextCode (p : Band) (remaining c : Nat) : R Nat :=
  if 1 < remaining then do
    let d ← coeffD p
    let b ← coeffB p
    let delta ← i32 (d - b)
    let delta ← i32 (2 * delta)
    assert' (c + delta.natAbs < 4294967296)
    .ok ((c + delta.natAbs) >>> 1)
  else .ok c

/-- decoder.rs:420-431: decode one sample of a nontop line -/
def nontopSymbol (p : Band) (remaining : Nat) (x : Int) : R Band :=
  if 0 < remaining then do
    let (c, p) ← rice p
    let v ← i32 (x + errSigned c)
    let p ← put p v
    let c ← nextCode p remaining c
    let p ← updateK p c kMax
    .ok { p with pos := p.pos + 1 }
  else .ok p

/-- decoder.rs:397-433, the loop of `decode_nontop_line` -/
def nontopLoop : Nat → Nat → Band → R (Band × Nat)
  | 0, remaining, p => .ok (p, remaining)
  | fuel + 1, remaining, p =>
    if 1 < remaining then do
      let (p, remaining, x) ← nontopPredict p remaining
      let p ← nontopSymbol p remaining x
      nontopLoop fuel (remaining - 1) p
    else .ok (p, remaining)

/-- decoder.rs:435-441 -/
def nontopLast (p : Band) (remaining : Nat) : R Band :=
  if remaining = 1 then do
    let a ← coeffA p
    let b ← coeffB p
    let c ← coeffC p
    let x ← med a b c
    addSymbol p x
  else .ok p

/-- decoder.rs:391-445 `decode_nontop_line` -/
def nontopLine (p : Band) : R Band := do
  assert' (p.pos = 1)
  let b ← coeffB p
  let l ← upd p.line1 0 b
  let (p, remaining) ← nontopLoop p.width p.width { p with line1 := l }
  let p ← nontopLast p remaining
  closeLine p

/-! ## Lines of a band that does not refer to the line above -/

/-- decoder.rs:255-257, 325-327: `line_k[line_pos - 1] = k; line_pos += 1` -/
def advanceK (p : Band) : R Band := do
  let p ← putK p p.k
  .ok { p with pos := p.pos + 1 }

/-- decode one sample coded directly (`plus = 0`) or as a nonzero value (`plus = 1`), adapting `k`
up to 15 (decoder.rs:229-230, 251-252, 261-262, 306-307, 331-332) -/
def directSymbol (p : Band) (plus : Nat) : R Band := do
  let (c, p) ← riceAdapt p kMax
  assert' (c + plus < 4294967296)
  let p ← put p (errSigned (c + plus))
  advanceK p

/-- The run length part (decoder.rs:233-249, 289-302) -/
def runZero (p : Band) (remaining : Nat) : R (Band × Nat) := do
  let (b, p) ← takeBits 1 p
  if b = 1 then do
    let (n, p) ← runCount p remaining
    let p ← fillZero n p
    .ok (p, remaining - n)
  else .ok (p, remaining)

/-- decoder.rs:224-258, the loop of `decode_top_line_no_ref_prev_line` -/
def topNoRefLoop : Nat → Nat → Band → R (Band × Nat)
  | 0, remaining, p => .ok (p, remaining)
  | fuel + 1, remaining, p =>
    if 1 < remaining then do
      let a ← coeffA p
      if a ≠ 0 then do
        let p ← directSymbol p 0
        topNoRefLoop fuel (remaining - 1) p
      else do
        let (p, remaining) ← runZero p remaining
        if remaining = 0 then .ok (p, remaining)
        else do
          let p ← directSymbol p 1
          topNoRefLoop fuel (remaining - 1) p
    else .ok (p, remaining)

/-- decoder.rs:260-265, 330-335 -/
def noRefLast (p : Band) (remaining : Nat) : R Band :=
  if remaining = 1 then directSymbol p 0 else .ok p

/-- decoder.rs:218-269 `decode_top_line_no_ref_prev_line` -/
def topNoRefLine (p : Band) : R Band := do
  assert' (p.pos = 1)
  let l0 ← upd p.line0 0 0
  let l1 ← upd p.line1 0 0
  let (p, remaining) ← topNoRefLoop p.width p.width { p with line0 := l0, line1 := l1 }
  let p ← noRefLast p remaining
  assert' (p.pos < p.line1.length)
  put p 0

/-- decoder.rs:278: `(coeff_d() | coeff_b() | coeff_a()) != 0` -/
def busy (p : Band) : R Bool := do
  let d ← coeffD p
  let b ← coeffB p
  let a ← coeffA p
  .ok (d ≠ 0 ∨ b ≠ 0 ∨ a ≠ 0)

/-- decoder.rs:281-287, 316-322: steer `k` by the value the line above had one column to the right -/
def steerK (p : Band) : R Band := do
  let q ← idx p.lineK p.pos
  if q - p.k ≤ 1 then .ok (if 15 ≤ p.k then { p with k := 15 } else p)
  else .ok { p with k := p.k + 1 }

/-- decoder.rs:279-287, 314-322, 325-327: a sample that is not the last of the line -/
def steeredSymbol (p : Band) (plus : Nat) : R Band := do
  let (c, p) ← riceAdapt p 0
  assert' (c + plus < 4294967296)
  let p ← put p (errSigned (c + plus))
  let p ← steerK p
  advanceK p

/-- decoder.rs:276-328, the loop of `decode_nontop_line_no_ref_prev_line` -/
def nontopNoRefLoop : Nat → Nat → Band → R (Band × Nat)
  | 0, remaining, p => .ok (p, remaining)
  | fuel + 1, remaining, p =>
    if 1 < remaining then do
      let f ← busy p
      if f then do
        let p ← steeredSymbol p 0
        nontopNoRefLoop fuel (remaining - 1) p
      else do
        let (p, remaining) ← runZero p remaining
        if remaining = 1 then do
          let p ← directSymbol p 1
          .ok (p, 0)
        else if remaining = 0 then .ok (p, 0)
        else do
          let p ← steeredSymbol p 1
          nontopNoRefLoop fuel (remaining - 1) p
    else .ok (p, remaining)

/-- decoder.rs:272-338 `decode_nontop_line_no_ref_prev_line` -/
def nontopNoRefLine (p : Band) : R Band := do
  assert' (p.pos = 1)
  let (p, remaining) ← nontopNoRefLoop p.width p.width p
  let p ← noRefLast p remaining
  assert' (p.pos < p.line1.length)
  .ok p

/-! ## Choosing the line decoder -/

/-- decoder.rs:591-605: the first line. The rounded variant (`rounded_bits_mask > 0`) is not
modelled: it is the error `panic` here, and every theorem assumes a mask of 0. -/
def firstLine (p : Band) : R Band :=
  if p.supportsPartial then
    if p.mask ≤ 0 then topLine p else panic'
  else topNoRefLine p

/-- decoder.rs:606-618: any other line (rounded variant as in `firstLine`) -/
def laterLine (p : Band) : R Band :=
  if !p.supportsPartial then nontopNoRefLine p
  else if p.mask ≤ 0 then nontopLine p else panic'

/-- decoder.rs:587-618: the line decoder for the current line; for later lines the buffers are
swapped first -/
def lineAny (p : Band) : R Band :=
  if p.curLine = 0 then firstLine { p with pos := 1, s := 0, k := 0 }
  else laterLine { p with pos := 1, line0 := p.line1, line1 := p.line0 }

/-- decoder.rs:584-621 `decode_line` -/
def decodeLine (p : Band) : R Band := do
  assert' (p.curLine < p.height)
  let p ← lineAny p
  .ok { p with curLine := p.curLine + 1 }

/-- decoder.rs:45-73: a fresh `BandParam` over the bits of a band (mask 0) -/
def newBand (width height : Nat) (supportsPartial : Bool) (bits : List Bool) : Band :=
  { width, height, mask := 0, rbits := 0, curLine := 0,
    line0 := List.replicate (width + 2) 0, line1 := List.replicate (width + 2) 0,
    lineK := List.replicate (width + 2) 0, pos := 0, s := 0, supportsPartial, k := 0, bits }

/-- mod.rs `decoded_buf`: `&line_buf[1][1..1 + width]` -/
def decodedBuf (p : Band) : R (List Int) :=
  if 1 + p.width ≤ p.line1.length then .ok ((p.line1.drop 1).take p.width) else panic'

/-- decoder.rs:115-143, 155-159 for an image without wavelet levels: decode `n` lines one after
the other. -/
def decodeLines : Nat → Band → R (List (List Int))
  | 0, _ => .ok []
  | n + 1, p => do
    let p ← decodeLine p
    let l ← decodedBuf p
    let ls ← decodeLines n p
    .ok (l :: ls)

end Verif.Crx
