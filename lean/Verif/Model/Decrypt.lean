import Verif.Model.Slice
/-! # Decryption of maker notes: Nikon (rawler/src/decoders/nef/decrypt.rs) and Sony (rawler/src/decoders/arw.rs) -/

namespace Verif.Decrypt
open Verif

/-- `WB_SERIALMAP`, nef/decrypt.rs:42-53 -/
def serialMap : List Nat := [
  193, 191, 109, 13, 89, 197, 19, 157, 131, 97, 107, 79, 199, 127, 61, 61, 83, 89, 227, 199, 233, 47, 149, 167, 149, 31, 223, 127, 43, 41, 199, 13,
  223, 7, 239, 113, 137, 61, 19, 61, 59, 19, 251, 13, 137, 193, 101, 31, 179, 13, 107, 41, 227, 251, 239, 163, 107, 71, 127, 149, 53, 167, 71, 79,
  199, 241, 89, 149, 53, 17, 41, 97, 241, 61, 179, 43, 13, 67, 137, 193, 157, 157, 137, 101, 241, 233, 223, 191, 61, 127, 83, 151, 229, 233, 149, 23,
  29, 61, 139, 251, 199, 227, 103, 167, 7, 241, 113, 167, 83, 181, 41, 137, 229, 43, 167, 23, 41, 233, 79, 197, 101, 109, 107, 239, 13, 137, 73, 47,
  179, 67, 83, 101, 29, 73, 163, 19, 137, 89, 239, 107, 239, 101, 29, 11, 89, 19, 227, 79, 157, 179, 41, 67, 43, 7, 29, 149, 89, 89, 71, 251,
  229, 233, 97, 71, 47, 53, 127, 23, 127, 239, 127, 149, 149, 113, 211, 163, 11, 113, 163, 173, 11, 59, 181, 251, 163, 191, 79, 131, 29, 173, 233, 47,
  113, 101, 163, 229, 7, 53, 61, 13, 181, 233, 229, 71, 59, 157, 239, 53, 163, 191, 179, 223, 83, 211, 151, 83, 73, 113, 7, 53, 97, 113, 47, 67,
  47, 17, 223, 23, 151, 251, 149, 59, 127, 107, 211, 37, 191, 173, 199, 197, 197, 181, 139, 239, 47, 211, 7, 107, 37, 73, 149, 37, 73, 109, 113, 199]

/-- `WB_KEYMAP`, nef/decrypt.rs:55-66 -/
def keyMap : List Nat := [
  167, 188, 201, 173, 145, 223, 133, 229, 212, 120, 213, 23, 70, 124, 41, 76, 77, 3, 233, 37, 104, 17, 134, 179, 189, 247, 111, 97, 34, 162, 38, 52,
  42, 190, 30, 70, 20, 104, 157, 68, 24, 194, 64, 244, 126, 95, 27, 173, 11, 148, 182, 103, 180, 11, 225, 234, 149, 156, 102, 220, 231, 93, 108, 5,
  218, 213, 223, 122, 239, 246, 219, 31, 130, 76, 192, 104, 71, 161, 189, 238, 57, 80, 86, 74, 221, 223, 165, 248, 198, 218, 202, 144, 202, 1, 66, 157,
  139, 12, 115, 67, 117, 5, 148, 222, 36, 179, 128, 52, 229, 44, 220, 155, 63, 202, 51, 69, 208, 219, 95, 245, 82, 195, 33, 218, 226, 34, 114, 107,
  62, 208, 91, 168, 135, 140, 6, 93, 15, 221, 9, 25, 147, 208, 185, 252, 139, 15, 132, 96, 51, 28, 155, 69, 241, 240, 163, 148, 58, 18, 119, 51,
  77, 68, 120, 40, 60, 158, 253, 101, 87, 22, 148, 107, 251, 89, 208, 200, 34, 54, 219, 210, 99, 152, 67, 161, 4, 135, 134, 247, 166, 38, 187, 214,
  89, 77, 191, 106, 46, 170, 43, 239, 230, 120, 182, 78, 224, 47, 220, 124, 190, 87, 25, 50, 126, 42, 208, 184, 186, 41, 0, 60, 82, 125, 168, 73,
  59, 45, 235, 37, 73, 250, 163, 170, 57, 167, 197, 167, 80, 17, 54, 251, 198, 103, 74, 245, 165, 18, 101, 126, 176, 223, 175, 78, 179, 97, 127, 47]

/-- The digit loop over the serial number, nef/decrypt.rs:10-21; `usize` arithmetic is checked. `acc` is the number so far. -/
def serialLoop : List Nat → Nat → R Nat
  | [], acc => .ok acc
  | d :: ds, acc =>
    if d = 0 then .ok acc
    else
      let v := acc * 10 + (if 48 ≤ d ∧ d ≤ 57 then d - 48 else d % 10)
      if v < 2 ^ 64 then serialLoop ds v else panic'

/-- nef/decrypt.rs:10-21. The number of bytes looked at is `count()`; for a tag of a one byte type that is the length of the data. -/
def serialNo (data : List Nat) : R Nat := serialLoop data 0

/-- nef/decrypt.rs:24-25; `key` is the 32 bit tag value -/
def keyNo (key : Nat) : Nat := key % 256 ^^^ key / 256 % 256 ^^^ key / 65536 % 256 ^^^ key / 16777216 % 256

/-- The loop of nef/decrypt.rs:32-36; `u32` arithmetic is checked. -/
def nefLoop (ci : Nat) : List Nat → Nat → Nat → R (List Nat)
  | [], _, _ => .ok []
  | b :: bs, cj, ck =>
    if cj + ci * ck < 2 ^ 32 ∧ ci * ck < 2 ^ 32 ∧ ck + 1 < 2 ^ 32 then do
      let rest ← nefLoop ci bs (cj + ci * ck) (ck + 1)
      .ok ((b ^^^ (cj + ci * ck) % 256) :: rest)
    else panic'

/-- `nef_decrypt`, nef/decrypt.rs:6-38, with the two maker note tags given -/
def nefDecrypt (buf : List Nat) (start : Nat) (serial : List Nat) (key : Nat) : R (List Nat) := do
  let s ← serialNo serial
  if buf.length < start then panic' else
  let ci ← idx serialMap (s % 256)
  let cj ← idx keyMap (keyNo key % 256)
  let out ← nefLoop ci (buf.drop start) cj 0x60
  .ok (buf.take start ++ out)

/-- `u32::from_be` on a little endian machine -/
def swap32 (x : Nat) : Nat := x % 256 * 16777216 + x / 256 % 256 * 65536 + x / 65536 % 256 * 256 + x / 16777216 % 256

/-- `LEu32` -/
def leU32 (buf : List Nat) (pos : Nat) : R Nat := do
  let b ← slice buf pos (pos + 4)
  match b with
  | [x, y, z, w] => .ok (x + y * 256 + z * 65536 + w * 16777216)
  | _ => panic'

/-- arw.rs:703-707: the first four words -/
def padSeed (key : Nat) : List Nat :=
  let k1 := (key * 48828125 + 1) % 2 ^ 32
  let k2 := (k1 * 48828125 + 1) % 2 ^ 32
  let k3 := (k2 * 48828125 + 1) % 2 ^ 32
  let k4 := (k3 * 48828125 + 1) % 2 ^ 32
  [k1, k2, k3, (k4 * 2) % 2 ^ 32 ||| (k1 ^^^ k3) >>> 31]

/-- arw.rs:708-710 -/
def padFill (pad : List Nat) : R (List Nat) :=
  forN 123 (fun i pad => do
    let a ← idx pad i
    let b ← idx pad (i + 2)
    let c ← idx pad (i + 1)
    let d ← idx pad (i + 3)
    upd pad (i + 4) (((a ^^^ b) * 2) % 2 ^ 32 ||| (c ^^^ d) >>> 31)) pad

/-- arw.rs:711-713: words 0 to 126 are swapped -/
def padSwap (pad : List Nat) : List Nat := (pad.take 127).map swap32 ++ pad.drop 127

/-- The pad, arw.rs:701-713 -/
def sonyPad (key : Nat) : R (List Nat) := do
  let pad ← padFill (padSeed key ++ List.replicate 124 0)
  .ok (padSwap pad)

/-- One round, arw.rs:718-724 -/
def sonyStep (buf : List Nat) (offset : Nat) (i : Nat) (s : List Nat × List Nat) : R (List Nat × List Nat) := do
  let p := i + 127
  let a ← idx s.1 ((p + 1) % 128)
  let b ← idx s.1 ((p + 1 + 64) % 128)
  let pad ← upd s.1 (p % 128) (a ^^^ b)
  let w ← leU32 buf (offset + i * 4)
  let k ← idx pad (p % 128)
  let o := w ^^^ k
  .ok (pad, s.2 ++ [o % 256, o / 256 % 256, o / 65536 % 256, o / 16777216 % 256])

/-- `sony_decrypt`, arw.rs:697-727 -/
def sonyDecrypt (buf : List Nat) (offset length key : Nat) : R (List Nat) := do
  if buf.length < offset + 4 * (length / 4) then fail' else
  let pad ← sonyPad key
  let s ← forN (length / 4) (sonyStep buf offset) (pad, [])
  .ok s.2

end Verif.Decrypt
