import Verif.Spec.Bits
/-! # Panasonic raw data: packets of 16 bytes

The data are a sequence of packets of 16 bytes, each read as one number of 128 bits, little-endian. Split data come in blocks of 1024 packets
whose beginning has been moved to their end. -/

namespace Verif.Spec.Pana
open Verif Verif.Spec

/-- Where byte `b` of packet `g` is. In split data, the first 0x2008 bytes of a block of 0x4000 are at its end. -/
def place (split : Bool) (g b : Nat) : Nat :=
  if split then g / 1024 * 0x4000 + (g % 1024 * 16 + b + 0x1ff8) % 0x4000 else g * 16 + b

/-- Packet `g`. -/
def packet (split : Bool) (data : List Nat) (g : Nat) : List Nat := (List.range 16).map fun b => data.getD (place split g b) 0

/-- Sample `i` of a packet that is a sequence of fields of `n` bits, first bit least significant. -/
def plain (n : Nat) (packet : List Nat) (i : Nat) : Nat := natLSB (((bytesLSB packet).drop (i * n)).take n)

/-- The 128 bits of a packet, the most significant first. -/
def word (packet : List Nat) : List Bool := bytesMSB packet.reverse

/-! ## Version 6 -/

/-- The numbers in a packet: a code for each sample, and for each group of three samples, after the first two, a selector. -/
structure Code6 where
  code : Nat → Nat
  sel : Nat → Nat

/-- 14 bit images have 11 samples in a packet: `n = 14`, `m = 10` and 3 groups. 12 bit images have 14: `n = 12`, `m = 8` and 4 groups. -/
def Code6.bits (c : Code6) (n m groups : Nat) : List Bool :=
  bitsMSB n (c.code 0) ++ bitsMSB n (c.code 1) ++ (List.range groups).flatMap fun g =>
    bitsMSB 2 (c.sel g) ++ bitsMSB m (c.code (3 * g + 2)) ++ bitsMSB m (c.code (3 * g + 3)) ++ bitsMSB m (c.code (3 * g + 4))

/-- The numbers fit into their fields; a packet has `ppb` samples. -/
def Fits (c : Code6) (n m ppb groups : Nat) : Prop :=
  c.code 0 < 2 ^ n ∧ c.code 1 < 2 ^ n ∧ (∀ i, 2 ≤ i → i < ppb → c.code i < 2 ^ m) ∧ ∀ g, g < groups → c.sel g < 4

/-- The scale that a selector stands for: 0, 1, 2 or 4. -/
def scale (t : Nat) : Nat := if t = 3 then 4 else t

/-- Sample number `k` among the even (`s = 0`) or the odd ones (`s = 1`), before 15 is taken off. Up to and including the first one that
is not zero, the code is the value. After that the code is multiplied by `2 ^ scale` and, unless the scale is 4, added to the value
before, less `2 ^ (m + scale - 1)`, or to 0 if that would be negative. -/
def Code6.value (c : Code6) (m s : Nat) : Nat → Nat
  | 0 => c.code s
  | k + 1 =>
    let i := 2 * (k + 1) + s
    let z := scale (c.sel ((i - 2) / 3))
    if ∀ j, j ≤ k → c.code (2 * j + s) = 0 then c.code i
    else c.code i * 2 ^ z + if z = 4 then 0 else c.value m s k - 2 ^ (m - 1 + z)

/-! ## Version 4 -/

/-- The numbers in a packet of 14 samples: a byte for each, a selector for each group of three after the first two, and four
low bits for the even and for the odd samples. -/
structure Code4 where
  hi : Nat → Nat
  sel : Nat → Nat
  low : Nat → Nat

/-- The numbers fit into their fields. -/
def Fits4 (c : Code4) : Prop := (∀ i, c.hi i < 256) ∧ (∀ g, c.sel g < 4) ∧ ∀ s, c.low s < 16

/-- The even (odd) samples before number `k` have bytes that are all 0. -/
def Code4.Fresh (c : Code4) (s k : Nat) : Prop := ∀ j, j < k → c.hi (2 * j + s) = 0

instance (c : Code4) (s k : Nat) : Decidable (c.Fresh s k) := inferInstanceAs (Decidable (∀ j, j < k → c.hi (2 * j + s) = 0))

/-- The low bits follow the first byte that is not zero, or the last byte. -/
def Code4.Lows (c : Code4) (i : Nat) : Prop := c.Fresh (i % 2) (i / 2) ∧ (c.hi i ≠ 0 ∨ 12 ≤ i)

instance (c : Code4) (i : Nat) : Decidable (c.Lows i) := inferInstanceAs (Decidable (_ ∧ _))

/-- The bits for sample `i`. -/
def Code4.piece (c : Code4) (i : Nat) : List Bool :=
  (if i % 3 = 2 then bitsMSB 2 (c.sel (i / 3)) else []) ++ bitsMSB 8 (c.hi i) ++ if c.Lows i then bitsMSB 4 (c.low (i % 2)) else []

/-- The bits of a packet. -/
def Code4.bits (c : Code4) : List Bool := (List.range 14).flatMap c.piece

/-- Sample number `k` among the even or the odd ones. -/
def Code4.value (c : Code4) (s : Nat) : Nat → Nat
  | 0 => if c.hi s = 0 then 0 else 16 * c.hi s + c.low s
  | k + 1 =>
    let i := 2 * (k + 1) + s
    let z := scale (c.sel ((i - 2) / 3))
    if c.Fresh s (k + 1) then if c.hi i ≠ 0 ∨ 12 ≤ i then 16 * c.hi i + c.low s else 0
    else if c.hi i = 0 then c.value s k
    else c.hi i * 2 ^ z + if z = 4 ∨ c.value s k < 128 * 2 ^ z then c.value s k % 2 ^ z else c.value s k - 128 * 2 ^ z

end Verif.Spec.Pana
