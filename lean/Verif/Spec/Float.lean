import Verif.Base
/-! # IEEE 754 style binary floating point numbers -/

namespace Verif.Spec

/-- A floating point datum: not a number, an infinity, or a signed magnitude given in units of `2^-149`
(the smallest positive single precision number). -/
inductive FVal where
  | nan
  | inf (negative : Bool)
  | num (negative : Bool) (magnitude : Nat)
deriving DecidableEq

/-- The datum with sign bit `s`, biased exponent `e` and fraction `m`, for `frac` fraction bits and `exp` exponent bits
(bias `2^(exp-1) - 1`; requires bias + frac ≤ 150). -/
def fvalOf (frac exp s e m : Nat) : FVal :=
  if e = 2 ^ exp - 1 then (if m = 0 then .inf (s = 1) else .nan)
  else if e = 0 then .num (s = 1) (m * 2 ^ (150 - (2 ^ (exp - 1) - 1 + frac)))
  else .num (s = 1) ((2 ^ frac + m) * 2 ^ (149 + e - (2 ^ (exp - 1) - 1 + frac)))

/-- The datum stored in the bit pattern `v`: one sign bit, `exp` exponent bits, `frac` fraction bits. -/
def fval (frac exp v : Nat) : FVal := fvalOf frac exp (v / 2 ^ (frac + exp) % 2) (v / 2 ^ frac % 2 ^ exp) (v % 2 ^ frac)

/-- 1.0, the smallest subnormal and minus infinity in single precision -/
example : fval 23 8 0x3f800000 = .num false (2 ^ 149) ∧ fval 23 8 1 = .num false 1 ∧ fval 23 8 0xff800000 = .inf true := by decide +kernel
/-- 1.5 in half precision -/
example : fval 10 5 0x3e00 = .num false (3 * 2 ^ 148) := by decide +kernel

/-- The bytes of one row of floating point samples as DNG stores them before deflation: all most significant bytes, then
all second bytes and so on, each byte replaced by its difference from the byte `factor` places to the left. -/
def planes (bytes : Nat) (samples : List Nat) : List Nat :=
  (List.range bytes).flatMap fun c => samples.map fun v => v / 256 ^ (bytes - 1 - c) % 256

def differences (factor : Nat) (l : List Nat) : List Nat :=
  (List.range l.length).map fun i => if i < factor then l.getD i 0 else (l.getD i 0 + 256 - l.getD (i - factor) 0) % 256

end Verif.Spec
