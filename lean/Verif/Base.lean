/-!
# Base vocabulary of the model

Result type, loop combinators and bit strings. Nothing in this file models a particular
function of the repository; it fixes how Rust results and loops are written in Lean.
-/

namespace Verif

/-- How a Rust function can fail to return a value: `panic` is a Rust panic (index out of range,
arithmetic overflow in a checked build, `unwrap`, `assert!`, `unreachable!`), `fail` is a returned `Err(_)`. -/
inductive Err where
  | panic
  | fail
  deriving DecidableEq, Repr, Inhabited

/-- Result of a modelled function. -/
abbrev R (α : Type) := Except Err α

instance [DecidableEq α] : DecidableEq (R α) := fun a b =>
  match a, b with
  | .ok x, .ok y => if h : x = y then isTrue (by rw [h]) else isFalse (by intro e; cases e; exact h rfl)
  | .error x, .error y => if h : x = y then isTrue (by rw [h]) else isFalse (by intro e; cases e; exact h rfl)
  | .ok _, .error _ => isFalse (by intro e; cases e)
  | .error _, .ok _ => isFalse (by intro e; cases e)

/-- `panic!()` -/
abbrev panic' {α : Type} : R α := Except.error Err.panic
/-- `return Err(_)` -/
abbrev fail' {α : Type} : R α := Except.error Err.fail

/-- `assert!(b)` -/
def assert' (b : Bool) : R Unit := if b then .ok () else panic'

/-- Slice indexing `l[i]`: panics out of range. -/
def idx {α : Type} (l : List α) (i : Nat) : R α :=
  match l[i]? with
  | some x => .ok x
  | none => panic'

/-- Slice element assignment `l[i] = v`: panics out of range. -/
def upd {α : Type} (l : List α) (i : Nat) (v : α) : R (List α) :=
  if i < l.length then .ok (l.set i v) else panic'

/-- Unsigned subtraction `a - b`: panics (checked build) when it would underflow. -/
def usub (a b : Nat) : R Nat := if b ≤ a then .ok (a - b) else panic'

/-- `for i in 0..n { s = f(i, s)? }` -/
def forN {σ : Type} (n : Nat) (f : Nat → σ → R σ) (s : σ) : R σ :=
  (List.range n).foldlM (fun s i => f i s) s

/-! ## Bit strings, most significant bit first -/

/-- The low `n` bits of `v`, most significant first. -/
def bitsMSB : Nat → Nat → List Bool
  | 0, _ => []
  | n + 1, v => v.testBit n :: bitsMSB n v

/-- The number whose binary digits, most significant first, are `l`. -/
def natMSB (l : List Bool) : Nat := l.foldl (fun a b => 2 * a + b.toNat) 0

/-- Bits of a byte string, each byte most significant bit first. -/
def bytesMSB (l : List Nat) : List Bool := l.flatMap (bitsMSB 8)

/-- Every element is a byte. -/
def IsBytes (l : List Nat) : Prop := ∀ b ∈ l, b < 256

instance (l : List Nat) : Decidable (IsBytes l) := inferInstanceAs (Decidable (∀ b ∈ l, b < 256))

/-- Every element is a 16 bit sample. -/
def IsU16 (l : List Nat) : Prop := ∀ b ∈ l, b < 65536

instance (l : List Nat) : Decidable (IsU16 l) := inferInstanceAs (Decidable (∀ b ∈ l, b < 65536))

end Verif
