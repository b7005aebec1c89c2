/-! # The data block of Fujifilm RAF files -/

namespace Verif.Spec.Raf

/-- A value of the block -/
inductive Val where
  | shorts (l : List Nat)
  | bytes (l : List Nat)
  | longs (l : List Nat)
  deriving DecidableEq, Repr

/-- A number of two bytes, the most significant first -/
def be2 (n : Nat) : List Nat := [n / 256 % 256, n % 256]

/-- A number of four bytes, the most significant first -/
def be4 (n : Nat) : List Nat := [n / 16777216 % 256, n / 65536 % 256, n / 256 % 256, n % 256]

/-- A number of four bytes, the least significant first -/
def le4 (n : Nat) : List Nat := [n % 256, n / 256 % 256, n / 65536 % 256, n / 16777216 % 256]

/-- An entry of the block: sizes, crop, aspect ratio and white balance are numbers of 16 bits, the layouts are bytes, the tag `0xc000` has numbers of 32 bits in the other byte
order, and other tags are skipped -/
inductive Entry where
  | shorts (tag : Nat) (l : List Nat)
  | bytes (tag : Nat) (l : List Nat)
  | longs (l : List Nat)
  | other (tag : Nat) (l : List Nat)

/-- The tag -/
def Entry.tag : Entry → Nat
  | .shorts t _ => t
  | .bytes t _ => t
  | .longs _ => 0xc000
  | .other t _ => t

/-- The value, if the tag is not skipped -/
def Entry.val : Entry → Option Val
  | .shorts _ l => some (.shorts l)
  | .bytes _ l => some (.bytes l)
  | .longs l => some (.longs l)
  | .other _ _ => none

/-- The bytes of the value -/
def Entry.data : Entry → List Nat
  | .shorts _ l => l.flatMap be2
  | .bytes _ l => l
  | .longs l => l.flatMap le4
  | .other _ l => l

/-- Tags with numbers of 16 bits -/
def shortTags : List Nat := [0x100, 0x110, 0x111, 0x115, 0x2ff0]

/-- Tags with bytes -/
def byteTags : List Nat := [0x130, 0x131]

/-- The tag fits the kind of value, and all numbers fit -/
def Entry.Ok : Entry → Prop
  | .shorts t l => t ∈ shortTags ∧ (∀ v ∈ l, v < 65536) ∧ 2 * l.length < 65536
  | .bytes t l => t ∈ byteTags ∧ l.length < 65536
  | .longs l => (∀ v ∈ l, v < 4294967296) ∧ 4 * l.length < 65536
  | .other t l => t < 65536 ∧ t ∉ shortTags ∧ t ∉ byteTags ∧ t ≠ 0xc000 ∧ l.length < 65536

/-- The bytes of an entry: tag, length and value -/
def Entry.stored (e : Entry) : List Nat := be2 e.tag ++ be2 e.data.length ++ e.data

/-- The bytes of a block: the number of entries, and the entries -/
def stored (es : List Entry) : List Nat := be4 es.length ++ es.flatMap Entry.stored

/-- What a block says about a tag: its last entry counts. -/
def look (es : List Entry) (tag : Nat) : Option Val := ((es.filter fun e => e.tag == tag).getLast?).bind Entry.val

end Verif.Spec.Raf
