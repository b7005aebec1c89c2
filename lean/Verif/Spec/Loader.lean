import Verif.Model.Loader
/-! # What the camera database and the first bytes of a file say (C80) -/

namespace Verif.Spec.Loader
open Verif.Loader

variable {V : Type}

/-- What a list of settings has for a name. -/
def value (l : List (String × V)) (k : String) : Option V :=
  match l with
  | [] => none
  | (a, v) :: l => if a = k then some v else value l k

/-- No name occurs twice, as in every TOML table. -/
def Keyed (t : Table V) : Prop := (t.other.map (·.1)).Nodup ∧ (t.params.map (·.1)).Nodup ∧ (t.matrix.map (·.1)).Nodup

/-- First what the mode says, then what the camera says. -/
def over (mode base : Option V) : Option V := match mode with | some v => some v | none => base

/-- Name and clean name of the camera itself, and of its aliases. -/
def names (e : Entry V) : List (String × String) := ((e.base.model).getD "", (e.base.cleanModel).getD "") :: e.aliases

/-- The camera itself and its modes. -/
def tables (e : Entry V) : List (Table V) := e.base :: e.modes

/-- What is looked for: maker, model and mode. -/
def keyOf (e : Entry V) (n : String × String) (t : Table V) : String × String × String :=
  ((over t.make e.base.make).getD "", n.1, (over t.mode e.base.mode).getD "")

/-- All keys of a camera. -/
def keys (e : Entry V) : List (String × String × String) := (names e).flatMap fun n => (tables e).map (keyOf e n)

/-- Camera `c` is the camera of entry `e` under name `n` in mode `t`: each setting is the mode's, or else the entry's. -/
structure Is (e : Entry V) (n : String × String) (t : Table V) (c : Camera V) : Prop where
  key : (c.make, c.model, c.mode) = keyOf e n t
  cleanMake : c.cleanMake = (over t.cleanMake e.base.cleanMake).getD ""
  cleanModel : c.cleanModel = n.2
  filesize : c.filesize = (over t.filesize e.base.filesize).getD 0
  other : ∀ k, c.other k = over (value t.other k) (value e.base.other k)
  params : ∀ k, c.params k = over (value t.params k) (value e.base.params k)
  matrix : ∀ k, c.matrix k = over (value t.matrix k) (value e.base.matrix k)

/-- The bytes of a text. -/
def bytes (s : String) : List Nat := s.toList.map Char.toNat

/-- The file begins with these bytes. -/
def Begins (file sig : List Nat) : Prop := ∃ rest, file = sig ++ rest

/-- The file has these bytes at a place. -/
def Has (file : List Nat) (at_ : Nat) (sig : List Nat) : Prop := ∃ pre rest, pre.length = at_ ∧ file = pre ++ sig ++ rest

/-- The signature of each container. -/
def signature : List (List Nat × Dec) :=
  [(0 :: bytes "MRM", .mrw), (bytes "FUJIFILM", .raf), (bytes "ARRI", .ari), (bytes "qktk", .qtk), (bytes "qktn", .qtk), (bytes "FOVb", .x3f)]

/-- The first bytes of TIFF files and of the variants Panasonic and Olympus use. -/
def tiffHeads : List (List Nat) :=
  [bytes "II" ++ [42, 0], bytes "MM" ++ [0, 42], bytes "IIRO", bytes "IIRS", bytes "MMOR", bytes "IIU" ++ [0]]

/-- Whose files a decoder reads. -/
def makers : Dec → List String
  | .cr2 => ["Canon"]
  | .pef => ["PENTAX", "PENTAX Corporation", "RICOH IMAGING COMPANY, LTD."]
  | .iiq => ["Phase One", "Phase One A/S", "Leaf"]
  | .tfr => ["Hasselblad"]
  | .arw => ["SONY"]
  | .mef => ["Mamiya-OP Co.,Ltd."]
  | .orf => ["OLYMPUS IMAGING CORP.", "OLYMPUS CORPORATION", "OLYMPUS OPTICAL CO.,LTD", "OM Digital Solutions"]
  | .srw => ["SAMSUNG"]
  | .erf => ["SEIKO EPSON CORP."]
  | .kdc => ["EASTMAN KODAK COMPANY", "Eastman Kodak Company"]
  | .dcs => ["KODAK"]
  | .dcr => ["Kodak"]
  | .rw2 => ["Panasonic", "LEICA", "LEICA CAMERA AG"]
  | .nrw => ["NIKON"]
  | .nef => ["Nikon", "NIKON CORPORATION"]
  | _ => []

/-- The text with white space behind it. -/
def Padded (s t : String) : Prop := ∃ l, (∀ c ∈ l, isSpace c = true) ∧ t.toList = s.toList ++ l

/-- The text does not end in white space. -/
def Tight (s : String) : Prop := ∀ c, s.toList.getLast? = some c → isSpace c = false

end Verif.Spec.Loader
