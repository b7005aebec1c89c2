import Verif.Base
/-! # Cameras and decoders, decoders/mod.rs and decoders/camera.rs

Settings of a camera are read from TOML tables. A table is given here by its names, the file size and three lists: `params`, `color_matrix`, and all
other settings, each of which replaces the one before. What the values are does not matter: they have a type `V`. -/

namespace Verif.Loader
open Verif

variable {V : Type}

/-- A table of the TOML database: a camera or one of its modes. Keys are unique in a TOML table. -/
structure Table (V : Type) where
  make : Option String := none
  model : Option String := none
  mode : Option String := none
  cleanMake : Option String := none
  cleanModel : Option String := none
  filesize : Option Nat := none
  other : List (String × V) := []
  params : List (String × V) := []
  matrix : List (String × V) := []

/-- `struct Camera`, camera.rs:14-47. The defaults of the other settings (camera.rs:258-290) are what `none` stands for. -/
structure Camera (V : Type) where
  make : String
  model : String
  mode : String
  cleanMake : String
  cleanModel : String
  filesize : Nat
  other : String → Option V
  params : String → Option V
  matrix : String → Option V

/-- `Camera::new`, camera.rs:258-290. -/
def Camera.new : Camera V := ⟨"", "", "", "", "", 0, fun _ => none, fun _ => none, fun _ => none⟩

/-- Setting a field, or `HashMap::insert`. -/
def ins {K W : Type} [DecidableEq K] (f : K → Option W) (e : K × W) : K → Option W := fun x => if x = e.1 then some e.2 else f x

/-- `update_from_toml`, camera.rs:109-256. -/
def Camera.update (c : Camera V) (t : Table V) : Camera V where
  make := t.make.getD c.make
  model := t.model.getD c.model
  mode := t.mode.getD c.mode
  cleanMake := t.cleanMake.getD c.cleanMake
  cleanModel := t.cleanModel.getD c.cleanModel
  filesize := t.filesize.getD c.filesize
  other := t.other.foldl ins c.other
  params := t.params.foldl ins c.params
  matrix := t.matrix.foldl ins c.matrix

/-- An entry of `cameras`: base table, `modes` and `model_aliases`. -/
structure Entry (V : Type) where
  base : Table V
  modes : List (Table V) := []
  aliases : List (String × String) := []

/-- The cameras of an entry, mod.rs:845-878. -/
def expand (e : Entry V) : List (Camera V) :=
  let cam := Camera.new.update e.base
  ((cam.model, cam.cleanModel) :: e.aliases).flatMap fun n =>
    (e.base :: e.modes).map fun t => { cam.update t with model := n.1, cleanModel := n.2 }

/-- The key of the camera table, mod.rs:884. -/
def Camera.key (c : Camera V) : String × String × String := (c.make, c.model, c.mode)

/-- `struct RawLoader`, mod.rs:825-829. -/
structure Loader (V : Type) where
  cameras : String × String × String → Option (Camera V)
  naked : Nat → Option (Camera V)

/-- `RawLoader::new`, mod.rs:833-891. -/
def newLoader (db : List (Entry V)) : Loader V :=
  let cams := db.flatMap expand
  { cameras := cams.foldl (fun m c => ins m (c.key, c)) fun _ => none
    naked := cams.foldl (fun m c => if c.filesize > 0 then ins m (c.filesize, c) else m) fun _ => none }

/-- `check_supported_with_everything`, mod.rs:1056-1066. -/
def checkEverything (l : Loader V) (make model mode : String) : R (Camera V) :=
  match l.cameras (make, model, mode) with
  | some c => .ok c
  | none => fail'

/-- `char::is_whitespace`: the characters with the Unicode property White_Space. -/
def isSpace (c : Char) : Bool :=
  let n := c.toNat
  (9 ≤ n && n ≤ 13) || n == 0x20 || n == 0x85 || n == 0xa0 || n == 0x1680 || (0x2000 ≤ n && n ≤ 0x200a) || n == 0x2028 || n == 0x2029 || n == 0x202f ||
    n == 0x205f || n == 0x3000

/-- `str::trim_end`, as used in mod.rs:930, 972, 1069, 1070. -/
def trimEnd (s : String) : String := String.ofList ((s.toList.reverse.dropWhile isSpace).reverse)

/-- `check_supported_with_mode`, mod.rs:1068-1072: `make` and `model` are the strings of the directory, if there are any. -/
def checkMode (l : Loader V) (make model : Option String) (mode : String) : R (Camera V) :=
  match make, model with
  | some make, some model => checkEverything l (trimEnd make) (trimEnd model) mode
  | _, _ => fail'

/-! ## Choice of the decoder -/

inductive Dec | mrw | raf | ari | qtk | crw | mrwJfif | x3f | cr3 | dng | cr2 | pef | iiq | tfr | arw | mef | orf | srw | erf | kdc | dcs | dcr | rw2 | nrw | nef | mos | nkd
  deriving DecidableEq, Repr

/-- `file.subview(0, n)`, rawsource.rs:76-81. -/
def head (file : List Nat) (n : Nat) : Option (List Nat) := if n ≤ file.length then some (file.take n) else none

/-- `is_mrw`, mrw.rs:31-46. -/
def isMrw (file : List Nat) : Bool := head file 4 == some [0, 0x4D, 0x52, 0x4D]
/-- `is_raf`, raf.rs:63-68. -/
def isRaf (file : List Nat) : Bool := head file 8 == some [0x46, 0x55, 0x4A, 0x49, 0x46, 0x49, 0x4C, 0x4D]
/-- `is_ari`, ari.rs:18-23. -/
def isAri (file : List Nat) : Bool := head file 4 == some [0x41, 0x52, 0x52, 0x49]
/-- `is_qtk`, qtk.rs:41-46. -/
def isQtk (file : List Nat) : Bool := head file 4 == some [0x71, 0x6B, 0x74, 0x6B] || head file 4 == some [0x71, 0x6B, 0x74, 0x6E]
/-- `is_ciff`, formats/ciff/mod.rs:41-46. -/
def isCiff (file : List Nat) : Bool := (head file 14).map (·.drop 6) == some [0x48, 0x45, 0x41, 0x50, 0x43, 0x43, 0x44, 0x52]
/-- `is_exif`, formats/jfif.rs:314-322. -/
def isExif (file : List Nat) : Bool := head file 4 == some [0xFF, 0xD8, 0xFF, 0xE1]
/-- `is_x3f`, x3f.rs:6-11. -/
def isX3f (file : List Nat) : Bool := head file 4 == some [0x46, 0x4F, 0x56, 0x62]

/-- What the TIFF reader finds in a file. -/
structure TiffInfo where
  dngVersion : Bool
  model : Option String
  make : Option String
  software : Option String

/-- What the readers say of a file: the make in the EXIF data of a JPEG file (or an error), the brands of a BMFF file, the TIFF directory. -/
structure Probe where
  exifMake : R (Option String)
  brands : Option (List String)
  tiff : Option TiffInfo

/-- The table of makes, mod.rs:976-1005. -/
def makeTable : List (String × Dec) :=
  [("Canon", .cr2), ("PENTAX", .pef), ("PENTAX Corporation", .pef), ("RICOH IMAGING COMPANY, LTD.", .pef), ("Phase One", .iiq), ("Phase One A/S", .iiq),
   ("Leaf", .iiq), ("Hasselblad", .tfr), ("SONY", .arw), ("Mamiya-OP Co.,Ltd.", .mef), ("OLYMPUS IMAGING CORP.", .orf), ("OLYMPUS CORPORATION", .orf),
   ("OLYMPUS OPTICAL CO.,LTD", .orf), ("OM Digital Solutions", .orf), ("SAMSUNG", .srw), ("SEIKO EPSON CORP.", .erf), ("EASTMAN KODAK COMPANY", .kdc),
   ("Eastman Kodak Company", .kdc), ("KODAK", .dcs), ("Kodak", .dcr), ("Panasonic", .rw2), ("LEICA", .rw2), ("LEICA CAMERA AG", .rw2), ("NIKON", .nrw),
   ("Nikon", .nef), ("NIKON CORPORATION", .nef)]

/-- The end of `get_decoder`, mod.rs:1036-1049. -/
def byFilesize (naked : Nat → Bool) (file : List Nat) : R Dec := if naked file.length then .ok .nkd else fail'

/-- The TIFF part of `get_decoder`, mod.rs:950-1034. -/
def chooseTiff (naked : Nat → Bool) (file : List Nat) (t : TiffInfo) : R Dec :=
  if t.dngVersion then .ok .dng
  else if t.model = some "DCS560C" then .ok .cr2
  else match t.make with
    | some make =>
      match makeTable.find? fun x => x.1 == trimEnd make with
      | some x => .ok x.2
      | none => fail'
    | none => if t.software = some "Camera Library" then .ok .mos else byFilesize naked file

/-- `get_decoder` behind the signatures, mod.rs:939-1049. -/
def chooseRest (naked : Nat → Bool) (file : List Nat) (p : Probe) : R Dec :=
  if (p.brands.any fun l => l.contains "crx ") then .ok .cr3
  else match p.tiff with
    | some t => chooseTiff naked file t
    | none => byFilesize naked file

/-- `get_decoder`, mod.rs:899-1049. Making the decoder, which can fail, is left out. -/
def choose (naked : Nat → Bool) (file : List Nat) (p : Probe) : R Dec :=
  if isMrw file then .ok .mrw
  else if isRaf file then .ok .raf
  else if isAri file then .ok .ari
  else if isQtk file then .ok .qtk
  else if isCiff file then .ok .crw
  else if isExif file then
    match p.exifMake with
    | .error e => .error e
    | .ok make => if make.map trimEnd = some "Konica Minolta Photo Imaging, Inc." then .ok .mrwJfif else chooseRest naked file p
  else if isX3f file then .ok .x3f
  else chooseRest naked file p

/-! ## Levels -/

/-- `make_whitelevel`, camera.rs:97-107. -/
def makeWhitelevel (levels : Option (List Nat)) (cpp : Nat) : R (Option (List Nat)) :=
  match levels with
  | none => .ok none
  | some [x] => .ok (some (List.replicate cpp x))
  | some l => if l.length = cpp then .ok (some l) else panic'

/-- `make_blacklevel`, camera.rs:85-95: levels with the width and height of their pattern. -/
def makeBlacklevel (levels : Option (List Nat)) (cfaW cfaH cpp : Nat) : R (Option (List Nat × Nat × Nat)) :=
  match levels with
  | none => .ok none
  | some [x] => .ok (some (List.replicate cpp x, 1, 1))
  | some l => if l.length = cfaW * cfaH * cpp then .ok (some (l, cfaW, cfaH)) else panic'

end Verif.Loader
