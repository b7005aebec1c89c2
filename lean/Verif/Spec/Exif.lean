import Verif.Model.Exif
/-! # Which metadata are carried over to the DNG

Tags and types of the EXIF standard (CIPA DC-008). Tags of the main directory and of the EXIF directory may stand in either of the two. -/

namespace Verif.Spec.Exif
open Verif Verif.Tiff

/-- What may be stored under a tag -/
inductive Kind where
  | short | long | byte | rational | srational
  /-- a string -/
  | text
  /-- a string, carried over without white space at its ends -/
  | trimmed
  /-- any number of signed words -/
  | sshorts
  /-- any number of bytes -/
  | undefined
  | bytes4 | rational3
  deriving DecidableEq, Repr

/-- What is carried over of a value: of numbers, fractions and strings the first one. The outer `none`: the value has another type, and is ignored. -/
def Kind.take (trim : List Nat → List Nat) : Kind → Value → Option (Option Value)
  | .short, .short v => some (v.head?.map fun x => .short [x])
  | .long, .long v => some (v.head?.map fun x => .long [x])
  | .byte, .byte v => some (v.head?.map fun x => .byte [x])
  | .rational, .rational v => some (v.head?.map fun x => .rational [x])
  | .srational, .srational v => some (v.head?.map fun x => .srational [x])
  | .text, .ascii a => some (a.strings.head?.map fun s => .ascii { strings := [s] })
  | .trimmed, .ascii a => some (a.strings.head?.map fun s => .ascii { strings := [trim s] })
  | .sshorts, .sshort v => some (some (.sshort v))
  | .undefined, .undefined v => some (some (.undefined v))
  | .bytes4, .byte v => some (if v.length = 4 then some (.byte v) else none)
  | .rational3, .rational v => some (if v.length = 3 then some (.rational v) else none)
  | _, _ => none

/-- Tags that stand in the main directory of the DNG -/
def mainTable : List (Nat × Kind) :=
  [(0x0112, .short),      -- Orientation
   (0x0132, .text),       -- ModifyDate
   (0x8298, .trimmed),    -- Copyright
   (0x013b, .trimmed)]    -- Artist

/-- Tags that stand in the EXIF directory of the DNG -/
def exifTable : List (Nat × Kind) :=
  [(0x829a, .rational),   -- ExposureTime
   (0x829d, .rational),   -- FNumber
   (0x8822, .short),      -- ExposureProgram
   (0x8827, .short),      -- PhotographicSensitivity
   (0x882a, .sshorts),    -- TimeZoneOffset
   (0x8830, .short),      -- SensitivityType
   (0x8832, .long),       -- RecommendedExposureIndex
   (0x8833, .long),       -- ISOSpeed
   (0x9003, .text),       -- DateTimeOriginal
   (0x9004, .text),       -- DateTimeDigitized
   (0x9010, .text),       -- OffsetTime
   (0x9011, .text),       -- OffsetTimeOriginal
   (0x9012, .text),       -- OffsetTimeDigitized
   (0x9201, .srational),  -- ShutterSpeedValue
   (0x9202, .rational),   -- ApertureValue
   (0x9203, .srational),  -- BrightnessValue
   (0x9204, .srational),  -- ExposureBiasValue
   (0x9205, .rational),   -- MaxApertureValue
   (0x9206, .rational),   -- SubjectDistance
   (0x9207, .short),      -- MeteringMode
   (0x9208, .short),      -- LightSource
   (0x9209, .short),      -- Flash
   (0x920a, .rational),   -- FocalLength
   (0x920b, .rational),   -- FlashEnergy
   (0x9211, .long),       -- ImageNumber
   (0x9286, .trimmed),    -- UserComment (only if stored as a string)
   (0x9290, .text),       -- SubSecTime
   (0x9291, .text),       -- SubSecTimeOriginal
   (0x9292, .text),       -- SubSecTimeDigitized
   (0xa001, .short),      -- ColorSpace
   (0xa402, .short),      -- ExposureMode
   (0xa403, .short),      -- WhiteBalance
   (0xa406, .short),      -- SceneCaptureType
   (0xa40c, .short),      -- SubjectDistanceRange
   (0xa430, .trimmed),    -- CameraOwnerName
   (0xa431, .trimmed),    -- BodySerialNumber
   (0xa435, .trimmed)]    -- LensSerialNumber

/-- Tags of the GPS directory -/
def gpsTable : List (Nat × Kind) :=
  [(0x00, .bytes4),       -- GPSVersionID
   (0x01, .text),         -- GPSLatitudeRef
   (0x02, .rational3),    -- GPSLatitude
   (0x03, .text),         -- GPSLongitudeRef
   (0x04, .rational3),    -- GPSLongitude
   (0x05, .byte),         -- GPSAltitudeRef
   (0x06, .rational),     -- GPSAltitude
   (0x07, .rational3),    -- GPSTimeStamp
   (0x08, .text),         -- GPSSatellites
   (0x09, .text),         -- GPSStatus
   (0x0a, .text),         -- GPSMeasureMode
   (0x0b, .rational),     -- GPSDOP
   (0x0c, .text),         -- GPSSpeedRef
   (0x0d, .rational),     -- GPSSpeed
   (0x0e, .text),         -- GPSTrackRef
   (0x0f, .rational),     -- GPSTrack
   (0x10, .text),         -- GPSImgDirectionRef
   (0x11, .rational),     -- GPSImgDirection
   (0x12, .text),         -- GPSMapDatum
   (0x13, .text),         -- GPSDestLatitudeRef
   (0x14, .rational3),    -- GPSDestLatitude
   (0x15, .text),         -- GPSDestLongitudeRef
   (0x16, .rational3),    -- GPSDestLongitude
   (0x17, .text),         -- GPSDestBearingRef
   (0x18, .rational),     -- GPSDestBearing
   (0x19, .text),         -- GPSDestDistanceRef
   (0x1a, .rational),     -- GPSDestDistance
   (0x1b, .undefined),    -- GPSProcessingMethod
   (0x1c, .undefined),    -- GPSAreaInformation
   (0x1d, .text),         -- GPSDateStamp
   (0x1e, .short),        -- GPSDifferential
   (0x1f, .rational)]     -- GPSHPositioningError

/-- The directories of a raw file -/
structure Source where
  main : List (Nat × Value)
  exif : Option (List (Nat × Value)) := none
  gps : Option (List (Nat × Value)) := none

/-- Directories hold every tag once. -/
def Source.Valid (s : Source) : Prop :=
  (s.main.map (·.1)).Nodup ∧ (∀ d, s.exif = some d → (d.map (·.1)).Nodup) ∧ ∀ d, s.gps = some d → (d.map (·.1)).Nodup

/-- What is carried over of the value that a directory has for a tag -/
def taken (trim : List Nat → List Nat) (kind : Kind) (tag : Nat) (dir : Option (List (Nat × Value))) : Option (Option Value) :=
  (dir.bind fun d => find d tag).bind (kind.take trim)

/-- The value of a tag: that of the EXIF directory, or else that of the main directory. -/
def Source.value (trim : List Nat → List Nat) (s : Source) (tag : Nat) (kind : Kind) : Option Value :=
  match taken trim kind tag s.exif with
  | some r => r
  | none => match taken trim kind tag (some s.main) with
    | some r => r
    | none => none

/-- The value of a GPS tag -/
def Source.gpsValue (s : Source) (tag : Nat) (kind : Kind) : Option Value :=
  match taken id kind tag s.gps with
  | some r => r
  | none => none

/-- What the EXIF directory of the DNG holds for the lens the decoder has identified: focal lengths and apertures, make, model -/
def lensValue (lens : Option Verif.Exif.Lens) (tag : Nat) : Option Value :=
  lens.bind fun l =>
    if tag = 0xa432 then some (.rational [l.focal0, l.focal1, l.aperture0, l.aperture1])
    else if tag = 0xa433 then some (.ascii { strings := [l.make] })
    else if tag = 0xa434 then some (.ascii { strings := [l.model] })
    else none

/-- The EXIF directory of the DNG: its version is 2.20. -/
def Source.exifDir (trim : List Nat → List Nat) (s : Source) (lens : Option Verif.Exif.Lens) (tag : Nat) : Option Value :=
  if tag = 0x9000 then some (.undefined [0x30, 0x32, 0x32, 0x30])
  else match find exifTable tag with
    | some kind => s.value trim tag kind
    | none => lensValue lens tag

/-- The GPS directory of the DNG -/
def Source.gpsDir (s : Source) (tag : Nat) : Option Value := (find gpsTable tag).bind (s.gpsValue tag)

/-! ## What can be written -/

/-- Strings are NUL-free UTF-8. -/
def Str (utf8 : List Nat → Bool) (s : List Nat) : Prop := (∀ x ∈ s, 0 < x ∧ x < 2 ^ 8) ∧ utf8 s

/-- `trim` (the removal of white space at both ends) leaves strings strings, no longer than they were. -/
def TrimOk (utf8 : List Nat → Bool) (trim : List Nat → List Nat) : Prop := ∀ s, Str utf8 s → Str utf8 (trim s) ∧ (trim s).length ≤ s.length

/-- An entry that the TIFF writer can write -/
def Entry (utf8 : List Nat → Bool) (x : Nat × Value) : Prop := x.1 < 2 ^ 16 ∧ Typed utf8 x.2 ∧ Storable x.2 ∧ x.2.count < 2 ^ 32

/-- The entries that a call brings in -/
def given : DirOp → List (Nat × Value)
  | .add t v => [(t, v)]
  | .remove _ => []
  | .copy src => src
  | .copyOverride src => src

/-- The entries for the embedded original -/
def originalValues : Option (List Nat × List Nat × Option (List Nat)) → List (Nat × Value)
  | some (data, name, digest) => [(0xc68c, .undefined data), (0xc68b, .ascii { strings := [name] })] ++ (digest.map fun x => (0xc71d, .byte x)).toList
  | none => []

/-- All entries of the main directory that do not come from the EXIF data -/
def Job.values (j : Verif.Exif.Job) : List (Nat × Value) :=
  j.before.flatMap given ++ j.virtualRoot.getD [] ++ j.tiffRoot.getD [] ++ [(0x0112, .short [j.orientation])] ++
    (j.uniqueId.map fun x => (0xc65d, .byte x)).toList ++ (j.xpacket.map fun x => (0x02bc, .byte x)).toList ++
    originalValues j.original ++
    (j.artist.map fun x => (0x013b, .ascii { strings := [x] })).toList ++
    [(0x0131, .ascii { strings := [j.software] }), (0x0132, .ascii { strings := [j.now] })] ++ (if j.subs = [] then [] else [(0x014a, .long j.subs)])

/-- The rest of the conversion can be written. -/
def JobOk (utf8 : List Nat → Bool) (j : Verif.Exif.Job) : Prop :=
  (∀ o ∈ j.written, Writable utf8 o) ∧ (∀ x ∈ Job.values j, Entry utf8 x) ∧ (Job.values j).length ≤ 4000

/-- The values of a source are those of a readable file, and time zone, processing method and area information are outside the known defects of
the TIFF writer (C18). -/
def Source.Writable (utf8 : List Nat → Bool) (s : Source) : Prop :=
  ∀ d, d = s.main ∨ s.exif = some d ∨ s.gps = some d → ∀ x ∈ d, Typed utf8 x.2 ∧ x.2.count < 2 ^ 32 ∧
    (x.1 = 0x882a ∨ x.1 = 0x1b ∨ x.1 = 0x1c → Storable x.2)

/-- The lens has NUL-free names and 32 bit numbers. -/
def LensOk (utf8 : List Nat → Bool) (l : Verif.Exif.Lens) : Prop :=
  Str utf8 l.make ∧ Str utf8 l.model ∧ l.make.length + 1 < 2 ^ 32 ∧ l.model.length + 1 < 2 ^ 32 ∧
    ∀ x ∈ [l.focal0, l.focal1, l.aperture0, l.aperture1], x.1 < 2 ^ 32 ∧ x.2 < 2 ^ 32

end Verif.Spec.Exif
