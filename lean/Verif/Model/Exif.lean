import Verif.Model.Tiff
import Verif.Spec.Tiff
/-! # EXIF metadata: read from the raw file, written to the DNG (rawler/src/exif.rs, formats/tiff/writer.rs, dng/convert.rs)

Strings are their UTF-8 bytes, signed numbers their bit patterns, fractions pairs, arrays lists. -/

namespace Verif.Exif
open Verif Verif.Tiff Verif.Spec

/-- `ExifGPS`, exif.rs:65-98 -/
structure Gps where
  gpsVersionId : Option (List Nat) := none
  gpsLatitudeRef : Option (List Nat) := none
  gpsLatitude : Option (List (Nat × Nat)) := none
  gpsLongitudeRef : Option (List Nat) := none
  gpsLongitude : Option (List (Nat × Nat)) := none
  gpsAltitudeRef : Option (Nat) := none
  gpsAltitude : Option (Nat × Nat) := none
  gpsTimestamp : Option (List (Nat × Nat)) := none
  gpsSatellites : Option (List Nat) := none
  gpsStatus : Option (List Nat) := none
  gpsMeasureMode : Option (List Nat) := none
  gpsDop : Option (Nat × Nat) := none
  gpsSpeedRef : Option (List Nat) := none
  gpsSpeed : Option (Nat × Nat) := none
  gpsTrackRef : Option (List Nat) := none
  gpsTrack : Option (Nat × Nat) := none
  gpsImgDirectionRef : Option (List Nat) := none
  gpsImgDirection : Option (Nat × Nat) := none
  gpsMapDatum : Option (List Nat) := none
  gpsDestLatitudeRef : Option (List Nat) := none
  gpsDestLatitude : Option (List (Nat × Nat)) := none
  gpsDestLongitudeRef : Option (List Nat) := none
  gpsDestLongitude : Option (List (Nat × Nat)) := none
  gpsDestBearingRef : Option (List Nat) := none
  gpsDestBearing : Option (Nat × Nat) := none
  gpsDestDistanceRef : Option (List Nat) := none
  gpsDestDistance : Option (Nat × Nat) := none
  gpsProcessingMethod : Option (List Nat) := none
  gpsAreaInformation : Option (List Nat) := none
  gpsDateStamp : Option (List Nat) := none
  gpsDifferential : Option (Nat) := none
  gpsHPositioningError : Option (Nat × Nat) := none

/-- `Exif`, exif.rs:13-62 -/
structure Exif where
  orientation : Option (Nat) := none
  copyright : Option (List Nat) := none
  artist : Option (List Nat) := none
  lensSpec : Option (List (Nat × Nat)) := none
  exposureTime : Option (Nat × Nat) := none
  fnumber : Option (Nat × Nat) := none
  apertureValue : Option (Nat × Nat) := none
  brightnessValue : Option (Nat × Nat) := none
  isoSpeedRatings : Option (Nat) := none
  isoSpeed : Option (Nat) := none
  recommendedExposureIndex : Option (Nat) := none
  sensitivityType : Option (Nat) := none
  exposureBias : Option (Nat × Nat) := none
  dateTimeOriginal : Option (List Nat) := none
  createDate : Option (List Nat) := none
  modifyDate : Option (List Nat) := none
  exposureProgram : Option (Nat) := none
  timezoneOffset : Option (List Nat) := none
  offsetTime : Option (List Nat) := none
  offsetTimeOriginal : Option (List Nat) := none
  offsetTimeDigitized : Option (List Nat) := none
  subSecTime : Option (List Nat) := none
  subSecTimeOriginal : Option (List Nat) := none
  subSecTimeDigitized : Option (List Nat) := none
  shutterSpeedValue : Option (Nat × Nat) := none
  maxApertureValue : Option (Nat × Nat) := none
  subjectDistance : Option (Nat × Nat) := none
  meteringMode : Option (Nat) := none
  lightSource : Option (Nat) := none
  flash : Option (Nat) := none
  focalLength : Option (Nat × Nat) := none
  imageNumber : Option (Nat) := none
  colorSpace : Option (Nat) := none
  flashEnergy : Option (Nat × Nat) := none
  exposureMode : Option (Nat) := none
  whiteBalance : Option (Nat) := none
  sceneCaptureType : Option (Nat) := none
  subjectDistanceRange : Option (Nat) := none
  ownerName : Option (List Nat) := none
  serialNumber : Option (List Nat) := none
  lensSerialNumber : Option (List Nat) := none
  lensMake : Option (List Nat) := none
  lensModel : Option (List Nat) := none
  gps : Option (Gps) := none
  userComment : Option (List Nat) := none

/-- `try_into().ok()` of a vector to an array of `n` -/
def arr {α : Type} (n : Nat) (l : List α) : Option (List α) := if l.length = n then some l else none

/-- One entry of the loop of `extend_from_ifd`, exif.rs:121-176. `trim` is `str::trim`. Tags that are no `ExifTag` match none of the cases. -/
def extendStep (trim : List Nat → List Nat) (e : Exif) (x : Nat × Value) : Exif :=
  match x.1, x.2 with
  | 0x0112, .short data => { e with orientation := data[0]? }
  | 0x8298, .ascii data => { e with copyright := data.strings[0]?.map trim }
  | 0x013b, .ascii data => { e with artist := data.strings[0]?.map trim }
  | 0x829a, .rational data => { e with exposureTime := data[0]? }
  | 0x829d, .rational data => { e with fnumber := data[0]? }
  | 0x9203, .srational data => { e with brightnessValue := data[0]? }
  | 0x9202, .rational data => { e with apertureValue := data[0]? }
  | 0x8827, .short data => { e with isoSpeedRatings := data[0]? }
  | 0x8833, .long data => { e with isoSpeed := data[0]? }
  | 0x8832, .long data => { e with recommendedExposureIndex := data[0]? }
  | 0x8830, .short data => { e with sensitivityType := data[0]? }
  | 0x9204, .srational data => { e with exposureBias := data[0]? }
  | 0x9003, .ascii data => { e with dateTimeOriginal := data.strings[0]? }
  | 0x9004, .ascii data => { e with createDate := data.strings[0]? }
  | 0x0132, .ascii data => { e with modifyDate := data.strings[0]? }
  | 0x8822, .short data => { e with exposureProgram := data[0]? }
  | 0x882a, .sshort data => { e with timezoneOffset := some data }
  | 0x9010, .ascii data => { e with offsetTime := data.strings[0]? }
  | 0x9011, .ascii data => { e with offsetTimeOriginal := data.strings[0]? }
  | 0x9012, .ascii data => { e with offsetTimeDigitized := data.strings[0]? }
  | 0x9290, .ascii data => { e with subSecTime := data.strings[0]? }
  | 0x9291, .ascii data => { e with subSecTimeOriginal := data.strings[0]? }
  | 0x9292, .ascii data => { e with subSecTimeDigitized := data.strings[0]? }
  | 0x9201, .srational data => { e with shutterSpeedValue := data[0]? }
  | 0x9205, .rational data => { e with maxApertureValue := data[0]? }
  | 0x9206, .rational data => { e with subjectDistance := data[0]? }
  | 0x9207, .short data => { e with meteringMode := data[0]? }
  | 0x9208, .short data => { e with lightSource := data[0]? }
  | 0x9209, .short data => { e with flash := data[0]? }
  | 0x920a, .rational data => { e with focalLength := data[0]? }
  | 0x9211, .long data => { e with imageNumber := data[0]? }
  | 0xa001, .short data => { e with colorSpace := data[0]? }
  | 0x920b, .rational data => { e with flashEnergy := data[0]? }
  | 0xa402, .short data => { e with exposureMode := data[0]? }
  | 0xa403, .short data => { e with whiteBalance := data[0]? }
  | 0xa406, .short data => { e with sceneCaptureType := data[0]? }
  | 0xa40c, .short data => { e with subjectDistanceRange := data[0]? }
  | 0xa430, .ascii data => { e with ownerName := data.strings[0]?.map trim }
  | 0xa431, .ascii data => { e with serialNumber := data.strings[0]?.map trim }
  | 0xa435, .ascii data => { e with lensSerialNumber := data.strings[0]?.map trim }
  | 0x9286, .ascii data => { e with userComment := data.strings[0]?.map trim }
  | _, _ => e

/-- `extend_from_ifd`, exif.rs:119-178 -/
def extendFromIfd (trim : List Nat → List Nat) (e : Exif) (ifd : List (Nat × Value)) : Exif := ifd.foldl (extendStep trim) e

/-- The match of `extend_from_gps_ifd`, exif.rs:190-226 -/
def gpsStep (g : Gps) (x : Nat × Value) : Gps :=
  match x.1, x.2 with
  | 0x0000, .byte data => { g with gpsVersionId := arr 4 data }
  | 0x0001, .ascii data => { g with gpsLatitudeRef := data.strings[0]? }
  | 0x0002, .rational data => { g with gpsLatitude := arr 3 data }
  | 0x0003, .ascii data => { g with gpsLongitudeRef := data.strings[0]? }
  | 0x0004, .rational data => { g with gpsLongitude := arr 3 data }
  | 0x0005, .byte data => { g with gpsAltitudeRef := data[0]? }
  | 0x0006, .rational data => { g with gpsAltitude := data[0]? }
  | 0x0007, .rational data => { g with gpsTimestamp := arr 3 data }
  | 0x0008, .ascii data => { g with gpsSatellites := data.strings[0]? }
  | 0x0009, .ascii data => { g with gpsStatus := data.strings[0]? }
  | 0x000a, .ascii data => { g with gpsMeasureMode := data.strings[0]? }
  | 0x000b, .rational data => { g with gpsDop := data[0]? }
  | 0x000c, .ascii data => { g with gpsSpeedRef := data.strings[0]? }
  | 0x000d, .rational data => { g with gpsSpeed := data[0]? }
  | 0x000e, .ascii data => { g with gpsTrackRef := data.strings[0]? }
  | 0x000f, .rational data => { g with gpsTrack := data[0]? }
  | 0x0010, .ascii data => { g with gpsImgDirectionRef := data.strings[0]? }
  | 0x0011, .rational data => { g with gpsImgDirection := data[0]? }
  | 0x0012, .ascii data => { g with gpsMapDatum := data.strings[0]? }
  | 0x0013, .ascii data => { g with gpsDestLatitudeRef := data.strings[0]? }
  | 0x0014, .rational data => { g with gpsDestLatitude := arr 3 data }
  | 0x0015, .ascii data => { g with gpsDestLongitudeRef := data.strings[0]? }
  | 0x0016, .rational data => { g with gpsDestLongitude := arr 3 data }
  | 0x0017, .ascii data => { g with gpsDestBearingRef := data.strings[0]? }
  | 0x0018, .rational data => { g with gpsDestBearing := data[0]? }
  | 0x0019, .ascii data => { g with gpsDestDistanceRef := data.strings[0]? }
  | 0x001a, .rational data => { g with gpsDestDistance := data[0]? }
  | 0x001b, .undefined data => { g with gpsProcessingMethod := some data }
  | 0x001c, .undefined data => { g with gpsAreaInformation := some data }
  | 0x001d, .ascii data => { g with gpsDateStamp := data.strings[0]? }
  | 0x001e, .short data => { g with gpsDifferential := data[0]? }
  | 0x001f, .rational data => { g with gpsHPositioningError := data[0]? }
  | _, _ => g

/-- `extend_from_gps_ifd`, exif.rs:182-229: the GPS tags are the numbers up to 31 (tags.rs:138-171). -/
def extendFromGps (e : Exif) (ifd : List (Nat × Value)) : Exif :=
  ifd.foldl (fun e x => if x.1 ≤ 0x1f then { e with gps := some (gpsStep (e.gps.getD {}) x) } else e) e

/-- `Exif::new`, exif.rs:103-115; the sub-IFDs are those of the tags `ExifOffset` and `GPSInfo`, if there are any. -/
def Exif.new (trim : List Nat → List Nat) (root : List (Nat × Value)) (exif gps : Option (List (Nat × Value))) : Exif :=
  let e := extendFromIfd trim {} root
  let e := match exif with | some d => extendFromIfd trim e d | none => e
  match gps with | some d => extendFromGps e d | none => e

/-- What is used of `LensDescription`, lens.rs:319-334: make, model, focal and aperture range -/
structure Lens where
  make : List Nat
  model : List Nat
  focal0 : Nat × Nat
  focal1 : Nat × Nat
  aperture0 : Nat × Nat
  aperture1 : Nat × Nat

/-- `extend_from_lens`, exif.rs:231-236 -/
def extendFromLens (e : Exif) (l : Lens) : Exif :=
  { e with lensSpec := some [l.focal0, l.focal1, l.aperture0, l.aperture1], lensMake := some l.make, lensModel := some l.model }

/-- The EXIF data of `RawMetadata::new` and `new_with_lens`, decoders/mod.rs:247-270; `trim` is `str::trim` -/
def metadata (trim : List Nat → List Nat) (root : List (Nat × Value)) (exif gps : Option (List (Nat × Value))) (lens : Option Lens) : Exif :=
  match lens with
  | some l => extendFromLens (Exif.new trim root exif gps) l
  | none => Exif.new trim root exif gps

/-- `Value::from` of a string, value.rs:1106-1122 -/
def text (s : List Nat) : Value := .ascii { strings := [s] }

/-- `transfer_entry` and `transfer_entry_undefined`, writer.rs:396-415 -/
def transfer (x : Nat × Option Value) : List DirOp := match x.2 with | some v => [.add x.1 v] | none => []

/-- The calls of `fill_exif_ifd`, writer.rs:292-336 -/
def exifTags (e : Exif) : List (Nat × Option Value) :=
  [(0x829d, e.fnumber.map fun x => .rational [x]),
   (0x9202, e.apertureValue.map fun x => .rational [x]),
   (0x9203, e.brightnessValue.map fun x => .srational [x]),
   (0x9204, e.exposureBias.map fun x => .srational [x]),
   (0x8832, e.recommendedExposureIndex.map fun x => .long [x]),
   (0x829a, e.exposureTime.map fun x => .rational [x]),
   (0x8827, e.isoSpeedRatings.map fun x => .short [x]),
   (0x8833, e.isoSpeed.map fun x => .long [x]),
   (0x8830, e.sensitivityType.map fun x => .short [x]),
   (0x8822, e.exposureProgram.map fun x => .short [x]),
   (0x882a, e.timezoneOffset.map fun x => .sshort x),
   (0x9003, e.dateTimeOriginal.map fun x => text x),
   (0x9004, e.createDate.map fun x => text x),
   (0x9010, e.offsetTime.map fun x => text x),
   (0x9011, e.offsetTimeOriginal.map fun x => text x),
   (0x9012, e.offsetTimeDigitized.map fun x => text x),
   (0x9290, e.subSecTime.map fun x => text x),
   (0x9291, e.subSecTimeOriginal.map fun x => text x),
   (0x9292, e.subSecTimeDigitized.map fun x => text x),
   (0x9201, e.shutterSpeedValue.map fun x => .srational [x]),
   (0x9205, e.maxApertureValue.map fun x => .rational [x]),
   (0x9206, e.subjectDistance.map fun x => .rational [x]),
   (0x9207, e.meteringMode.map fun x => .short [x]),
   (0x9208, e.lightSource.map fun x => .short [x]),
   (0x9209, e.flash.map fun x => .short [x]),
   (0x920a, e.focalLength.map fun x => .rational [x]),
   (0x9211, e.imageNumber.map fun x => .long [x]),
   (0xa001, e.colorSpace.map fun x => .short [x]),
   (0x920b, e.flashEnergy.map fun x => .rational [x]),
   (0xa402, e.exposureMode.map fun x => .short [x]),
   (0xa403, e.whiteBalance.map fun x => .short [x]),
   (0xa406, e.sceneCaptureType.map fun x => .short [x]),
   (0xa40c, e.subjectDistanceRange.map fun x => .short [x]),
   (0xa430, e.ownerName.map fun x => text x),
   (0xa431, e.serialNumber.map fun x => text x),
   (0xa435, e.lensSerialNumber.map fun x => text x),
   (0xa432, e.lensSpec.map fun x => .rational x),
   (0xa433, e.lensMake.map fun x => text x),
   (0xa434, e.lensModel.map fun x => text x),
   (0x9286, e.userComment.map fun x => text x)]

/-- The first calls of `fill_exif_root`, writer.rs:342-345 -/
def rootTags (e : Exif) : List (Nat × Option Value) :=
  [(0x0112, e.orientation.map fun x => .short [x]),
   (0x0132, e.modifyDate.map fun x => text x),
   (0x8298, e.copyright.map fun x => text x),
   (0x013b, e.artist.map fun x => text x)]

/-- The calls for the GPS directory, writer.rs:350-381 -/
def gpsTags (g : Gps) : List (Nat × Option Value) :=
  [(0x0000, g.gpsVersionId.map fun x => .byte x),
   (0x0001, g.gpsLatitudeRef.map fun x => text x),
   (0x0002, g.gpsLatitude.map fun x => .rational x),
   (0x0003, g.gpsLongitudeRef.map fun x => text x),
   (0x0004, g.gpsLongitude.map fun x => .rational x),
   (0x0005, g.gpsAltitudeRef.map fun x => .byte [x]),
   (0x0006, g.gpsAltitude.map fun x => .rational [x]),
   (0x0007, g.gpsTimestamp.map fun x => .rational x),
   (0x0008, g.gpsSatellites.map fun x => text x),
   (0x0009, g.gpsStatus.map fun x => text x),
   (0x000a, g.gpsMeasureMode.map fun x => text x),
   (0x000b, g.gpsDop.map fun x => .rational [x]),
   (0x000c, g.gpsSpeedRef.map fun x => text x),
   (0x000d, g.gpsSpeed.map fun x => .rational [x]),
   (0x000e, g.gpsTrackRef.map fun x => text x),
   (0x000f, g.gpsTrack.map fun x => .rational [x]),
   (0x0010, g.gpsImgDirectionRef.map fun x => text x),
   (0x0011, g.gpsImgDirection.map fun x => .rational [x]),
   (0x0012, g.gpsMapDatum.map fun x => text x),
   (0x0013, g.gpsDestLatitudeRef.map fun x => text x),
   (0x0014, g.gpsDestLatitude.map fun x => .rational x),
   (0x0015, g.gpsDestLongitudeRef.map fun x => text x),
   (0x0016, g.gpsDestLongitude.map fun x => .rational x),
   (0x0017, g.gpsDestBearingRef.map fun x => text x),
   (0x0018, g.gpsDestBearing.map fun x => .rational [x]),
   (0x0019, g.gpsDestDistanceRef.map fun x => text x),
   (0x001a, g.gpsDestDistance.map fun x => .rational [x]),
   (0x001b, g.gpsProcessingMethod.map fun x => .undefined x),
   (0x001c, g.gpsAreaInformation.map fun x => .undefined x),
   (0x001d, g.gpsDateStamp.map fun x => text x),
   (0x001e, g.gpsDifferential.map fun x => .short [x]),
   (0x001f, g.gpsHPositioningError.map fun x => .rational [x])]

/-- What `internal_convert` writes metadata from besides `Exif`: the root IFD calls made before (DNG versions, thumbnail or raw image, make and
model), the writes made before, the orientation of the image, the IFDs of the decoder, the XMP packet, the embedded original (data, name, digest), the
parameters, the time and the sub-IFDs. -/
structure Job where
  before : List DirOp
  written : List WOp
  orientation : Nat
  virtualRoot : Option (List (Nat × Value)) := none
  tiffRoot : Option (List (Nat × Value)) := none
  uniqueId : Option (List Nat) := none
  xpacket : Option (List Nat) := none
  original : Option (List Nat × List Nat × Option (List Nat)) := none
  artist : Option (List Nat) := none
  software : List Nat
  now : List Nat
  subs : List Nat := []

/-- The GPS directory, writer.rs:347-383; none is written if it has no entries -/
def gpsOps (e : Exif) : List DirOp := match e.gps with | some g => (gpsTags g).flatMap transfer | none => []

/-- The EXIF directory: `DngWriter::new` (dng/writer.rs:378), `fill_exif_ifd`, and the removal of the makernotes (dng/convert.rs:215-226),
which are never there. -/
def exifOps (e : Exif) : List DirOp := .add 0x9000 (.undefined [48, 50, 50, 48]) :: ((exifTags e).flatMap transfer ++ [.remove 0x927c])

/-- The root directory up to `load_metadata`, dng/convert.rs:191-192, dng/writer.rs:409-419, writer.rs:338-386 -/
def loadMetadata (e : Exif) (j : Job) (gps : List DirOp) : List DirOp :=
  j.before ++ (rootTags e).flatMap transfer ++ gps ++ transfer (0xc630, e.lensSpec.map fun x => .rational x) ++
    transfer (0xc65d, j.uniqueId.map fun x => .byte x)

/-- dng/convert.rs:193-195 -/
def addOrientation (j : Job) (ops : List DirOp) : List DirOp :=
  if (entriesOf ops).any (fun x => x.1 == 0x0112) then ops else ops ++ [.add 0x0112 (.short [j.orientation])]

/-- `original_file`, dng/writer.rs:450-460 -/
def originalOps (o : Option (List Nat × List Nat × Option (List Nat))) : List DirOp :=
  match o with
  | some (data, name, digest) => [.add 0xc68c (.undefined data), .add 0xc68b (text name)] ++ transfer (0xc71d, digest.map fun x => .byte x)
  | none => []

/-- The rest of the root directory, dng/convert.rs:197-246, dng/writer.rs:434-446 -/
def rootOps (e : Exif) (j : Job) (gps : List DirOp) (exifOffset : Nat) : List DirOp :=
  addOrientation j (loadMetadata e j gps) ++
    (match j.virtualRoot with | some d => [.copy d] | none => []) ++
    (match j.tiffRoot with | some d => [.copy (d.filter fun x => [0xc763, 0xc764, 0xc772].contains x.1)] | none => []) ++
    transfer (0x02bc, j.xpacket.map fun x => .byte x) ++ originalOps j.original ++ transfer (0x013b, j.artist.map text) ++
    [.add 0x0131 (text j.software), .add 0x0132 (text j.now), .add 0x8769 (.long [exifOffset])] ++
    (if j.subs = [] then [] else [.add 0x014a (.long j.subs)])

/-- The metadata part of `internal_convert`, dng/convert.rs:190-248: the finished file. `makernote` handling and image data are in `Job`. -/
def convert (e : Exif) (j : Job) : R (List Nat) := do
  let (t, _) ← runAll (Writer.new { data := [], pos := 0 }) j.written
  let (t, gps) ← (if entriesOf (gpsOps e) = [] then .ok (t, []) else do
    let (t, off) ← t.buildDir (entriesOf (gpsOps e))
    .ok (t, [.add 0x8825 (.long [off])]) : R (Writer × List DirOp))
  let (t, off) ← t.buildDir (entriesOf (exifOps e))
  t.build (entriesOf (rootOps e j gps off))

end Verif.Exif
