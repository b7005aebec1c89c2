import Verif.Model.Jfif
/-! # The parts of a JPEG file

Begin marker, parts, end marker. A part is a marker, a length counting itself, and that much data; a scan is a marker and data in which
a byte 255 only occurs before 0 or as the first half of a restart marker. -/

namespace Verif.Spec.Jfif
open Verif
open Verif.Jfif (App0 App1 Payload Segment jfifMark exifMark xmpMark)

/-- Two bytes, high byte first. -/
def w16 (n : Nat) : List Nat := [n / 256, n % 256]

/-- A piece of the data of a scan. -/
inductive Piece where
  | byte (b : Nat)
  | stuffed
  | restart (k : Nat)

def Piece.bytes : Piece → List Nat
  | .byte b => [b]
  | .stuffed => [255, 0]
  | .restart k => [255, 0xD0 + k]

def Piece.Ok : Piece → Prop
  | .byte b => b < 255
  | .stuffed => True
  | .restart k => k < 8

instance (p : Piece) : Decidable p.Ok := by cases p <;> simp only [Piece.Ok] <;> infer_instance

inductive Part where
  | app0 (version units xdensity ydensity w h : Nat) (thumb : List Nat)
  | exif (tiff : List Nat)
  | xmp (packet : List Nat)
  | app1 (data : List Nat)
  | scan (data : List Piece)
  | other (marker : Nat) (data : List Nat)

/-- The part in the file. -/
def Part.bytes : Part → List Nat
  | .app0 v u xd yd w h t => [0xFF, 0xE0] ++ w16 (16 + t.length) ++ jfifMark ++ w16 v ++ [u] ++ w16 xd ++ w16 yd ++ [w, h] ++ t
  | .exif d => [0xFF, 0xE1] ++ w16 (8 + d.length) ++ exifMark ++ d
  | .xmp d => [0xFF, 0xE1] ++ w16 (31 + d.length) ++ xmpMark ++ d
  | .app1 d => [0xFF, 0xE1] ++ w16 (2 + d.length) ++ d
  | .scan l => [0xFF, 0xDA] ++ l.flatMap Piece.bytes
  | .other m d => [0xFF, m] ++ w16 (2 + d.length) ++ d

/-- Sizes fit their fields and the marker of another part is not one with a meaning of its own. -/
def Part.Ok : Part → Prop
  | .app0 v u xd yd w h t => v < 65536 ∧ u < 256 ∧ xd < 65536 ∧ yd < 65536 ∧ w < 256 ∧ h < 256 ∧ t.length = 3 * w * h ∧ t.length < 65520
  | .exif d => d.length < 65528
  | .xmp d => d.length < 65505
  | .app1 d => d.length < 65534 ∧ ¬exifMark <+: d ∧ ¬xmpMark <+: d ∧ IsBytes d
  | .scan l => ∀ p ∈ l, p.Ok
  | .other m d => d.length < 65534 ∧ 1 < m ∧ m < 255 ∧ ¬(0xD0 ≤ m ∧ m ≤ 0xDA) ∧ m ≠ 0xE0 ∧ m ≠ 0xE1

/-- All parts one after the other. -/
def bytes (parts : List Part) : List Nat := parts.flatMap Part.bytes

/-- A JPEG file, perhaps with something behind it. -/
def file (parts : List Part) (rest : List Nat) : List Nat := [0xFF, 0xD8] ++ bytes parts ++ [0xFF, 0xD9] ++ rest

/-- What is to be reported about a part beginning at position `o`. The TIFF data of an EXIF part begin ten bytes after it. -/
def Reported {D : Type} (tiff : Nat → Option D) (o : Nat) : Part → Segment D → Prop
  | .app0 v u xd yd w h t, s => s = .app0 o ⟨16 + t.length, v, u, xd, yd, w, h, if t = [] then none else some t⟩
  | .exif d, s => ∃ x, tiff (o + 10) = some x ∧ s = .app1 o ⟨8 + d.length, .exif x⟩
  | .xmp d, s => s = .app1 o ⟨31 + d.length, .xpacket d⟩
  | .app1 d, s => s = .app1 o ⟨2 + d.length, .unknown⟩
  | .scan l, s => s = .sos o (l.flatMap Piece.bytes).length
  | .other m _, s => s = .unknown o (0xFF00 + m)

/-- What is to be reported about all parts, the first beginning at `o`. -/
def ReportedAll {D : Type} (tiff : Nat → Option D) : Nat → List Part → List (Segment D) → Prop
  | _, [], l => l = [.eoi]
  | o, p :: ps, s :: l => Reported tiff o p s ∧ ReportedAll tiff (o + p.bytes.length) ps l
  | _, _ :: _, [] => False

/-- A small enough thumbnail. -/
def Small : Part → Prop
  | .app0 _ _ _ _ w h _ => 3 * w * h < 256
  | _ => True

/-- The TIFF directory of an EXIF part at `o` can be read. -/
def Readable {D : Type} (tiff : Nat → Option D) (o : Nat) : Part → Prop
  | .exif _ => (tiff (o + 10)).isSome
  | _ => True

/-- Every part is fine and can be read; the first begins at `o`. -/
def Good {D : Type} (tiff : Nat → Option D) : Nat → List Part → Prop
  | _, [] => True
  | o, p :: ps => p.Ok ∧ Small p ∧ Readable tiff o p ∧ Good tiff (o + p.bytes.length) ps

/-- The XMP packet of a part. -/
def xmpOf : Part → Option (List Nat)
  | .xmp d => some d
  | _ => none

/-- The directory of the first EXIF part. -/
def exifOf {D : Type} (tiff : Nat → Option D) : Nat → List Part → Option D
  | _, [] => none
  | o, .exif _ :: _ => tiff (o + 10)
  | o, p :: ps => exifOf tiff (o + p.bytes.length) ps

end Verif.Spec.Jfif
