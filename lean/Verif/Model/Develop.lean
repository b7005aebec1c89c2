import Verif.Model.Demosaic
import Verif.Model.Color
import Verif.Model.PixArray
/-! # Developing

`RawDevelop::develop_intermediate`, rawler/src/imgop/develop.rs:167-327: from the samples of the sensor to a picture. Numbers are rational as in
`Model/Demosaic` and `Model/Color`. -/

namespace Verif.Develop
open Verif Verif.Pix Verif.Dng Verif.Demosaic Verif.Color

/-- `ProcessingStep`, develop.rs:67-77 -/
inductive Step | rescale | demosaic | fujiRotate | cropActiveArea | whiteBalance | calibrate | cropDefault | srgb
  deriving DecidableEq, Repr

/-- `RawDevelop::default`, develop.rs:126-141 -/
def defaultSteps : List Step := [.rescale, .demosaic, .fujiRotate, .cropActiveArea, .whiteBalance, .calibrate, .cropDefault, .srgb]

/-- `SensorType`, imgop/sensor/mod.rs:22-27 -/
inductive Sensor | bayer | xtrans
  deriving DecidableEq, Repr

/-- `RawPhotometricInterpretation`, rawimage.rs, with the fields of `CFAConfig` that are used -/
inductive Photometric
  | blackIsZero
  | cfa (sensor : Sensor) (pattern : CFA)
  | linear

/-- The fields of `RawImage` that are used; the levels as rational numbers. `extraRotate` is the hint `fuji_rotate_90cw`, `wb` is `none` when the first
coefficient is NaN. -/
structure Photo where
  width : Nat
  height : Nat
  cpp : Nat
  data : List ℚ
  photometric : Photometric
  black : List ℚ
  white : List ℚ
  active : Option Rect
  crop : Option Rect
  fujiWidth : Option Nat
  extraRotate : Bool
  matrices : Illu → Option (List ℚ)
  wb : Option Quad

/-- What the model leaves open: the norm of `Color.clipAvg`, the sRGB curve, `Bilinear4Channel::demosaic`, `fuji_normalize_rotation`. -/
structure Env where
  norm : Rgb → ℚ
  gamma : ℚ → ℚ
  quad : List ℚ → Nat → CFA → Roi → R (List Quad)
  rotate : Pix Rgb → Nat → Bool → R (Pix Rgb)

/-- `Intermediate`, develop.rs:81-86 -/
inductive Inter
  | mono (p : Pix ℚ)
  | three (p : Pix Rgb)
  | four (p : Pix Quad)

/-- `Intermediate::dim`, develop.rs:88-95 -/
def Inter.dim : Inter → Nat × Nat
  | .mono p => (p.width, p.height)
  | .three p => (p.width, p.height)
  | .four p => (p.width, p.height)

/-- One sample, raw.rs:105, 109, 146, 184-187 -/
def level (black white : List ℚ) (k : Nat) (v : ℚ) : ℚ :=
  let d := v - black.getD k 0
  (if d < 0 then 0 else d) / (white.getD k 0 - black.getD k 0)

/-- `as_bayer_array`, rawimage.rs:55-61, 123-138 -/
def bayerLevels (l : List ℚ) : R (List ℚ) :=
  if l.length = 4 then .ok l else do
    let v ← idx l 0
    .ok [v, v, v, v]

/-- `correct_blacklevel`, raw.rs:122-157 -/
def correctLinear (black white raw : List ℚ) : R (List ℚ) :=
  if black.length ≠ white.length then .ok raw
  else if black.length = 0 then panic'
  else .ok (raw.mapIdx fun i v => if i < raw.length / black.length * black.length then level black white (i % black.length) v else v)

/-- `apply_scaling`, rawimage.rs:519-541, in the step of develop.rs:169-171. The levels it resets are not used afterwards. -/
def rescale (steps : List Step) (p : Photo) : R (List ℚ) :=
  if steps.contains .rescale then
    match p.photometric with
    | .blackIsZero => panic'
    | .cfa _ _ => do
      let b ← bayerLevels p.black
      let w ← bayerLevels p.white
      correctBlacklevelCfa (level b w) p.data p.width
    | .linear => correctLinear p.black p.white p.data
  else .ok p.data

/-- Pixels of `n` samples as in develop.rs:175-184, `f` makes a pixel of its samples; the length is asserted (`debug_assert_eq!` from three samples on). -/
def group {α : Type} (n : Nat) (f : List ℚ → α) (data : List ℚ) (w h : Nat) : R (Pix α) := do
  let l ← chunksExact data n
  assert' (decide (l.length = h * w))
  .ok ⟨w, h, l.map f⟩

/-- develop.rs:173-186 -/
def initial (p : Photo) (data : List ℚ) : R Inter :=
  if p.cpp = 1 then do
    assert' (decide (data.length = p.height * p.width))
    .ok (.mono ⟨p.width, p.height, data⟩)
  else if p.cpp = 3 then do
    let q ← group 3 (fun x => ((x.getD 0 0, x.getD 1 0, x.getD 2 0) : Rgb)) data p.width p.height
    .ok (.three q)
  else if p.cpp = 4 then do
    let q ← group 4 (fun x => ((x.getD 0 0, x.getD 1 0, x.getD 2 0, x.getD 3 0) : Quad)) data p.width p.height
    .ok (.four q)
  else panic'

/-- The area that is demosaiced, develop.rs:192-200 -/
def area (steps : List Step) (p : Photo) (w h : Nat) : R Rect :=
  if steps.contains .cropActiveArea then
    if p.active.isSome ∧ p.fujiWidth.isSome then panic' else .ok (p.active.getD ⟨0, 0, w, h⟩)
  else .ok ⟨0, 0, w, h⟩

/-- The pixels of a picture in memory, row by row -/
def pixels (m : Mem) (w h : Nat) : List Rgb := (List.range h).flatMap fun r => (List.range w).map fun c => (m (r, c, 0), m (r, c, 1), m (r, c, 2))

/-- `unique_colors`, cfa.rs:191-193 -/
def uniqueColors (c : CFA) : Nat := c.pattern.eraseDups.length

/-- develop.rs:188-227: `o` is a possible outcome. `PPGDemosaic` runs in threads, see `Demosaic.PpgRuns`; when it cannot finish there is no outcome. -/
def Demosaics (env : Env) (steps : List Step) (p : Photo) (i : Inter) (o : R Inter) : Prop :=
  if steps.contains .demosaic then
    match p.photometric, i with
    | .cfa sensor pattern, .mono px =>
      match area steps p px.width px.height with
      | .error e => o = .error e
      | .ok a =>
        if isRgb pattern = true ∧ sensor = .bayer then
          ∃ m, PpgRuns px.data px.width pattern ⟨a.x, a.y, a.w, a.h⟩ m ∧ o =
            (match steps.contains .fujiRotate, p.fujiWidth with
            | true, some fw => do
              let q ← env.rotate ⟨a.w, a.h, pixels m a.w a.h⟩ fw p.extraRotate
              .ok (.three q)
            | _, _ => .ok (.three ⟨a.w, a.h, pixels m a.w a.h⟩))
        else if uniqueColors pattern = 4 ∧ sensor = .bayer then
          o = do
            let q ← env.quad px.data px.width pattern ⟨a.x, a.y, a.w, a.h⟩
            .ok (.four ⟨a.w, a.h, q⟩)
        else if isRgb pattern = true ∧ sensor = .xtrans then
          o = do
            let q ← Demosaic.xtrans px.data px.width pattern ⟨a.x, a.y, a.w, a.h⟩
            .ok (.three ⟨a.w, a.h, q⟩)
        else o = panic'
    | _, _ => o = .ok i
  else o = .ok i

/-- The step of develop.rs:229-286 -/
def calibrate (env : Env) (steps : List Step) (p : Photo) (i : Inter) : R Inter :=
  if steps.contains .calibrate then do
    let (_, m) ← xyzToCam p.matrices
    let wb := balance p.wb (steps.contains .whiteBalance)
    match i with
    | .mono q => .ok (.mono q)
    | .three q => .ok (.three ⟨q.width, q.height, q.data.map (map3 env.norm m wb)⟩)
    | .four q => .ok (.three ⟨q.width, q.height, q.data.map (map4 env.norm m wb)⟩)
  else .ok i

/-- `Rect::adapt`, imgop/mod.rs:202-211 -/
def adapt (a m : Rect) : R Rect :=
  if m.x ≤ a.x ∧ m.y ≤ a.y ∧ a.w ≤ m.w ∧ a.h ≤ m.h then .ok ⟨a.x - m.x, a.y - m.y, a.w, a.h⟩ else panic'

/-- `Rect::scale(0.5)`, imgop/mod.rs:213-218. Simplified: exact up to 2^24, where `f32` starts to round. -/
def half (a : Rect) : Rect := ⟨a.x / 2, a.y / 2, a.w / 2, a.h / 2⟩

/-- The area to cut out of the demosaiced picture, develop.rs:292-299 -/
def cutArea (steps : List Step) (p : Photo) (c : Rect) : R Rect :=
  match p.active with
  | some a => if steps.contains .demosaic ∧ steps.contains .cropActiveArea then adapt c a else .ok c
  | none => .ok c

/-- The width half of which tells that the picture has half size, develop.rs:300 -/
def fullWidth (p : Photo) : Nat :=
  match p.active with
  | some a => a.w
  | none => p.width

/-- develop.rs:307-311 -/
def cutWith (c : Rect) : Inter → R Inter
  | .mono q => do let q ← q.crop c; .ok (.mono q)
  | .three q => do let q ← q.cropColor c; .ok (.three q)
  | .four q => do let q ← q.cropColor c; .ok (.four q)

/-- The step of develop.rs:288-316 -/
def cropDefault (steps : List Step) (p : Photo) (i : Inter) : R Inter :=
  if steps.contains .cropDefault then
    match p.crop.or p.active with
    | none => .ok i
    | some c => do
      let c ← cutArea steps p c
      let c := if i.dim.1 = fullWidth p / 2 then half c else c
      if (c.w, c.h) ≠ i.dim then cutWith c i else .ok i
  else .ok i

/-- The step of develop.rs:318-324 -/
def srgb (env : Env) (steps : List Step) (i : Inter) : Inter :=
  if steps.contains .srgb then
    match i with
    | .mono q => .mono ⟨q.width, q.height, q.data.map env.gamma⟩
    | .three q => .three ⟨q.width, q.height, q.data.map fun x => (env.gamma x.1, env.gamma x.2.1, env.gamma x.2.2)⟩
    | .four q => .four ⟨q.width, q.height, q.data.map fun x => (env.gamma x.1, env.gamma x.2.1, env.gamma x.2.2.1, env.gamma x.2.2.2)⟩
  else i

/-- After demosaicing -/
def finish (env : Env) (steps : List Step) (p : Photo) (i : Inter) : R Inter := do
  let i ← calibrate env steps p i
  let i ← cropDefault steps p i
  .ok (srgb env steps i)

/-- `develop_intermediate`, develop.rs:167-327: `out` is a possible outcome. -/
def Develops (env : Env) (steps : List Step) (p : Photo) (out : R Inter) : Prop :=
  match (do let d ← rescale steps p; initial p d : R Inter) with
  | .error e => out = .error e
  | .ok i => ∃ o, Demosaics env steps p i o ∧ out = (do let j ← o; finish env steps p j)

end Verif.Develop
