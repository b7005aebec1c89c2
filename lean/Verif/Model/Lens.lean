/-! # Finding the lens, lens.rs

The database is a parameter. Log messages and the panic asked for by an environment variable are left out. -/

namespace Verif.Lens

/-- `struct Rational`, formats/tiff/value.rs:12-15. -/
structure Rational where
  n : Nat
  d : Nat
  deriving DecidableEq, Repr

/-- `>=` of `Rational` by `partial_cmp`, formats/tiff/value.rs:28-34. Products of `u32` fit into the `u64`. -/
def Rational.ge (a b : Rational) : Bool := a.n * b.d ≥ a.d * b.n

/-- `<=` of `Rational` by `partial_cmp`, formats/tiff/value.rs:28-34. -/
def Rational.le (a b : Rational) : Bool := a.n * b.d ≤ a.d * b.n

/-- `struct LensDescription` with its `LensIdentifier`, lens.rs:285-327. `aperture` is `aperture_range[0]`. -/
structure Entry where
  name : Option String
  id : Option (Nat × Nat)
  nikonId : Option String
  olympusId : Option String
  mount : String
  make : String
  model : String
  focalMin : Rational
  focalMax : Rational
  aperture : Rational
  deriving DecidableEq, Repr

/-- `struct LensResolver`, lens.rs:26-51, without `lens_info` and `camera_make`, which are not used. -/
structure Query where
  keyname : Option String := none
  make : Option String := none
  model : Option String := none
  id : Option (Nat × Nat) := none
  nikonId : Option String := none
  olympusId : Option String := none
  cameraModel : Option String := none
  mounts : Option (List String) := none
  focal : Option Rational := none
  aperture : Option Rational := none

/-- `Option::is_none_or`. -/
def noneOr {α : Type} (o : Option α) (f : α → Bool) : Bool := match o with | none => true | some a => f a

/-- The filters of `resolve_internal`, lens.rs:228-248. -/
def keeps (q : Query) (e : Entry) : Bool :=
  noneOr q.mounts (fun ms => ms.contains e.mount) &&
  noneOr q.id (fun id => match e.id with | some x => x == id | none => false) &&
  noneOr q.make (fun m => e.make == m) &&
  noneOr q.model (fun m => e.model == m) &&
  noneOr q.focal (fun f => f.ge e.focalMin && f.le e.focalMax) &&
  noneOr q.aperture (fun a => a.ge e.aperture)

/-- The last part of `resolve_internal`, lens.rs:226-265. -/
def byFilter (db : List Entry) (q : Query) : Option Entry :=
  match db.filter (keeps q) with
  | [e] => some e
  | _ => none

/-- `find` by an identifier, where the query has one. -/
def findBy (db : List Entry) (field : Entry → Option String) (o : Option String) : Option Entry :=
  match o with
  | none => none
  | some s => db.find? fun e => field e == some s

/-- `resolve_internal`, lens.rs:202-268. -/
def resolveInternal (db : List Entry) (q : Query) : Option Entry :=
  match findBy db (·.name) (q.keyname.filter fun s => s != "") with
  | some e => some e
  | none =>
    match findBy db (·.nikonId) q.nikonId with
    | some e => some e
    | none =>
      match findBy db (·.olympusId) q.olympusId with
      | some e => some e
      | none => byFilter db q

/-- `resolve`, lens.rs:170-199. -/
def resolve (db : List Entry) (q : Query) : Option Entry :=
  match resolveInternal db q with
  | some e => some e
  | none =>
    match q.id with
    | some (4, sub) => if q.cameraModel = some "*ist DS" ∨ q.cameraModel = some "*ist D" then resolveInternal db { q with id := some (7, sub) } else none
    | _ => none

/-- `with_camera`, lens.rs:83-92: `fixed` is the parameter `fixed_lens_key` of the camera, `model` its clean model. -/
def withCamera (q : Query) (model : String) (fixed : Option String) : Query :=
  { q with cameraModel := some model, keyname := match fixed with | some k => some k | none => q.keyname }

/-- `with_lens_keyname`, lens.rs:94-97. -/
def withKeyname (q : Query) (k : Option String) : Query := { q with keyname := k }

end Verif.Lens
