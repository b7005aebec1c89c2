import Verif.Spec.Bmff
/-! # What looking something up in a CR3 container means -/

namespace Verif.BmffSpec
open Verif.Bmff (Kind)

def Tree.content : Tree → Content | .mk _ _ _ _ c _ _ => c
def Tree.kids : Tree → List Tree | .mk _ _ _ _ _ ks _ => ks
def Tree.tail : Tree → List Nat | .mk _ _ _ _ _ _ t => t

/-- The box of a kind among boxes in a row (the last one, should there be more). -/
def lastOf (k : Kind) (ts : List Tree) : Option Tree := (ts.filter (fun t => t.kind = k)).getLast?

/-- The box at the end of a path of kinds. -/
def follow : List Kind → List Tree → Option Tree
  | [], _ => none
  | [k], ts => lastOf k ts
  | k :: ks, ts => (lastOf k ts).bind fun t => follow ks t.kids

/-- The tracks of a file, in order. -/
def tracks (ts : List Tree) : List Tree :=
  match lastOf .moov ts with
  | some m => m.kids.filter (fun t => t.kind = .trak)
  | none => []

/-- The track records of Canon's description, in order: (image type, unknown, track number). -/
def trackRecords (ts : List Tree) : List (List Nat) :=
  match follow [.moov, .cr3desc, .cctp] ts with
  | some c => (c.kids.filter (fun t => t.kind = .ccdt)).map (fun t => t.content.vals)
  | none => []

end Verif.BmffSpec
