import Verif.Model.CrxImage
import Verif.Spec.CrxFile
import Verif.Proofs.Base
import Mathlib.Tactic.Tauto

/-! The records of a lossless CR3 header are read back with running offsets. -/

namespace Verif.Crx
open CrxSpec

theorem u16be_cons (a b : Nat) (r : List Nat) : u16be (a :: b :: r) = .ok (a * 256 + b, r) := rfl

theorem u32be_be32 (n : Nat) (h : n < 4294967296) (r : List Nat) : u32be (be32 n ++ r) = .ok (n, r) := by
  simp only [be32, List.cons_append, List.nil_append, u32be]
  congr 2; omega

def expSub (off : Nat) (c : Coded) : Sub := { subbandSize := c.size, dataOffset := off, dataSize := c.data.length, width := 0, height := 0 }

def expPlane (off : Nat) (c : Coded) : Plane :=
  { planeSize := c.size, supportPartial := c.ref, mask := 0, dataOffset := off, subbands := [expSub 0 c] }

def expPlanes : Nat → List Coded → List Plane
  | _, [] => []
  | off, c :: cs => expPlane off c :: expPlanes (off + c.size) cs

def expTile (id off : Nat) (planes : List Coded) : Tile :=
  { id, tileSize := (planes.map Coded.size).sum, qp := none, dataOffset := off, tileWidth := 0, tileHeight := 0, planeWidth := 0, planeHeight := 0,
    planes := expPlanes 0 planes }

def expTiles : Nat → Nat → List (List Coded) → List Tile
  | _, _, [] => []
  | id, off, t :: ts => expTile id off t :: expTiles (id + 1) (off + (t.map Coded.size).sum) ts

/-- What the header needs of a band. -/
def Fits (c : Coded) : Prop := c.unused < 2 ^ 19 ∧ c.size < 4294967296

theorem bandFlags (c : Coded) (h : c.unused < 2 ^ 19) :
    ((if c.ref then 0x8000000 else 0) + c.unused) &&& 0x7ffff = c.unused ∧ (if c.ref then 0x8000000 else 0) + c.unused < 4294967296 := by
  rw [show (0x7ffff : Nat) = 2 ^ 19 - 1 from rfl, Nat.and_two_pow_sub_one_eq_mod]
  cases c.ref <;> simp <;> omega

theorem planeFlags : ∀ i < 16, ∀ ref : Bool,
    (i * 0x10000000 + (if ref then 0x8000000 else 0)) < 4294967296 ∧
    (i * 0x10000000 + (if ref then 0x8000000 else 0)) &&& 0x00ffffff = 0 ∧
    ((i * 0x10000000 + (if ref then 0x8000000 else 0)) >>> 25) &&& 3 = 0 ∧
    decide ((i * 0x10000000 + (if ref then 0x8000000 else 0)) &&& 0x8000000 ≠ 0) = ref := by
  decide +kernel

theorem tileFlags : ∀ i < 16, i * 0x10000 < 4294967296 ∧ (i * 0x10000) &&& 0xffff = 0 := by decide +kernel

/-- The next indicator neither continues the bands nor the planes. -/
def Stop (tail : List Nat) (l : List Nat) : Prop := (indOrZero tail).1 ∉ l

theorem sub_ok (c : Coded) (hc : Fits c) (tail : List Nat) (hs : Stop tail [0xff03, 0xff13]) (n : Nat) (hn : 2 ≤ n) :
    subLoop n 0xff03 ([0, 8] ++ (be32 c.size ++ (be32 ((if c.ref then 0x8000000 else 0) + c.unused) ++ tail))) 0 [] =
      .ok ([expSub 0 c], indOrZero tail) := by
  have hf := bandFlags c hc.1
  obtain ⟨fuel, rfl⟩ : ∃ f, n = f + 2 := ⟨n - 2, by omega⟩
  simp only [Stop, List.mem_cons, List.not_mem_nil, or_false, not_or] at hs
  rw [subLoop, if_pos (Or.inl rfl), newSub, List.cons_append, List.cons_append, List.nil_append, u16be_cons]
  simp only [bind, Except.bind]
  rw [u32be_be32 _ hc.2]
  simp only [assert']
  simp only [Nat.reduceMul, Nat.reduceAdd, and_self, true_or, decide_true, if_true, sub03]
  rw [u32be_be32 _ hf.2]
  simp only [bind, Except.bind, hf.1, usub, Coded.size]
  rw [if_pos (by omega)]
  simp only [bind, Except.bind, subLoop]
  rw [if_neg (by tauto)]
  simp [expSub, Coded.size]

theorem indOrZero_record (a b : Nat) (r : List Nat) : indOrZero (a :: b :: r) = (a * 256 + b, r) := rfl

theorem planeRecords_eq (i : Nat) (c : Coded) (cs : List Coded) (tail : List Nat) :
    planeRecords i (c :: cs) ++ tail = 0xff :: 0x02 :: 0 :: 8 :: (be32 c.size ++
        (be32 (i * 0x10000000 + (if c.ref then 0x8000000 else 0)) ++ (0xff :: 0x03 :: ([0, 8] ++ (be32 c.size ++
          (be32 ((if c.ref then 0x8000000 else 0) + c.unused) ++ (planeRecords (i + 1) cs ++ tail))))))) := by
  simp [planeRecords, planeRecord, bandRecord]

theorem newPlane_flags (F size off : Nat) (ref : Bool) (r : List Nat) (hs : size < 4294967296) (hF : F < 4294967296)
    (h0 : F &&& 0x00ffffff = 0) (h1 : (F >>> 25) &&& 3 = 0) (h2 : decide (F &&& 0x8000000 ≠ 0) = ref) :
    newPlane (0 :: 8 :: (be32 size ++ (be32 F ++ r))) off =
      .ok ({ planeSize := size, supportPartial := ref, mask := 0, dataOffset := off, subbands := [] }, r) := by
  subst h2
  rw [newPlane, u16be_cons]
  simp only [bind, Except.bind]
  rw [u32be_be32 _ hs]
  simp only []
  rw [u32be_be32 _ hF]
  simp only [assert', h0, h1, decide_true, if_true, ne_eq, not_true, if_false]

theorem newPlane_ok (i : Nat) (hi : i < 16) (c : Coded) (hc : Fits c) (off : Nat) (r : List Nat) :
    newPlane (0 :: 8 :: (be32 c.size ++ (be32 (i * 0x10000000 + (if c.ref then 0x8000000 else 0)) ++ r))) off =
      .ok ({ planeSize := c.size, supportPartial := c.ref, mask := 0, dataOffset := off, subbands := [] }, r) := by
  have hfl := planeFlags i hi c.ref
  exact newPlane_flags _ _ _ _ _ hc.2 hfl.1 hfl.2.1 hfl.2.2.1 hfl.2.2.2

theorem planes_ok (tail : List Nat) (hs : Stop tail [0xff03, 0xff13, 0xff02, 0xff12]) :
    ∀ (cs : List Coded) (i off : Nat) (acc : List Plane) (fuel : Nat), (∀ c ∈ cs, Fits c) → i + cs.length ≤ 16 → cs.length < fuel →
      planeLoop fuel (indOrZero (planeRecords i cs ++ tail)).1 (indOrZero (planeRecords i cs ++ tail)).2 off acc =
        .ok (acc ++ expPlanes off cs, indOrZero tail) := by
  simp only [Stop, List.mem_cons, List.not_mem_nil, or_false, not_or] at hs
  intro cs
  induction cs with
  | nil =>
    intro i off acc fuel _ _ hf
    obtain ⟨f, rfl⟩ : ∃ f, fuel = f + 1 := ⟨fuel - 1, by simp at hf; omega⟩
    show planeLoop (f + 1) (indOrZero tail).1 (indOrZero tail).2 off acc = _
    rw [planeLoop, if_neg (by tauto)]; simp [expPlanes]
  | cons c cs ih =>
    intro i off acc fuel hc hi hf
    obtain ⟨f, rfl⟩ : ∃ f, fuel = f + 1 := ⟨fuel - 1, by simp at hf; omega⟩
    simp only [List.length_cons] at hi hf
    have hcf := hc c (by simp)
    have hstop : Stop (planeRecords (i + 1) cs ++ tail) [0xff03, 0xff13] := by
      cases cs with
      | nil => simp only [Stop, planeRecords, List.nil_append, List.mem_cons, List.not_mem_nil, or_false, not_or]; tauto
      | cons d ds => simp [Stop, planeRecords, planeRecord, indOrZero]
    rw [planeRecords_eq, indOrZero_record, planeLoop, if_pos (Or.inl rfl), newPlane_ok i (by omega) c hcf]
    simp only [bind, Except.bind, u16be_cons]
    rw [show 255 * 256 + 3 = 0xff03 from rfl, sub_ok c hcf (planeRecords (i + 1) cs ++ tail) hstop _ (by simp)]
    simp only []
    rw [ih (i + 1) (off + c.size) _ f (fun d hd => hc d (by simp [hd])) (by omega) (by omega)]
    simp [expPlanes, expPlane]

theorem planeRecords_len : ∀ (cs : List Coded) (i : Nat), cs.length ≤ (planeRecords i cs).length
  | [], _ => by simp
  | c :: cs, i => by
    have := planeRecords_len cs (i + 1)
    simp only [planeRecords, planeRecord, bandRecord, List.length_append, List.length_cons, List.length_nil]; omega

theorem tiles_ok (marker : List Nat) (hm : marker = [] ∨ ∃ t, marker = 0 :: 0 :: t) :
    ∀ (ts : List (List Coded)) (id off : Nat) (acc : List Tile) (fuel : Nat),
      (∀ t ∈ ts, t ≠ [] ∧ t.length ≤ 16 ∧ (t.map Coded.size).sum < 4294967296 ∧ ∀ c ∈ t, Fits c) → acc.length = id → ts.length < fuel →
      tileLoop fuel (indOrZero (tileRecords id ts ++ marker)).1 (indOrZero (tileRecords id ts ++ marker)).2 off acc =
        .ok (acc ++ expTiles id off ts) := by
  have hm0 : (indOrZero marker).1 = 0 := by
    rcases hm with rfl | ⟨t, rfl⟩ <;> rfl
  intro ts
  induction ts with
  | nil =>
    intro id off acc fuel _ _ hf
    obtain ⟨f, rfl⟩ : ∃ f, fuel = f + 1 := ⟨fuel - 1, by simp at hf; omega⟩
    show tileLoop (f + 1) (indOrZero marker).1 (indOrZero marker).2 off acc = _
    rw [tileLoop, if_neg (by omega), if_pos hm0]; simp [expTiles]
  | cons t ts ih =>
    intro id off acc fuel ht hid hf
    obtain ⟨f, rfl⟩ : ∃ f, fuel = f + 1 := ⟨fuel - 1, by simp at hf; omega⟩
    simp only [List.length_cons] at hf
    obtain ⟨hne, h16, hsum, hfit⟩ := ht t (by simp)
    have hfl := tileFlags (id % 16) (Nat.mod_lt _ (by omega))
    have hstop : Stop (tileRecords (id + 1) ts ++ marker) [0xff03, 0xff13, 0xff02, 0xff12] := by
      cases ts with
      | nil => simp [Stop, tileRecords, hm0]
      | cons d ds => simp [Stop, tileRecords, tileRecord, indOrZero]
    have e : tileRecords id (t :: ts) ++ marker = 0xff :: 0x01 :: 0 :: 8 :: (be32 (t.map Coded.size).sum ++
        (be32 (id % 16 * 0x10000) ++ (planeRecords 0 t ++ (tileRecords (id + 1) ts ++ marker)))) := by
      simp [tileRecords, tileRecord]
    rw [e, indOrZero_record, tileLoop, if_pos (Or.inl rfl), newTile, u16be_cons]
    simp only [bind, Except.bind]
    rw [u32be_be32 _ hsum]
    simp only [bind, Except.bind]
    rw [u32be_be32 _ hfl.1]
    simp only [tileQp, Nat.zero_mul, Nat.zero_add]
    rw [if_neg (by omega)]
    simp only [assert', bind, Except.bind, hfl.2]
    simp only [and_self, true_or, decide_true, if_true]
    obtain ⟨c, cs, rfl⟩ : ∃ c cs, t = c :: cs := by cases t with
      | nil => exact absurd rfl hne
      | cons c cs => exact ⟨c, cs, rfl⟩
    have e2 : u16be (planeRecords 0 (c :: cs) ++ (tileRecords (id + 1) ts ++ marker)) =
        .ok (indOrZero (planeRecords 0 (c :: cs) ++ (tileRecords (id + 1) ts ++ marker))) := by
      simp [planeRecords, planeRecord, u16be, indOrZero]
    rw [e2]
    simp only []
    have hlen : (c :: cs).length < (indOrZero (planeRecords 0 (c :: cs) ++ (tileRecords (id + 1) ts ++ marker))).2.length + 1 := by
      have := planeRecords_len cs 1
      simp only [planeRecords, planeRecord, bandRecord, List.cons_append, indOrZero, List.length_append, List.length_cons]
      simp only [List.nil_append, be32, Nat.reduceAdd, List.length_append, List.length_cons] at *; omega
    rw [planes_ok _ hstop (c :: cs) 0 0 [] _ hfit (by simp at h16 ⊢; omega) hlen]
    simp only [List.nil_append]
    rw [ih (id + 1) _ _ f (fun d hd => ht d (by simp [hd])) (by simp [hid]) (by omega)]
    simp [expTiles, expTile, hid]

theorem tileRecords_len : ∀ (ts : List (List Coded)) (id : Nat), ts.length ≤ (tileRecords id ts).length
  | [], _ => by simp
  | t :: ts, id => by
    have := tileRecords_len ts (id + 1)
    simp only [tileRecords, tileRecord, List.length_append, List.length_cons, List.length_nil]; omega

theorem parseHeader_ok (ts : List (List Coded)) (hne : ts ≠ []) (marker : List Nat) (hm : marker = [] ∨ ∃ t, marker = 0 :: 0 :: t)
    (h : ∀ t ∈ ts, t ≠ [] ∧ t.length ≤ 16 ∧ (t.map Coded.size).sum < 4294967296 ∧ ∀ c ∈ t, Fits c) :
    parseHeader (tileRecords 0 ts ++ marker) = .ok (expTiles 0 0 ts) := by
  have e : u16be (tileRecords 0 ts ++ marker) = .ok (indOrZero (tileRecords 0 ts ++ marker)) := by
    cases ts with
    | nil => exact absurd rfl hne
    | cons t ts => simp [tileRecords, tileRecord, u16be, indOrZero]
  rw [parseHeader, e]
  simp only [bind, Except.bind]
  rw [tiles_ok marker hm ts 0 0 [] _ h rfl (by have := tileRecords_len ts 0; simp; omega)]
  rfl

end Verif.Crx
