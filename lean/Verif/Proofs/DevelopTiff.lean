import Verif.Model.DevelopTiff
import Verif.Spec.DevelopTiff
import Verif.Proofs.ExifRoot
import Verif.Proofs.Holds
import Mathlib.Data.Rat.Floor
import Mathlib.Tactic.Linarith
import Mathlib.Tactic.NormNum
import Mathlib.Tactic.Ring
/-! # The TIFF file of a developed picture -/

namespace Verif.DevelopTiff
open Verif Verif.Tiff Verif.Spec Verif.Spec.Exif Verif.Exif Verif.Develop Verif.Strips Verif.Spec.DevelopTiff

/-! ## Samples -/

theorem scale16_lt (p : ℚ) : scale16 p < 65536 := by unfold scale16; omega

theorem scale16_ok (p : ℚ) : Sixteen p (scale16 p) := by
  have hf : (p * 65535).floor = ⌊p * 65535⌋ := rfl
  refine ⟨fun h => ?_, fun h => ?_, fun h0 h1 => ?_⟩
  · have h2 : p * 65535 ≤ 0 := by linarith
    have h3 : ⌊p * 65535⌋ ≤ 0 := by
      have := Int.floor_le (p * 65535)
      have h4 : (⌊p * 65535⌋ : ℚ) ≤ 0 := le_trans this h2
      exact_mod_cast h4
    unfold scale16
    rw [hf]; omega
  · have h2 : (65535 : ℚ) ≤ p * 65535 := by linarith
    have h3 : (65535 : ℤ) ≤ ⌊p * 65535⌋ := Int.le_floor.2 (by exact_mod_cast h2)
    unfold scale16
    rw [hf]; omega
  · have h2 : (0 : ℚ) ≤ p * 65535 := by linarith
    have h3 : p * 65535 ≤ 65535 := by linarith
    have h4 : (0 : ℤ) ≤ ⌊p * 65535⌋ := Int.floor_nonneg.2 h2
    have h5 : ⌊p * 65535⌋ ≤ 65535 := by
      have := le_trans (Int.floor_le (p * 65535)) h3
      exact_mod_cast this
    have h6 : ((scale16 p : ℕ) : ℤ) = ⌊p * 65535⌋ := by
      unfold scale16
      rw [hf]; omega
    have h7 : ((scale16 p : ℕ) : ℚ) = (⌊p * 65535⌋ : ℚ) := by
      rw [← h6]; push_cast; rfl
    rw [h7]
    exact ⟨Int.floor_le _, Int.lt_floor_add_one _⟩

theorem flat_get {α β : Type} (enc : α → List β) (n : Nat) (hl : ∀ x, (enc x).length = n) (l : List α) (i k : Nat) (hk : k < n) :
    (l.flatMap enc)[i * n + k]? = l[i]?.bind fun x => (enc x)[k]? := by
  induction l generalizing i with
  | nil => simp
  | cons a l ih =>
    rw [List.flatMap_cons]
    cases i with
    | zero =>
      rw [Nat.zero_mul, Nat.zero_add, List.getElem?_append_left (by rw [hl]; exact hk)]
      rfl
    | succ i =>
      rw [List.getElem?_append_right (by rw [hl, Nat.succ_mul]; omega), hl, show (i + 1) * n + k - n = i * n + k by rw [Nat.succ_mul]; omega, ih]
      rfl

theorem flat_length {α β : Type} (enc : α → List β) (n : Nat) (hl : ∀ x, (enc x).length = n) (l : List α) : (l.flatMap enc).length = l.length * n := by
  induction l with
  | nil => simp
  | cons a l ih => rw [List.flatMap_cons, List.length_append, hl, ih, List.length_cons, Nat.succ_mul, Nat.add_comm]

/-- The samples of the picture in order -/
theorem samples_ok {i : Inter} {w h n : Nat} {f : Nat → Nat → Nat → ℚ} (hs : Shows i w h n f) :
    channels i = n ∧ i.dim = (w, h) ∧ 0 < n ∧ (samples i).length = h * (w * n) ∧
      (∀ x ∈ samples i, x < 65536) ∧
      ∀ r c k, r < h → c < w → k < n → (samples i)[(r * w + c) * n + k]? = some (scale16 (f r c k)) := by
  cases i with
  | mono p =>
    obtain ⟨rfl, rfl, rfl, hd, hg⟩ := hs
    refine ⟨rfl, rfl, Nat.one_pos, by simp [samples, hd], ?_, ?_⟩
    · intro x hx
      obtain ⟨y, _, rfl⟩ := List.mem_map.1 hx
      exact scale16_lt y
    · intro r c k hr hc hk
      obtain rfl : k = 0 := by omega
      rw [samples, List.getElem?_map, Nat.mul_one, Nat.add_zero, hg r c hr hc]
      rfl
  | three p =>
    obtain ⟨rfl, rfl, rfl, hd, hg⟩ := hs
    refine ⟨rfl, rfl, by decide, ?_, ?_, ?_⟩
    · rw [samples, List.length_map, flat_length _ 3 (fun _ => rfl), hd, Nat.mul_assoc]
    · intro x hx
      obtain ⟨y, _, rfl⟩ := List.mem_map.1 hx
      exact scale16_lt y
    · intro r c k hr hc hk
      rw [samples, List.getElem?_map, flat_get _ 3 (fun _ => rfl) _ _ _ hk, hg r c hr hc]
      obtain rfl | rfl | rfl : k = 0 ∨ k = 1 ∨ k = 2 := by omega
      all_goals rfl
  | four p =>
    obtain ⟨rfl, rfl, rfl, hd, hg⟩ := hs
    refine ⟨rfl, rfl, by decide, ?_, ?_, ?_⟩
    · rw [samples, List.length_map, flat_length _ 4 (fun _ => rfl), hd, Nat.mul_assoc]
    · intro x hx
      obtain ⟨y, _, rfl⟩ := List.mem_map.1 hx
      exact scale16_lt y
    · intro r c k hr hc hk
      rw [samples, List.getElem?_map, flat_get _ 4 (fun _ => rfl) _ _ _ hk, hg r c hr hc]
      obtain rfl | rfl | rfl | rfl : k = 0 ∨ k = 1 ∨ k = 2 ∨ k = 3 := by omega
      all_goals rfl

/-! ## Strips -/

theorem strips_count (h m rows : Nat) (hm : 0 < m) (hr : 0 < rows) : (h * m + m * rows - 1) / (m * rows) = (h + rows - 1) / rows := by
  rw [← Nat.div_div_eq_div_mul]
  congr 1
  rw [show h * m + m * rows - 1 = (h + rows - 1) * m + (m - 1) by
    have : (h + rows - 1 + 1) * m = h * m + m * rows := by
      rw [show h + rows - 1 + 1 = h + rows by omega, Nat.add_mul, Nat.mul_comm rows m]
    rw [Nat.succ_mul] at this
    omega]
  rw [Nat.add_comm, Nat.add_mul_div_right _ _ hm, Nat.div_eq_of_lt (by omega), Nat.zero_add]

/-- The strips before compression -/
def stripBytes (data : List Nat) (m count : Nat) : List (List Nat) := (List.range count).map fun s => ((data.drop (s * m)).take m).flatMap le16

theorem putBlocks_eq (bs : List (List Nat)) (t : Writer) :
    ∃ offs, runAll t (bs.map WOp.data) = .ok ((putBlocks t bs).1, offs) ∧ (putBlocks t bs).2.map (·.1) = offs ∧
      (putBlocks t bs).2.map (·.2) = bs.map (fun b => b.length % 2 ^ 32) ∧ (∀ o ∈ offs, o < 2 ^ 32) := by
  induction bs generalizing t with
  | nil => exact ⟨[], rfl, rfl, rfl, by simp⟩
  | cons b bs ih =>
    obtain ⟨offs, h1, h2, h3, h4⟩ := ih (t.writeData b).1
    refine ⟨(t.writeData b).2 :: offs, ?_, ?_, ?_, ?_⟩
    · rw [List.map_cons, runAll]
      simp only [WOp.run, bind, Except.bind]
      rw [h1]
      rfl
    · rw [putBlocks]
      simp only [List.map_cons, h2]
    · rw [putBlocks]
      simp only [List.map_cons, h3]
    · intro o ho
      rcases List.mem_cons.1 ho with rfl | ho
      · exact Nat.mod_lt _ (by decide)
      · exact h4 o ho

theorem writeStrips_eq (lzw : List Nat → List Nat) (t : Writer) (data : List Nat) (w h n : Nat) (hw : 0 < w) (hh : 0 < h) (hn : 0 < n)
    (hd : data.length = h * (w * n)) :
    writeStripsLzw lzw t data n w h 0 = .ok ((putBlocks t ((stripBytes data (w * n * stripLines h 0) ((h + stripLines h 0 - 1) / stripLines h 0)).map lzw)).1,
      stripLines h 0, (putBlocks t ((stripBytes data (w * n * stripLines h 0) ((h + stripLines h 0 - 1) / stripLines h 0)).map lzw)).2) := by
  have hr : 0 < stripLines h 0 := by unfold stripLines; split <;> (try split) <;> omega
  have hr2 : stripLines h 0 ≤ 256 := by unfold stripLines; split <;> (try split) <;> omega
  rw [writeStripsLzw, show (stripLines h 0 != 0) = true by simp; omega]
  have hm : 0 < w * n * stripLines h 0 := Nat.mul_pos (Nat.mul_pos hw hn) hr
  simp only [assert', if_true, bind, Except.bind]
  rw [show n * w * stripLines h 0 = w * n * stripLines h 0 by rw [Nat.mul_comm n w], chunks, if_neg (by omega), hd,
    strips_count h (w * n) _ (Nat.mul_pos hw hn) hr]
  simp only [List.map_map, stripBytes, Function.comp_def]
  rw [Nat.mod_eq_of_lt (by omega)]

/-- Where a sample is found in its strip -/
theorem strip_sample (data : List Nat) (w h n rows r c k : Nat) (hr : r < h) (hc : c < w) (hk : k < n) (hrows : 0 < rows)
    (hb : ∀ x ∈ data, x < 65536) (v : Nat) (hv : data[(r * w + c) * n + k]? = some v) :
    ∃ b, (stripBytes data (w * n * rows) ((h + rows - 1) / rows))[r / rows]? = some b ∧
      b[2 * ((r % rows * w + c) * n + k)]? = some (v % 256) ∧ b[2 * ((r % rows * w + c) * n + k) + 1]? = some (v / 256 % 256) := by
  have hlt : r / rows < (h + rows - 1) / rows := by
    have h1 : (r + rows) / rows ≤ (h + rows - 1) / rows := Nat.div_le_div_right (by omega)
    rw [Nat.add_div_right r hrows] at h1
    omega
  have hq := Nat.div_add_mod r rows
  have hmod := Nat.mod_lt r hrows
  generalize r / rows = s at *
  generalize r % rows = q at *
  have hj : (q * w + c) * n + k < w * n * rows := by
    have h1 : (q * w + c) * n + k < (q * w + c + 1) * n := by rw [Nat.succ_mul]; omega
    have h2 : q * w + c + 1 ≤ rows * w := by
      have := Nat.mul_le_mul_right w (show q + 1 ≤ rows by omega)
      rw [Nat.succ_mul] at this
      omega
    have h3 := Nat.mul_le_mul_right n h2
    rw [show w * n * rows = rows * w * n by rw [Nat.mul_comm (w * n), Nat.mul_assoc]]
    omega
  have hat : ((data.drop (s * (w * n * rows))).take (w * n * rows))[(q * w + c) * n + k]? = some v := by
    rw [List.getElem?_take_of_lt hj, List.getElem?_drop, ← hv]
    congr 1
    rw [← hq]
    ring
  have hlen : ∀ x, (le16 x).length = 2 := fun _ => rfl
  refine ⟨_, by rw [stripBytes, List.getElem?_map, List.getElem?_range hlt]; rfl, ?_, ?_⟩
  · have := flat_get le16 2 hlen ((data.drop (s * (w * n * rows))).take (w * n * rows)) ((q * w + c) * n + k) 0 (by decide)
    rw [hat] at this
    rw [show 2 * ((q * w + c) * n + k) = ((q * w + c) * n + k) * 2 + 0 by omega, this]
    rfl
  · have := flat_get le16 2 hlen ((data.drop (s * (w * n * rows))).take (w * n * rows)) ((q * w + c) * n + k) 1 (by decide)
    rw [hat] at this
    rw [show 2 * ((q * w + c) * n + k) + 1 = ((q * w + c) * n + k) * 2 + 1 by omega, this]
    rfl

theorem strip_bytes (data : List Nat) (m count : Nat) : ∀ b ∈ stripBytes data m count, ∀ x ∈ b, x < 256 := by
  intro b hb x hx
  obtain ⟨s, _, rfl⟩ := List.mem_map.1 hb
  obtain ⟨v, _, hv⟩ := List.mem_flatMap.1 hx
  simp only [le16, List.mem_cons, List.not_mem_nil, or_false] at hv
  omega

/-! ## Directories -/

theorem exifDir_entries (e : Exif) : entriesOf (exifDirOps e) = entriesOf (exifOps e) := by
  have h1 : entriesOf (exifOps e) = removeTag 0x927c (entriesOf (exifDirOps e)) := by
    show (DirOp.add 0x9000 _ :: ((exifTags e).flatMap transfer ++ [DirOp.remove 0x927c])).foldl applyDirOp [] = _
    rw [← List.cons_append, List.foldl_append]
    rfl
  rw [h1, removeTag, List.filter_eq_self.2]
  intro x hx
  have hx := entries_mem _ x hx
  rw [exifDirOps, List.flatMap_cons, transfer_given] at hx
  have : x.1 ∈ 0x9000 :: (exifTags {}).map (·.1) := by
    rcases List.mem_append.1 hx with hx | hx
    · rw [List.mem_singleton.1 hx]; exact List.mem_cons_self
    · obtain ⟨y, hy, hx⟩ := List.mem_flatMap.1 hx
      rw [Option.mem_toList] at hx
      obtain ⟨v, _, rfl⟩ := Option.map_eq_some_iff.1 hx
      refine List.mem_cons_of_mem _ ?_
      show y.1 ∈ (exifTags e).map (·.1)
      exact List.mem_map.2 ⟨y, hy, rfl⟩
  have key : ∀ t ∈ 0x9000 :: (exifTags {}).map (·.1), t ≠ 0x927c := by decide
  simpa using key _ this

theorem exifDir_map (e : Exif) : mapOf (exifDirOps e) = mapOf (exifOps e) := by
  funext k
  rw [← (entriesOf_spec (exifDirOps e)).2, ← (entriesOf_spec (exifOps e)).2, exifDir_entries]

section
variable (utf8 : List Nat → Bool) (trim : List Nat → List Nat) (ht : TrimOk utf8 trim) (s : Source) (hv : s.Valid)
    (hs : s.Writable utf8) (lens : Option Lens) (hl : ∀ l, lens = some l → LensOk utf8 l)
include ht hv hs hl

theorem exif_writable : WritableDir utf8 (exifDirOps (metadata trim s.main s.exif s.gps lens)) := by
  generalize he : metadata trim s.main s.exif s.gps lens = e
  have hex : mapOf (exifDirOps e) = s.exifDir trim lens := by rw [exifDir_map, ← he]; exact exifOps_map trim s hv lens
  refine writable_of utf8 _ 0x9000 (by rw [hex]; simp [Source.exifDir]) ?_ ?_
  · have := fields_length (exifTags e)
    have h40 : (exifTags e).length = 40 := rfl
    simp only [exifDirOps, List.flatMap_cons, List.length_append, given, List.length_cons, List.length_nil]
    omega
  · intro x hx
    simp only [exifDirOps, List.flatMap_cons, List.mem_append, given, List.mem_singleton] at hx
    rcases hx with rfl | hx
    · refine ⟨by show (0x9000 : Nat) < 2 ^ 16; decide, ?_, by show 0 < 4; decide, by show 4 < 2 ^ 32; decide⟩
      intro y hy
      simp only [List.mem_cons, List.not_mem_nil, or_false] at hy
      rcases hy with rfl | rfl | rfl | rfl <;> decide
    · rw [← he, metadata_exif trim s hv lens] at hx
      exact fields_entries utf8 _ (by decide) _ (fun t r h => wantExif_good utf8 trim ht s hs lens hl t r h) x hx

omit ht hl in
theorem gps_writable (hne : entriesOf (gpsOps (metadata trim s.main s.exif s.gps lens)) ≠ []) :
    WritableDir utf8 (gpsOps (metadata trim s.main s.exif s.gps lens)) := by
  generalize he : metadata trim s.main s.exif s.gps lens = e at *
  refine ⟨hne, ?_, ?_⟩
  · have h1 := foldl_length (gpsOps e) []
    have h2 := fields_length (gfields e)
    have h32 : (gfields e).length = 32 := rfl
    rw [← gpsOps_eq] at h2
    show ((gpsOps e).foldl applyDirOp []).length ≤ 4096
    rw [List.length_nil] at h1
    omega
  · intro x hx
    have hx := entries_mem _ x hx
    rw [gpsOps_eq, ← he, metadata_gps trim s hv lens] at hx
    exact fields_entries utf8 _ (by decide) _ (fun t r h => gpsWant_good utf8 s hs t r h) x hx

end

/-- The directories written first -/
def dirs (e : Exif) : List WOp := (if entriesOf (gpsOps e) = [] then [] else [.dir (gpsOps e)]) ++ [.dir (exifDirOps e)]

/-- Developing is a session of the TIFF writer. -/
theorem develop_session (utf8 : List Nat → Bool) (lzw : List Nat → List Nat) (i : Inter) (e : Exif) (make model : List Nat) (orientation w h n : Nat)
    (f : Nat → Nat → Nat → ℚ) (hi : Shows i w h n f) (hw : 0 < w) (hh : 0 < h) (hd : ∀ o ∈ dirs e, Writable utf8 o)
    (blocks : List (List Nat)) (hbl : blocks = (stripBytes (samples i) (w * n * stripLines h 0) ((h + stripLines h 0 - 1) / stripLines h 0)).map lzw) :
    ∃ (gps : List DirOp) (off : Nat) (strips : List Nat), off < 2 ^ 32 ∧
      (if entriesOf (gpsOps e) = [] then gps = [] else ∃ g, g < 2 ^ 32 ∧ gps = [.add 0x8825 (.long [g])]) ∧
      (∀ o ∈ strips, o < 2 ^ 32) ∧ strips.length = blocks.length ∧
      ∀ F offs, session (dirs e ++ blocks.map WOp.data) (rootOps e make model orientation gps off
          (imageTags i (stripLines h 0) (strips.zip (blocks.map fun b => b.length % 2 ^ 32)))) = .ok (F, offs) →
        developTiff lzw i e make model orientation = .ok F ∧ offs[(dirs e).length - 1]? = some off ∧
        (∀ g, gps = [.add 0x8825 (.long [g])] → offs[0]? = some g) ∧ ∀ j, offs[(dirs e).length + j]? = strips[j]? := by
  obtain ⟨hn, hdim, hn0, hlen, _, _⟩ := samples_ok hi
  obtain ⟨c0, _⟩ := new_clean
  have hzip : ∀ (t : Writer), (putBlocks t blocks).2 = ((putBlocks t blocks).2.map (·.1)).zip ((putBlocks t blocks).2.map (·.2)) := fun t =>
    by rw [List.zip_map', List.map_id']
  by_cases hg : entriesOf (gpsOps e) = []
  · have hde : dirs e = [.dir (exifDirOps e)] := by rw [dirs, if_pos hg]; rfl
    obtain ⟨t2, off, h2, c2, _, _⟩ := buildDir_ok utf8 (exifDirOps e) (hd (.dir (exifDirOps e)) (List.mem_append_right _ List.mem_cons_self)) c0
    obtain ⟨so, p1, p2, p3, p4⟩ := putBlocks_eq blocks t2
    refine ⟨[], off, so, buildDir_off _ _ _ _ h2, by rw [if_pos hg], p4, ?_, ?_⟩
    · have := runAll_length _ _ _ _ p1
      rw [this, List.length_map]
    intro F offs hs
    rw [session, runAll_append, hde] at hs
    simp only [bind, Except.bind, runAll, WOp.run, h2, p1] at hs
    rw [developTiff]
    simp only [bind, Except.bind, if_pos hg, h2, hdim, hn]
    rw [writeStrips_eq lzw t2 (samples i) w h n hw hh hn0 hlen, ← hbl]
    simp only []
    rw [hzip t2, p2, p3]
    cases hb : (putBlocks t2 blocks).1.build (entriesOf (rootOps e make model orientation [] off
        (imageTags i (stripLines h 0) (so.zip (blocks.map fun b => b.length % 2 ^ 32))))) with
    | error x => rw [hb] at hs; simp at hs
    | ok F' =>
      rw [hb] at hs
      simp only [Except.ok.injEq, Prod.mk.injEq] at hs
      obtain ⟨rfl, rfl⟩ := hs
      refine ⟨rfl, by rw [hde]; rfl, fun g hg' => absurd hg' (by simp), fun j => ?_⟩
      rw [hde, List.length_singleton, List.getElem?_append_right (by simp)]
      congr 1
      simp
  · have hde : dirs e = [.dir (gpsOps e), .dir (exifDirOps e)] := by rw [dirs, if_neg hg]; rfl
    obtain ⟨t1, goff, h1, c1, _, _⟩ := buildDir_ok utf8 (gpsOps e) (hd (.dir (gpsOps e)) (by rw [hde]; exact List.mem_cons_self)) c0
    obtain ⟨t2, off, h2, c2, _, _⟩ := buildDir_ok utf8 (exifDirOps e) (hd (.dir (exifDirOps e)) (List.mem_append_right _ List.mem_cons_self)) c1
    obtain ⟨so, p1, p2, p3, p4⟩ := putBlocks_eq blocks t2
    refine ⟨[.add 0x8825 (.long [goff])], off, so, buildDir_off _ _ _ _ h2, by rw [if_neg hg]; exact ⟨goff, buildDir_off _ _ _ _ h1, rfl⟩, p4, ?_, ?_⟩
    · have := runAll_length _ _ _ _ p1
      rw [this, List.length_map]
    intro F offs hs
    rw [session, runAll_append, hde] at hs
    simp only [bind, Except.bind, runAll, WOp.run, h1, h2, p1] at hs
    rw [developTiff]
    simp only [bind, Except.bind, if_neg hg, h1, h2, hdim, hn]
    rw [writeStrips_eq lzw t2 (samples i) w h n hw hh hn0 hlen, ← hbl]
    simp only []
    rw [hzip t2, p2, p3]
    cases hb : (putBlocks t2 blocks).1.build (entriesOf (rootOps e make model orientation [.add 0x8825 (.long [goff])] off
        (imageTags i (stripLines h 0) (so.zip (blocks.map fun b => b.length % 2 ^ 32))))) with
    | error x => rw [hb] at hs; simp at hs
    | ok F' =>
      rw [hb] at hs
      simp only [Except.ok.injEq, Prod.mk.injEq] at hs
      obtain ⟨rfl, rfl⟩ := hs
      refine ⟨rfl, by rw [hde]; rfl, fun g hg' => ?_, fun j => ?_⟩
      · simp only [List.cons.injEq, DirOp.add.injEq, Value.long.injEq, and_true, true_and] at hg'
        rw [← hg']
        rfl
      · rw [hde, show [WOp.dir (gpsOps e), WOp.dir (exifDirOps e)].length = 2 from rfl, List.getElem?_append_right (by simp)]
        congr 1
        simp

end Verif.DevelopTiff
