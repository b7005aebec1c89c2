import Verif.Proofs.CiffFile
import Verif.Props.Crw
/-! # C72: what is stored in a CIFF file is found in it -/

namespace Verif.Props
open Verif Verif.Spec Verif.Ciff
open Verif.Spec.Ciff
open Verif.Orf (ok_bind)

/-- Every file with these items is read, and for each tag the item is found that comes last in the outermost directory, or else in the first
subdirectory that has it; with its bytes, its type and the number of its elements. -/
theorem C72_find (file : List Nat) (items : List Item) (h : FileAt file 9 items) :
    isCiff file = true ∧ ∃ ifd, Ifd.newFile file = .ok ifd ∧ ∀ tag,
      match find tag 9 items with
      | none => ifd.find tag = none
      | some d => ∃ e, ifd.find tag = some e ∧ e.data = d ∧ e.tag = tag ∧ e.typ = typ tag ∧
          e.count = d.length / (if typ tag = 0x1000 then 2 else if typ tag ∈ [0x1800, 0x2000, 0x2800, 0x3000] then 4 else 1) := by
  refine ⟨?_, ?_⟩
  · obtain ⟨_, _, _, h6, _⟩ := h
    obtain ⟨h1, h2⟩ := h6
    rw [show ("HEAPCCDR".toList.map Char.toNat) = [72, 69, 65, 80, 67, 67, 68, 82] from by decide] at h1 h2
    unfold isCiff
    rw [if_pos (by simpa using h2)]
    simpa using h1
  · obtain ⟨v, e, hv⟩ := newFile_ok file items h
    refine ⟨v, e, fun tag => ?_⟩
    have ht := hv tag
    unfold Sees at ht
    cases hd : find tag 9 items with
    | none =>
      rw [hd] at ht
      cases hf : v.find tag with
      | none => rfl
      | some e => rw [hf] at ht; exact ht.elim
    | some d =>
      rw [hd] at ht
      cases hf : v.find tag with
      | none => rw [hf] at ht; exact ht.elim
      | some e =>
        rw [hf] at ht
        obtain ⟨h1, h2, h3, h4, h5⟩ := ht
        refine ⟨e, rfl, h5, h1, h2, ?_⟩
        rw [h4]
        unfold elementShift
        have : typ tag ≠ 0x8000 := by unfold typ; omega
        simp only [List.mem_cons, List.not_mem_nil, or_false, Nat.shiftRight_eq_div_pow]
        split
        · next h => rw [if_neg (by omega), if_neg (by omega)]
        · split
          · simp
          · split <;> simp

/-- What an item has below it. -/
def subFind (t lv : Nat) : Item → Option (List Nat)
  | .dir _ s => find t lv s
  | _ => none

theorem findSubs_cons (t lv : Nat) (x : Item) (l : List Item) : findSubs t (lv + 1) (x :: l) = (subFind t lv x).or (findSubs t (lv + 1) l) := by
  simp only [findSubs, List.findSome?_cons]
  cases x with
  | dir t' its => simp only [subFind]; cases find t lv its <;> rfl
  | _ => rfl

/-- Ten levels of directories are enough for every tree with at most ten: nothing is lost then. -/
theorem C72_all_levels (tag lv : Nat) (items : List Item) (hd : depths items ≤ lv) (k : Nat) : find tag (lv + k) items = find tag lv items := by
  have hmem : ∀ (t : Nat) (its items : List Item), Item.dir t its ∈ items → depths its + 1 ≤ depths items := by
    intro t its items
    induction items with
    | nil => simp
    | cons x l ih =>
      intro hm
      rw [depths]
      rcases List.mem_cons.1 hm with rfl | hm
      · rw [depth]; omega
      · have := ih hm; omega
  have step : ∀ lv (items : List Item), depths items ≤ lv → find tag (lv + 1) items = find tag lv items := by
    intro lv
    induction lv with
    | zero =>
      intro items hd
      rw [find_eq, find_eq]
      congr 1
      have hall : ∀ l : List Item, (∀ x ∈ l, x ∈ items) → findSubs tag 1 l = none := by
        intro l hl
        induction l with
        | nil => rfl
        | cons x l ihl =>
          rw [findSubs_cons, ihl (fun x hx => hl x (List.mem_cons_of_mem _ hx))]
          cases x with
          | dir t its =>
            have := hmem _ _ _ (hl _ List.mem_cons_self)
            omega
          | _ => rfl
      exact hall items (fun _ h => h)
    | succ lv ih =>
      intro items hd
      rw [find_eq, find_eq]
      congr 1
      have hall : ∀ l : List Item, (∀ x ∈ l, x ∈ items) → findSubs tag (lv + 2) l = findSubs tag (lv + 1) l := by
        intro l hl
        induction l with
        | nil => rfl
        | cons x l ihl =>
          rw [findSubs_cons, findSubs_cons, ihl (fun x hx => hl x (List.mem_cons_of_mem _ hx))]
          cases x with
          | dir t its =>
            have := hmem _ _ _ (hl _ List.mem_cons_self)
            simp only [subFind]
            rw [ih its (by omega)]
          | _ => rfl
      exact hall items (fun _ h => h)
  induction k with
  | zero => rfl
  | succ k ih => rw [← Nat.add_assoc, step _ _ (by omega), ih]

/-- Every tree of items can be stored, behind any `body`. -/
theorem C72_every_tree (body : List Nat) (items : List Item) (hf : Fine 9 items) (hl : (encFile body 9 items).length < 2 ^ 32) :
    FileAt (encFile body 9 items) 9 items := encFile_ok body 9 items hf hl

theorem getU32_short {e : Entry} {tag i v : Nat} (ht : typ tag = 0x1000) (he : e.typ = typ tag) (h : short e.data i v) : e.getU32 i = .ok v := by
  unfold Entry.getU32
  rw [he, ht, if_neg (by decide), if_pos rfl, Nat.mul_comm, leU16_at h.2 h.1]

theorem getU32_long {e : Entry} {tag i v : Nat} (ht : typ tag = 0x1800) (he : e.typ = typ tag) (h : long e.data i v) : e.getU32 i = .ok v := by
  unfold Entry.getU32
  rw [he, ht, if_neg (by decide), if_neg (by decide), if_pos (Or.inl rfl), Nat.mul_comm, leU32_at h.2 h.1]

theorem found {file : List Nat} {items : List Item} (h : FileAt file 9 items) :
    ∃ ifd, Ifd.newFile file = .ok ifd ∧ ∀ tag d, find tag 9 items = some d → ∃ e, ifd.find tag = some e ∧ e.data = d ∧ e.typ = typ tag := by
  obtain ⟨_, v, e, hv⟩ := C72_find file items h
  refine ⟨v, e, fun tag d hd => ?_⟩
  have := hv tag
  rw [hd] at this
  obtain ⟨e, h1, h2, _, h3, _⟩ := this
  exact ⟨e, h1, h2, h3⟩

theorem splitNul_text (acc l rest : List Nat) (hl : 0 ∉ l) : splitNul acc (l ++ 0 :: rest) = (acc ++ l) :: splitNul [] rest := by
  induction l generalizing acc with
  | nil => simp [splitNul]
  | cons c l ih =>
    rw [List.cons_append, splitNul, if_neg (fun h => hl (by simp [h])), ih (acc ++ [c]) (fun h => hl (List.mem_cons_of_mem _ h))]
    simp

/-- Maker and model are the two texts at the start of the item with tag 0x080a. -/
theorem C72_maker_model (file : List Nat) (items : List Item) (maker model rest : List Nat) (h : FileAt file 9 items)
    (hm : find 0x080a 9 items = some (maker ++ 0 :: (model ++ 0 :: rest))) (h1 : 0 ∉ maker) (h2 : 0 ∉ model) :
    ∃ ifd, Ifd.newFile file = .ok ifd ∧ openCrw file = .ok (ifd, maker, model) := by
  obtain ⟨ifd, e, hf⟩ := found h
  obtain ⟨x, hx, hd, _⟩ := hf _ _ hm
  refine ⟨ifd, e, ?_⟩
  unfold openCrw fetch
  rw [e, ok_bind, hx, ok_bind, Entry.getStrings, hd, splitNul_text _ _ _ h1, splitNul_text _ _ _ h2]
  rfl

/-- Width and height are the shorts 1 and 2 of the item with tag 0x1031; the first long of the one with tag 0x1835 chooses the tables. -/
theorem C72_dimensions (file : List Nat) (items : List Item) (low : Bool) (w h n : Nat) (sensor table : List Nat) (hf : FileAt file 9 items)
    (hs : find 0x1031 9 items = some sensor) (hw : short sensor 1 w) (hh : short sensor 2 h)
    (ht : find 0x1835 9 items = some table) (hn : long table 0 n) :
    ∃ ifd, Ifd.newFile file = .ok ifd ∧ samples file ifd low = (Crw.decodeCompressed file low n w h).map (fun out => (w, h, out)) := by
  obtain ⟨ifd, e, hfind⟩ := found hf
  obtain ⟨x, hx, hd, htyp⟩ := hfind _ _ hs
  obtain ⟨y, hy, hd', htyp'⟩ := hfind _ _ ht
  subst hd hd'
  refine ⟨ifd, e, ?_⟩
  unfold samples fetch
  rw [hx, ok_bind, getU32_short (by decide) htyp hw, ok_bind, getU32_short (by decide) htyp hh, ok_bind, hy, ok_bind,
    getU32_long (by decide) htyp' hn, ok_bind]
  cases Crw.decodeCompressed file low n w h <;> rfl

/-- A whole CRW file with samples of 10 bits. -/
theorem C72_crw10 (n w h : Nat) (px : Nat → Nat → Nat) (head words tail sensor table maker model rest : List Nat) (pad : List Bool) (items : List Item)
    (hn : n < 3) (hw0 : 0 < w) (h64 : w * h % 64 = 0) (hpx : ∀ r c, r < h → c < w → px r c < 1024)
    (hhead : head.length = 540) (hb : IsBytes words) (htail : IsBytes tail) (hend : ProperEnd tail)
    (hscan : bytesMSB words = Crw.scan n w h (Crw.raster w px) ++ pad)
    (hf : FileAt (head ++ (stuff words ++ tail)) 9 items)
    (hm : find 0x080a 9 items = some (maker ++ 0 :: (model ++ 0 :: rest))) (h1 : 0 ∉ maker) (h2 : 0 ∉ model)
    (hs : find 0x1031 9 items = some sensor) (hw : short sensor 1 w) (hh : short sensor 2 h)
    (ht : find 0x1835 9 items = some table) (hnt : long table 0 n) :
    ∃ ifd out, openCrw (head ++ (stuff words ++ tail)) = .ok (ifd, maker, model) ∧
      samples (head ++ (stuff words ++ tail)) ifd false = .ok (w, h, out) ∧ Holds out w h px := by
  obtain ⟨ifd, e, hd⟩ := C72_dimensions _ _ false w h n sensor table hf hs hw hh ht hnt
  obtain ⟨ifd', e', hm⟩ := C72_maker_model _ _ _ _ _ hf hm h1 h2
  obtain rfl : ifd = ifd' := by rw [e] at e'; injection e'
  obtain ⟨out, ho, hh⟩ := C71_crw10 n w h px head words tail pad hn hw0 h64 hpx hhead hb htail hend hscan
  exact ⟨ifd, out, hm, by rw [hd, ho]; rfl, hh⟩

/-- A whole CRW file with samples of 12 bits. -/
theorem C72_crw12 (n w h : Nat) (px : Nat → Nat → Nat) (head gap words tail sensor table maker model rest : List Nat) (pad : List Bool) (items : List Item)
    (hn : n < 3) (hw0 : 0 < w) (h64 : w * h % 64 = 0) (hpx : ∀ r c, r < h → c < w → px r c < 4096)
    (hhead : head.length = 26) (hgap : gap.length = 514) (hb : IsBytes words) (htail : IsBytes tail) (hend : ProperEnd tail)
    (hscan : bytesMSB words = Crw.scan n w h (fun k => Crw.raster w px k / 4) ++ pad) (file : List Nat)
    (hfile : file = head ++ (Crw.lows w h (Crw.raster w px) ++ (gap ++ (stuff words ++ tail))))
    (hf : FileAt file 9 items)
    (hm : find 0x080a 9 items = some (maker ++ 0 :: (model ++ 0 :: rest))) (h1 : 0 ∉ maker) (h2 : 0 ∉ model)
    (hs : find 0x1031 9 items = some sensor) (hw : short sensor 1 w) (hh : short sensor 2 h)
    (ht : find 0x1835 9 items = some table) (hnt : long table 0 n) :
    ∃ ifd out, openCrw file = .ok (ifd, maker, model) ∧ samples file ifd true = .ok (w, h, out) ∧
      Holds out w h (fun r c => Crw.adjusted w (px r c)) := by
  obtain ⟨ifd, e, hd⟩ := C72_dimensions _ _ true w h n sensor table hf hs hw hh ht hnt
  obtain ⟨ifd', e', hm⟩ := C72_maker_model _ _ _ _ _ hf hm h1 h2
  obtain rfl : ifd = ifd' := by rw [e] at e'; injection e'
  obtain ⟨out, ho, hh⟩ := C71_crw12 n w h px head gap words tail pad hn hw0 h64 hpx hhead hgap hb htail hend hscan
  rw [← hfile] at ho
  exact ⟨ifd, out, hm, by rw [hd, ho]; rfl, hh⟩

/-- White balance: the four levels the camera's place in the item with tag 0x10a9 has, if there is one; else, unless the camera is marked,
those in the item with tag 0x102c, in the order its first number asks for. -/
theorem C72_white_balance (file : List Nat) (items : List Item) (hf : FileAt file 9 items) (off : Nat) (no2 mangle : Bool) (d : List Nat) (a b c e : Nat) :
    (∃ ifd, Ifd.newFile file = .ok ifd ∧
      (find 0x10a9 9 items = some d → short d off a → short d (off + 1) b → short d (off + 2) c → short d (off + 3) e →
        getWb ifd off no2 mangle = .ok (.levels [a, b, c, e])) ∧
      (find 0x10a9 9 items = none → no2 = false → find 0x102c 9 items = some d → ∀ x, short d 0 x →
        (512 < x → short d 62 a → short d 63 b → short d 60 c → short d 61 e → getWb ifd off no2 mangle = .ok (.levels [a, b, c, e])) ∧
        (x ≤ 512 → short d 51 a → short d 50 b → short d 53 c → short d 52 e → getWb ifd off no2 mangle = .ok (.levels [a, b, c, e]))) ∧
      (find 0x10a9 9 items = none → (no2 = true ∨ find 0x102c 9 items = none) → find 0x0032 9 items = none →
        getWb ifd off no2 mangle = .ok .none)) := by
  obtain ⟨_, ifd, e1, hfind⟩ := C72_find file items hf
  refine ⟨ifd, e1, ?_, ?_, ?_⟩
  · intro hd ha hb hc he
    have := hfind 0x10a9
    rw [hd] at this
    obtain ⟨x, hx, hd, _, ht, _⟩ := this
    subst hd
    unfold getWb
    rw [hx]
    simp only [List.mapM_cons, List.mapM_nil]
    rw [getU32_short (by decide) ht ha, getU32_short (by decide) ht hb, getU32_short (by decide) ht hc, getU32_short (by decide) ht he]
    rfl
  · intro hno hn2 hd v hv
    have h0 := hfind 0x10a9
    rw [hno] at h0
    have := hfind 0x102c
    rw [hd] at this
    obtain ⟨x, hx, hd, _, ht, _⟩ := this
    subst hd hn2
    have key : ∀ l : R (List Nat), (if v > 512 then [62, 63, 60, 61] else [51, 50, 53, 52]).mapM x.getU32 = l →
        getWb ifd off false mangle = l.map .levels := by
      intro l hl
      unfold getWb
      simp only [h0, hx]
      simp only [Bool.false_eq_true, if_false]
      rw [getU32_short (by decide) ht hv, ok_bind, hl]
      cases l <;> rfl
    refine ⟨fun hgt ha hb hc he => ?_, fun hle ha hb hc he => ?_⟩
    · rw [key _ rfl, if_pos hgt]
      simp only [List.mapM_cons, List.mapM_nil]
      rw [getU32_short (by decide) ht ha, getU32_short (by decide) ht hb, getU32_short (by decide) ht hc, getU32_short (by decide) ht he]
      rfl
    · rw [key _ rfl, if_neg (by omega)]
      simp only [List.mapM_cons, List.mapM_nil]
      rw [getU32_short (by decide) ht ha, getU32_short (by decide) ht hb, getU32_short (by decide) ht hc, getU32_short (by decide) ht he]
      rfl
  · intro h1 h2 h3
    have a1 := hfind 0x10a9
    rw [h1] at a1
    have a3 := hfind 0x0032
    rw [h3] at a3
    unfold getWb
    simp only [a1, a3]
    rcases h2 with rfl | h2
    · rfl
    · have a2 := hfind 0x102c
      rw [h2] at a2
      simp [a2]

/-- Older cameras, with neither of these items: the item with tag 0x0032. If it has 768 bytes, numbers 36 to 39 are what 1024 is divided by; else red,
green and blue are the numbers after, at and two after the camera's place, hidden under 0x45f3 and 0x410 if the camera is marked. -/
theorem C72_white_balance_old (file : List Nat) (items : List Item) (hf : FileAt file 9 items) (off : Nat) (no2 mangle : Bool) (d : List Nat)
    (h1 : find 0x10a9 9 items = none) (h2 : no2 = true ∨ find 0x102c 9 items = none) (h3 : find 0x0032 9 items = some d) (a b c e : Nat) :
    ∃ ifd, Ifd.newFile file = .ok ifd ∧
      (d.length = 768 → short d 36 a → short d 37 b → short d 38 c → short d 39 e → getWb ifd off no2 mangle = .ok (.recips [a, b, c, e])) ∧
      (d.length ≠ 768 → mangle = false → short d (off + 1) a → short d off b → short d (off + 2) c →
        getWb ifd off no2 mangle = .ok (.levels [a, b, b, c])) ∧
      (d.length ≠ 768 → mangle = true → short d (off + 1) (a ^^^ 0x45f3) → short d off (b ^^^ 0x410) → short d (off + 2) (c ^^^ 0x410) →
        getWb ifd off no2 mangle = .ok (.levels [a, b, b, c])) := by
  obtain ⟨_, ifd, e1, hfind⟩ := C72_find file items hf
  have a1 := hfind 0x10a9
  rw [h1] at a1
  have a3 := hfind 0x0032
  rw [h3] at a3
  obtain ⟨x, hx, rfl, _, ht, hc⟩ := a3
  have hcnt : x.count = x.data.length := by
    rw [hc, show typ 0x0032 = 0 from rfl, if_neg (by decide), if_neg (by decide), Nat.div_one]
  have get : ∀ i v, short x.data i v → x.getForceU16 i = .ok v := by
    intro i v hv
    rw [Entry.getForceU16, Nat.mul_comm, leU16_at hv.2 hv.1]
  have key : getWb ifd off no2 mangle = (if x.data.length = 768 then do
          let l ← [36, 37, 38, 39].mapM x.getForceU16
          .ok (.recips l)
        else do
          let a ← x.getForceU16 (off + 1)
          let b ← x.getForceU16 off
          let c ← x.getForceU16 off
          let d ← x.getForceU16 (off + 2)
          .ok (.levels [a ^^^ (if mangle then 0x45f3 else 0), b ^^^ (if mangle then 0x410 else 0), c ^^^ (if mangle then 0x410 else 0),
            d ^^^ (if mangle then 0x410 else 0)])) := by
    unfold getWb
    simp only [a1, hx, hcnt]
    rcases h2 with rfl | h2
    · rfl
    · have a2 := hfind 0x102c
      rw [h2] at a2
      simp only [a2]
      cases no2 <;> rfl
  refine ⟨ifd, e1, fun hl ha hb hc he => ?_, fun hl hm ha hb hc => ?_, fun hl hm ha hb hc => ?_⟩
  · rw [key, if_pos hl]
    simp only [List.mapM_cons, List.mapM_nil]
    rw [get _ _ ha, get _ _ hb, get _ _ hc, get _ _ he]
    rfl
  · subst hm
    rw [key, if_neg hl, get _ _ ha, get _ _ hb, get _ _ hc]
    simp [ok_bind]
  · subst hm
    rw [key, if_neg hl, get _ _ ha, get _ _ hb, get _ _ hc]
    simp [ok_bind, Nat.xor_assoc]

/-! ## What is not read -/

theorem dirAt_less (file : List Nat) (lv : Nat) : ∀ a b items, DirAt file (lv + 1) a b items → DirAt file lv a b items := by
  have mono : ∀ (s s' : Nat → Nat → List Item → Prop), (∀ a b i, s a b i → s' a b i) → ∀ a b i, DirOf file s a b i → DirOf file s' a b i := by
    rintro s s' hs a b i ⟨vs, h1, h2, h3, h4, h5, h6⟩
    refine ⟨vs, h1, h2, h3, h4, h5, fun j x hx => ?_⟩
    have := h6 j x hx
    cases x with
    | value => exact this
    | inline => exact this
    | dir t its =>
      obtain ⟨t1, t2, o, n, t3, t4, t5, t6, t7⟩ := this
      exact ⟨t1, t2, o, n, t3, t4, t5, t6, hs _ _ _ t7⟩
  induction lv with
  | zero => exact fun a b items h => mono _ _ (fun _ _ _ _ => trivial) a b items h
  | succ lv ih => exact fun a b items h => mono _ _ ih a b items h

/-- One item inside `k` directories. -/
def nested (x : Item) : Nat → Item
  | 0 => x
  | k + 1 => .dir 0x300a [nested x k]

theorem encDir_single (enc : List Item → List Nat) (x : Item) :
    (encDir enc [x]).length = (part enc x).length + (2 + ((entryBytes enc 0 x).length + 4)) := by
  simp [encDir, le_length, List.range_succ]

theorem nested_length (data : List Nat) (hd : data.length = 8) (k : Nat) : (enc k [nested (.inline 0x1031 data) k]).length = 16 * (k + 1) := by
  induction k with
  | zero => rw [enc, nested, encDir_single]; simp [part, entryBytes, le_length, hd]
  | succ k ih => rw [enc, nested, encDir_single]; simp only [part, entryBytes, List.length_append, le_length, ih]; omega

/-- What lies below ten levels of subdirectories is lost, without an error. -/
theorem C72_deep_lost (data : List Nat) (hd : data.length = 8) :
    ∃ file, FileAt file 10 [nested (.inline 0x1031 data) 10] ∧ find 0x1031 10 [nested (.inline 0x1031 data) 10] = some data ∧
      ∃ ifd, Ifd.newFile file = .ok ifd ∧ ifd.find 0x1031 = none := by
  have hf : Fine 10 [nested (.inline 0x1031 data) 10] := by
    simp only [nested, Fine, FineOf, List.mem_singleton, forall_eq, List.length_singleton, true_and, and_true]
    simp only [hd]
    decide
  have hx := encFile_ok [] 10 _ hf (by
    unfold encFile
    simp only [List.length_append, le_length, List.length_map, List.length_replicate, nested_length data hd]
    rw [show "HEAPCCDR".toList.length = 8 from by decide]
    decide)
  have h9 : FileAt (encFile [] 10 [nested (.inline 0x1031 data) 10]) 9 [nested (.inline 0x1031 data) 10] := by
    obtain ⟨s, h1, h2, h3, h4⟩ := hx
    exact ⟨s, h1, h2, h3, dirAt_less _ 9 _ _ _ h4⟩
  refine ⟨_, hx, by simp [nested, find, here], ?_⟩
  obtain ⟨_, ifd, e, h⟩ := C72_find _ _ h9
  refine ⟨ifd, e, ?_⟩
  have := h 0x1031
  have hn : find 0x1031 9 [nested (.inline 0x1031 data) 10] = none := by simp [nested, find, here]
  rw [hn] at this
  exact this

/-- A file whose last four bytes do not lead to a place inside it is not refused: reading it panics. -/
theorem C72_bad_trailer_panics (file : List Nat) (start vs : Nat) (hs : start < 2 ^ 32) (hv : vs < 2 ^ 32) (h1 : At file 2 (le 4 start))
    (h2 : At file (file.length - 4) (le 4 vs)) (h3 : file.length < start + vs + 2) : openCrw file = panic' := by
  have h4 : 4 ≤ file.length := by have := h1.2; rw [le_length] at this; omega
  unfold openCrw Ifd.newFile
  rw [leU32_at h1 hs, ok_bind, Ifd.new, dir, usub, if_pos h4, ok_bind, leU32_at h2 hv, ok_bind, leU16, slice, if_neg (by omega)]
  rfl

mutual
/-- Directories in memory. -/
def nodes : Ifd → Nat
  | .mk _ subs => 1 + nodesAll subs
def nodesAll : List Ifd → Nat
  | [] => 0
  | x :: l => nodes x + nodesAll l
end

/-- A file whose directory names itself as each of its `n` subdirectories. -/
def selfFile (n : Nat) : List Nat :=
  [73, 73] ++ (le 4 14 ++ ("HEAPCCDR".toList.map Char.toNat ++ (le 2 n ++ ((List.range n).flatMap (fun _ => le 2 0x300a ++ le 4 (10 * n + 6) ++ le 4 0) ++ le 4 0))))

/-- What is read from it. -/
def selfTree (n : Nat) : Nat → Ifd
  | 0 => .mk [] []
  | lv + 1 => .mk [] (List.replicate n (selfTree n lv))

theorem nodesAll_replicate (n : Nat) (x : Ifd) : nodesAll (List.replicate n x) = n * nodes x := by
  induction n with
  | zero => simp [nodesAll]
  | succ n ih => rw [List.replicate_succ, nodesAll, ih, Nat.succ_mul, Nat.add_comm]

theorem nodes_selfTree (n lv : Nat) : n ^ lv ≤ nodes (selfTree n lv) := by
  induction lv with
  | zero => simp [selfTree, nodes]
  | succ lv ih =>
    rw [selfTree, nodes, nodesAll_replicate, Nat.pow_succ, Nat.mul_comm]
    have := Nat.mul_le_mul_left n ih
    omega

/-- The limit on levels does not keep directories from naming themselves: `20 + 10 n` bytes can make more than `n ^ 9` directories. -/
theorem C72_small_file_many_directories (n : Nat) (hn : n < 65536) :
    (selfFile n).length = 20 + 10 * n ∧ ∃ ifd, Ifd.newFile (selfFile n) = .ok ifd ∧ n ^ 9 ≤ nodes ifd := by
  have hg : ∀ i, i < n → ((fun _ : Nat => le 2 0x300a ++ le 4 (10 * n + 6) ++ le 4 0) i).length = 10 := by
    intro i _; simp [le_length]
  have hl := flatMap_range_length n 10 _ hg
  have hs : (("HEAPCCDR".toList.map Char.toNat).length) = 8 := by decide
  have hL : (selfFile n).length = 20 + 10 * n := by
    unfold selfFile
    simp only [List.length_append, le_length, hs, hl, List.length_cons, List.length_nil]
    omega
  refine ⟨hL, selfTree n 9, ?_, nodes_selfTree n 9⟩
  have hall : At (selfFile n) 0 (selfFile n) := ⟨by simp, by omega⟩
  have b1 := hall.right
  have b2 := b1.right.right
  have c1 := b2.left
  have c2 := b2.right.left
  have c3 := b2.right.right
  simp only [le_length, hs, hl, List.length_cons, List.length_nil] at b1 c1 c2 c3
  have hnew : ∀ lv, Ifd.new (selfFile n) lv 14 (20 + 10 * n) = .ok (selfTree n lv) := by
    have hdir : ∀ lv rd, (match lv, rd with
        | 0, none => True
        | lv + 1, some g => g 14 (20 + 10 * n) = .ok (selfTree n lv)
        | _, _ => False) → dir (selfFile n) rd 14 (20 + 10 * n) = .ok (selfTree n lv) := by
      intro lv rd hrd
      unfold dir
      rw [usub, if_pos (by omega), ok_bind, show 20 + 10 * n - 4 = 0 + 2 + 4 + 8 + 2 + 10 * n by omega, leU32_at c3 (by decide), ok_bind,
        show 14 + 0 = 0 + 2 + 4 + 8 from rfl, leU16_at c1 hn, ok_bind]
      obtain ⟨st, e, inv⟩ := forN_inv n (fun i st => dirStep (selfFile n) rd (0 + 2 + 4 + 8) 0 i st)
        (fun k st => st = ([], match lv with
          | 0 => []
          | lv + 1 => List.replicate k (selfTree n lv))) ([], []) (by cases lv <;> rfl) (by
          rintro i st hi rfl
          have hat := at_range c2 hg i hi
          have hlen : (((selfFile n).drop 14).take (10 * n + 6)).length = 10 * n + 6 := by simp; omega
          obtain ⟨e, he, hg, ho⟩ := entry_value (f := selfFile n) (a := 14) (t := 0x300a) (o := 0) (d := ((selfFile n).drop 14).take (10 * n + 6)) (by decide) (by decide)
            (by omega) (by rw [hlen]; exact hat) (At.self (by omega))
          unfold dirStep
          rw [show 0 + 2 + 4 + 8 + 0 + 2 + i * 10 = 0 + 2 + 4 + 8 + 2 + 10 * i by omega, show 0 + 2 + 4 + 8 = 14 from rfl]
          rw [he, ok_bind, if_pos (by rw [hg.2.1]; decide), ho, hg.2.2.1, hlen]
          cases lv with
          | zero =>
            cases rd with
            | none => exact ⟨_, rfl, rfl⟩
            | some g => exact hrd.elim
          | succ lv =>
            cases rd with
            | none => exact hrd.elim
            | some g =>
              simp only
              rw [show 14 + 0 + (10 * n + 6) = 20 + 10 * n by omega, show 14 + 0 = 14 from rfl, hrd]
              refine ⟨_, rfl, ?_⟩
              rw [← List.replicate_succ'])
      rw [e, ok_bind, inv]
      cases lv <;> rfl
    intro lv
    induction lv with
    | zero => exact hdir 0 none trivial
    | succ lv ih => exact hdir (lv + 1) (some (Ifd.new (selfFile n) lv)) ih
  unfold Ifd.newFile
  rw [leU32_at (v := 14) b1.left (by decide), ok_bind, hL, hnew 9]

/-- 220 bytes, 512 billion directories. -/
example : (selfFile 20).length = 220 ∧ ∃ ifd, Ifd.newFile (selfFile 20) = .ok ifd ∧ 512000000000 ≤ nodes ifd := by
  obtain ⟨h1, ifd, h2, h3⟩ := C72_small_file_many_directories 20 (by decide)
  exact ⟨by omega, ifd, h2, by simpa using h3⟩

/-- A whole file: 64 samples of 10 bits, all 512 but one; the outermost directory has a subdirectory with the picture's data, which has one with the
names. -/
def exItems : List Item :=
  [.dir 0x300a [.value 0x1031 [8, 0, 64, 0, 1, 0, 0, 0], .inline 0x1835 [0, 0, 0, 0, 9, 9, 9, 9],
    .dir 0x2807 [.value 0x080a [67, 97, 110, 111, 110, 0, 71, 49, 0]]]]

example : ∃ ifd out, openCrw (encFile (List.replicate 514 0 ++ (stuff [247, 251, 71, 199, 253, 128] ++ [0xff, 0xd9])) 9 exItems) = .ok (ifd, [67, 97, 110, 111, 110], [71, 49]) ∧
    samples (encFile (List.replicate 514 0 ++ (stuff [247, 251, 71, 199, 253, 128] ++ [0xff, 0xd9])) 9 exItems) ifd false = .ok (64, 1, out) ∧
    Holds out 64 1 (fun _ c => if c = 3 then 520 else 512) := by
  have hfine : Fine 9 exItems := by
    simp only [exItems, Fine, FineOf, List.mem_cons, List.not_mem_nil, or_false, forall_eq_or_imp, forall_eq]
    decide
  have hf := C72_every_tree (List.replicate 514 0 ++ (stuff [247, 251, 71, 199, 253, 128] ++ [0xff, 0xd9])) exItems hfine (by decide +kernel)
  have e : encFile (List.replicate 514 0 ++ (stuff [247, 251, 71, 199, 253, 128] ++ [0xff, 0xd9])) 9 exItems =
      (encFile (List.replicate 514 0 ++ (stuff [247, 251, 71, 199, 253, 128] ++ [0xff, 0xd9])) 9 exItems).take 540 ++ (stuff [247, 251, 71, 199, 253, 128] ++ ([0xff, 0xd9] ++ enc 9 exItems)) := by
    decide +kernel
  rw [e] at hf ⊢
  exact C72_crw10 0 64 1 (fun _ c => if c = 3 then 520 else 512) _ [247, 251, 71, 199, 253, 128] ([0xff, 0xd9] ++ enc 9 exItems) [8, 0, 64, 0, 1, 0, 0, 0] [0, 0, 0, 0, 9, 9, 9, 9]
    [67, 97, 110, 111, 110] [71, 49] [] [false, false, false, false, false, false, false] exItems (by decide) (by decide) (by decide)
    (fun r c _ _ => by split <;> decide) (by decide +kernel) (by decide) (by decide +kernel) (by simp [ProperEnd]) (by decide +kernel) hf
    (by decide +kernel) (by decide) (by decide) (by decide +kernel) ⟨by decide, by unfold At; decide⟩ ⟨by decide, by unfold At; decide⟩ (by decide +kernel)
    ⟨by decide, by unfold At; decide⟩

end Verif.Props
