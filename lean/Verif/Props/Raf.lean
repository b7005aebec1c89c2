import Verif.Model.Raf
import Verif.Proofs.IiqTab
import Verif.Proofs.Orf
import Verif.Props.IiqTab
/-! # C97: the data block of Fujifilm RAF files -/

namespace Verif.Props
open Verif Verif.Raf Verif.Spec.Raf
open Verif.IiqTab (readMany)
open Verif.Orf (ok_bind)

namespace Raf

theorem get_at {file l rest : List Nat} {p : Nat} (h : file.drop p = l ++ rest) (i : Nat) (hi : i < l.length) : read8 file (p + i) = .ok (l[i]) := by
  rw [read8, ← List.getElem?_drop, h, List.getElem?_append_left hi, List.getElem?_eq_getElem hi]

theorem rd16 {file rest : List Nat} {p v : Nat} (hv : v < 65536) (h : file.drop p = be2 v ++ rest) : readB16 file p = .ok v := by
  have h0 := get_at h 0 (by simp [be2])
  have h1 := get_at h 1 (by simp [be2])
  simp only [be2, Nat.add_zero, List.getElem_cons_zero, List.getElem_cons_succ] at h0 h1
  rw [readB16, h0, ok_bind, h1, ok_bind]
  exact congrArg _ (by omega)

theorem rdL32 {file rest : List Nat} {p v : Nat} (hv : v < 4294967296) (h : file.drop p = le4 v ++ rest) : readL32 file p = .ok v := by
  have h0 := get_at h 0 (by simp [le4])
  have h1 := get_at h 1 (by simp [le4])
  have h2 := get_at h 2 (by simp [le4])
  have h3 := get_at h 3 (by simp [le4])
  simp only [le4, Nat.add_zero, List.getElem_cons_zero, List.getElem_cons_succ] at h0 h1 h2 h3
  rw [readL32, h0, ok_bind, h1, ok_bind, h2, ok_bind, h3, ok_bind]
  exact congrArg _ (by omega)

theorem rd32 {file rest : List Nat} {p v : Nat} (hv : v < 4294967296) (h : file.drop p = be4 v ++ rest) : readB32 file p = .ok v := by
  have h0 := get_at h 0 (by simp [be4])
  have h1 := get_at h 1 (by simp [be4])
  have h2 := get_at h 2 (by simp [be4])
  have h3 := get_at h 3 (by simp [be4])
  simp only [be4, Nat.add_zero, List.getElem_cons_zero, List.getElem_cons_succ] at h0 h1 h2 h3
  rw [readB32, readB16, readB16, h0, ok_bind, h1, ok_bind, ok_bind, h2, ok_bind, h3, ok_bind, ok_bind]
  exact congrArg _ (by omega)

theorem drop_next {file l rest : List Nat} {p n : Nat} (h : file.drop p = l ++ rest) (hn : n = l.length) : file.drop (p + n) = rest := by
  rw [← List.drop_drop, h, hn, List.drop_left]

theorem each (file : List Nat) (f : Nat → List Nat) (k : Nat) (hk : ∀ v, (f v).length = k) : ∀ (l : List Nat) (p : Nat) (rest : List Nat), file.drop p = l.flatMap f ++ rest →
    ∀ i (hi : i < l.length), ∃ rest', file.drop (p + i * k) = f (l[i]) ++ rest' := by
  intro l
  induction l with
  | nil => intro p rest _ i hi; cases hi
  | cons a l ih =>
    intro p rest h i hi
    rw [List.flatMap_cons, List.append_assoc] at h
    cases i with
    | zero => exact ⟨_, by simpa using h⟩
    | succ i =>
      obtain ⟨r, e⟩ := ih (p + k) rest (drop_next h (hk a).symm) i (by simpa using hi)
      exact ⟨r, by rw [show p + (i + 1) * k = p + k + i * k by rw [Nat.succ_mul]; omega, e]; rfl⟩

theorem many (file : List Nat) (rd : Nat → R Nat) (f : Nat → List Nat) (k : Nat) (hk : ∀ v, (f v).length = k) (l : List Nat) (p : Nat) (rest : List Nat)
    (hrd : ∀ q v r, v ∈ l → file.drop q = f v ++ r → rd q = .ok v) (h : file.drop p = l.flatMap f ++ rest) : readMany rd p k l.length = .ok l := by
  rw [readMany, mapM_ok_of _ (fun i => l.getD i 0) _ fun i hi => ?_]
  · refine congrArg _ (List.ext_getElem (by simp) fun i h1 h2 => ?_)
    simp [h2]
  · have hi := List.mem_range.1 hi
    obtain ⟨r, e⟩ := each file f k hk l p rest h i hi
    rw [hrd _ _ _ (List.getElem_mem hi) e, List.getD_eq_getElem?_getD, List.getElem?_eq_getElem hi]
    rfl

/-- What an entry does to the tags -/
def ins (m : Tags) (e : Entry) : Tags := fun t => if e.tag = t then e.val.or (m t) else m t

theorem flat_len (f : Nat → List Nat) (k : Nat) (hk : ∀ v, (f v).length = k) (l : List Nat) : (l.flatMap f).length = k * l.length := by
  induction l with
  | nil => rfl
  | cons a l ih => rw [List.flatMap_cons, List.length_append, ih, hk, List.length_cons, Nat.mul_succ, Nat.add_comm]

theorem tag_lt {e : Entry} (h : e.Ok) : e.tag < 65536 ∧ e.data.length < 65536 := by
  cases e with
  | shorts t l =>
    refine ⟨?_, ?_⟩
    · have := h.1
      simp only [shortTags, List.mem_cons, List.not_mem_nil, or_false] at this
      simp only [Entry.tag]; omega
    · rw [Entry.data, flat_len be2 2 (fun _ => rfl)]; exact h.2.2
  | bytes t l =>
    refine ⟨?_, h.2⟩
    have := h.1
    simp only [byteTags, List.mem_cons, List.not_mem_nil, or_false] at this
    simp only [Entry.tag]; omega
  | longs l =>
    refine ⟨(by decide : 0xc000 < 65536), ?_⟩
    rw [Entry.data, flat_len le4 4 (fun _ => rfl)]; exact h.2
  | other t l => exact ⟨h.1, h.2.2.2.2⟩

theorem step_ok (file : List Nat) (e : Entry) (he : e.Ok) (p : Nat) (m : Tags) (rest : List Nat) (h : file.drop p = e.stored ++ rest) :
    step file (p, m) = .ok (p + e.stored.length, ins m e) := by
  obtain ⟨ht, hl⟩ := tag_lt he
  rw [Entry.stored, List.append_assoc, List.append_assoc] at h
  have h2 := drop_next h (n := 2) rfl
  have h4 := drop_next h2 (n := 2) rfl
  rw [step, rd16 ht h, ok_bind]
  simp only
  rw [rd16 hl h2, ok_bind]
  have hlen : e.stored.length = 4 + e.data.length := by
    rw [Entry.stored, List.length_append, List.length_append]; rfl
  rw [hlen]
  have fin : ∀ q v, q = p + (4 + e.data.length) → e.val = some v → (Except.ok (q, put m e.tag v) : R (Nat × Tags)) = .ok (p + (4 + e.data.length), ins m e) := by
    rintro q v rfl hv
    refine congrArg _ (Prod.ext rfl (funext fun t => ?_))
    simp only [put, ins, hv, Option.some_or, eq_comm]
  cases e with
  | shorts t l =>
    have hm := he.1
    simp only [shortTags, List.mem_cons, List.not_mem_nil, or_false] at hm
    have hd : (Entry.shorts t l).data.length = 2 * l.length := flat_len be2 2 (fun _ => rfl) l
    rw [if_pos (by simpa only [Entry.tag] using hm), hd, show 2 * l.length / 2 = l.length by omega,
      many file _ be2 2 (fun _ => rfl) l _ rest (fun q v r hv e => rd16 (he.2.1 v hv) e) h4, ok_bind]
    rw [hd] at fin
    exact fin _ _ (by omega) rfl
  | bytes t l =>
    have hm := he.1
    simp only [byteTags, List.mem_cons, List.not_mem_nil, or_false] at hm
    rw [if_neg (by simp only [Entry.tag]; omega), if_pos (by simpa only [Entry.tag] using hm)]
    have h4' : file.drop (p + 4) = l.flatMap (fun v => [v]) ++ rest := by
      rw [List.flatMap_singleton']
      exact h4
    rw [show (Entry.bytes t l).data.length = l.length from rfl, many file (read8 file) (fun v => [v]) 1 (fun _ => rfl) l _ rest (fun q v r hv e => get_at e 0 (by simp)) h4', ok_bind]
    exact fin _ _ (by simp only [Entry.data]; omega) rfl
  | longs l =>
    have hd : (Entry.longs l).data.length = 4 * l.length := flat_len le4 4 (fun _ => rfl) l
    rw [if_neg (by simp only [Entry.tag]; omega), if_neg (by simp only [Entry.tag]; omega), if_pos (show (Entry.longs l).tag = 0xc000 from rfl), hd, show 4 * l.length / 4 = l.length by omega,
      many file _ le4 4 (fun _ => rfl) l _ rest (fun q v r hv e => rdL32 (he.1 v hv) e) h4, ok_bind]
    rw [hd] at fin
    exact fin _ _ (by omega) rfl
  | other t l =>
    obtain ⟨-, h1, h2, h3, -⟩ := he
    simp only [shortTags, byteTags, List.mem_cons, List.not_mem_nil, or_false] at h1 h2
    rw [if_neg (by simpa only [Entry.tag] using h1), if_neg (by simpa only [Entry.tag] using h2), if_neg (by simpa only [Entry.tag] using h3)]
    refine congrArg _ (Prod.ext (by simp only; omega) (funext fun t' => ?_))
    simp only [ins, Entry.val, Option.none_or, ite_self]

theorem loop_ok (file : List Nat) : ∀ (es : List Entry) (l : List Nat), l.length = es.length → (∀ e ∈ es, e.Ok) → ∀ (p : Nat) (m : Tags) (rest : List Nat),
    file.drop p = es.flatMap Entry.stored ++ rest → ∃ q, l.foldlM (fun s _ => step file s) (p, m) = .ok (q, es.foldl ins m) := by
  intro es
  induction es with
  | nil =>
    intro l hl _ p m rest _
    rw [List.length_nil, List.length_eq_zero_iff] at hl
    rw [hl]
    exact ⟨p, rfl⟩
  | cons e es ih =>
    intro l hl hok p m rest h
    cases l with
    | nil => cases hl
    | cons a l =>
      rw [List.flatMap_cons, List.append_assoc] at h
      rw [List.foldlM_cons, step_ok file e (hok e List.mem_cons_self) p m _ h, ok_bind]
      exact ih l (by simpa using hl) (fun e' he' => hok e' (List.mem_cons_of_mem _ he')) _ _ rest (drop_next h rfl)

/-- Entries with the same tag are of the same kind. -/
theorem same_kind {a b : Entry} (ha : a.Ok) (hb : b.Ok) (h : a.tag = b.tag) : a.val = none → b.val = none := by
  intro hn
  cases a <;> cases hn
  obtain ⟨-, h1, h2, h3, -⟩ := ha
  cases b with
  | shorts t l => simp only [Entry.tag] at h; exact absurd (by rw [h]; exact hb.1) h1
  | bytes t l => simp only [Entry.tag] at h; exact absurd (by rw [h]; exact hb.1) h2
  | longs l => exact absurd h h3
  | other t l => rfl

theorem fold_look : ∀ (es : List Entry), (∀ e ∈ es, e.Ok) → ∀ (m : Tags) (t : Nat), es.foldl ins m t = (look es t).or (m t) := by
  intro es
  induction es with
  | nil => intro _ m t; rfl
  | cons e es ih =>
    intro hok m t
    rw [List.foldl_cons, ih (fun e' he' => hok e' (List.mem_cons_of_mem _ he')), look, look, List.filter_cons]
    by_cases ht : e.tag = t
    · rw [if_pos (by simpa using ht), List.getLast?_cons, ins, if_pos ht]
      cases hl : (es.filter fun e => e.tag == t).getLast? with
      | none => rfl
      | some f =>
        have hf := List.mem_of_getLast? hl
        rw [List.mem_filter, beq_iff_eq] at hf
        simp only [Option.bind_some, Option.getD_some]
        cases hv : f.val with
        | some v => rfl
        | none =>
          rw [same_kind (hok f (List.mem_cons_of_mem _ hf.1)) (hok e List.mem_cons_self) (hf.2.trans ht.symm) hv]
          rfl
    · rw [if_neg (by simpa using ht), ins, if_neg ht]

end Raf

/-- **C97, the data block.** A block of up to 4000 entries gives, for each tag, the numbers of the last entry with it; other tags are skipped. -/
theorem C97_block (file : List Nat) (off : Nat) (es : List Entry) (rest : List Nat) (hn : es.length ≤ 4000) (hok : ∀ e ∈ es, e.Ok) (h : file.drop off = stored es ++ rest) :
    ∃ m, parse file off = .ok m ∧ ∀ tag, m tag = look es tag := by
  rw [stored, List.append_assoc] at h
  obtain ⟨q, e⟩ := Raf.loop_ok file es (List.range es.length) List.length_range hok (off + 4) (fun _ => none) rest (Raf.drop_next h rfl)
  refine ⟨es.foldl Raf.ins fun _ => none, ?_, fun t => ?_⟩
  · rw [parse, Raf.rd32 (by omega) h, ok_bind, if_neg (by omega), forN, e]
    rfl
  · rw [Raf.fold_look es hok, Option.or_none]

/-- **C97, too many entries.** More than 4000 entries are an error. -/
theorem C97_too_many (file : List Nat) (off n : Nat) (rest : List Nat) (hn : 4000 < n) (hn' : n < 4294967296) (h : file.drop off = be4 n ++ rest) : parse file off = fail' := by
  rw [parse, Raf.rd32 hn' h, ok_bind, if_pos hn]

/-- **C97, crop and size.** Two entries, each a row or height and a column or width, give the crop; one gives the size. -/
theorem C97_crop (m : Tags) (x y w h fw fh : Nat) (hc : m 0x110 = some (.shorts [y, x])) (hs : m 0x111 = some (.shorts [h, w])) (hf : m 0x100 = some (.shorts [fh, fw])) :
    crop (some m) = some (x, y, w, h) ∧ size (some m) = .ok (fw, fh) := by
  refine ⟨?_, ?_⟩
  · rw [crop, hc, hs]; rfl
  · rw [size, hf]; rfl

/-- Without one of the two there is no crop; without size there is an error. -/
theorem C97_no_crop (m : Tags) (h : m 0x110 = none ∨ m 0x111 = none) (hf : m 0x100 = none) : crop (some m) = none ∧ crop none = none ∧ size (some m) = fail' ∧ size none = fail' := by
  refine ⟨?_, rfl, ?_, rfl⟩
  · rw [crop]
    rcases h with h | h
    · rw [h]
    · rw [h]
      cases m 0x110 <;> rfl
  · rw [size, hf]

/-- **C97, white balance.** The factors of red and blue are their levels divided by that of green, which is 1. The levels are those of the Fuji directory, green, red and
blue, or those of the block, green, red, green and blue. -/
theorem C97_white_balance (fuji : Option (List Nat)) (raf : Option Tags) (g r b : Nat) (hg : 0 < g)
    (h : fuji = some [g, r, b] ∨ fuji = none ∧ ∃ m g2, raf = some m ∧ m 0x2ff0 = some (.shorts [g, r, g2, b])) :
    ∃ l, levels fuji raf = .ok l ∧ normalize l = [some ((r : ℚ) / g), some 1, some ((b : ℚ) / g), none] := by
  have hg' : (g : ℚ) ≠ 0 := by exact_mod_cast hg.ne'
  have key : normalize [(r : ℚ), g, g, b] = [some ((r : ℚ) / g), some 1, some ((b : ℚ) / g), none] := by
    have e : ∀ v : ℚ, (if v ≠ 0 then some (v / g) else some v) = some (v / g) := by
      intro v
      split
      · rfl
      · rename_i hv
        rw [not_not.1 hv, zero_div]
    simp only [normalize, List.getD_cons_zero, List.getD_cons_succ, if_neg hg', e]
    rw [div_self hg']
    norm_num
  rcases h with h | ⟨h, m, g2, hm, h2⟩
  · exact ⟨_, by rw [h]; rfl, by simpa using key⟩
  · exact ⟨_, by rw [h, hm, levels]; simp only [h2]; rfl, by simpa [force] using key⟩

/-- **C97, second green.** The second level of green of the block is not used. -/
theorem C97_second_green (m : Tags) (g r g2 b : Nat) (hm : m 0x2ff0 = some (.shorts [g, r, g2, b])) : levels none (some m) = .ok [(r : ℚ), g, g, b] := by
  rw [levels]
  simp only [hm]
  rfl

/-- **C97, X-Trans.** The colours of the pattern are the numbers of the layout from the last to the first. -/
theorem C97_xtrans (m : Tags) (l : List Nat) (h : m 0x131 = some (.bytes l)) (name : Nat → Char) (h0 : name 0 = 'R') (h1 : name 1 = 'G') (h2 : name 2 = 'B') (hl : ∀ v ∈ l, v ≤ 2) :
    ∃ s, xtrans (some m) = .ok (some s) ∧ s.length = l.length ∧ ∀ i, i < l.length → s[i]? = (l[l.length - 1 - i]?).map name := by
  refine ⟨_, by rw [xtrans, Option.bind_some, h], by simp, fun i hi => ?_⟩
  rw [List.getElem?_map, List.getElem?_reverse hi, List.getElem?_eq_getElem (by omega), Option.map_some, Option.map_some]
  have := hl _ (List.getElem_mem (show l.length - 1 - i < l.length by omega))
  generalize l[l.length - 1 - i] = v at this ⊢
  interval_cases v <;> simp [h0, h1, h2]

/-- Without a layout there is no pattern, and with the layout as bytes the picture is turned the other way exactly if the highest bit of the first byte is not set. -/
theorem C97_layout (m : Tags) (b : Nat) (l : List Nat) (h1 : m 0x131 = none) (h0 : m 0x130 = some (.bytes (b :: l))) :
    xtrans (some m) = .ok none ∧ xtrans none = .ok none ∧ (altLayout (some m) = true ↔ b < 128) ∧ altLayout none = false := by
  refine ⟨by rw [xtrans, Option.bind_some, h1], rfl, ?_, rfl⟩
  rw [altLayout, Option.bind_some, h0]
  simp only [force, List.getD_cons_zero, beq_iff_eq]
  omega

/-- **C97, embedded JPEG.** It is the part of the file that the numbers at bytes 84 and 88 give; a part that is not in the file is an error. -/
theorem C97_jpeg (file : List Nat) (off len : Nat) (rest : List Nat) (ho : off < 4294967296) (hl : len < 4294967296) (h : file.drop 84 = be4 off ++ be4 len ++ rest) :
    jpeg file = if off + len ≤ file.length then .ok ((file.drop off).take len) else fail' := by
  have hfl : 92 ≤ file.length := by
    have := congrArg List.length h
    simp only [List.length_drop, List.length_append, be4, List.length_cons, List.length_nil] at this
    omega
  have hb : ((file.drop 0).take 92).drop 84 = be4 off ++ (be4 len ++ []) := by
    rw [List.drop_zero, List.drop_take, h, List.append_nil]
    exact List.take_left' rfl
  rw [jpeg, Small.subview, if_pos (by omega), ok_bind, Raf.rd32 ho hb, ok_bind]
  rw [Raf.rd32 hl (Raf.drop_next hb (n := 4) rfl : _ = be4 len ++ []), ok_bind, Small.subview]

theorem Raf.bind_ne {α β : Type} {a : R α} {f : α → R β} (ha : a ≠ panic') (hf : ∀ v, f v ≠ panic') : (a >>= f) ≠ panic' := by
  cases a with
  | error x => intro e; apply ha; cases e; rfl
  | ok v => exact hf v

theorem Raf.mapM_ne {α β : Type} (f : α → R β) (hf : ∀ v, f v ≠ panic') (l : List α) : l.mapM f ≠ panic' := by
  induction l with
  | nil => intro e; cases e
  | cons a l ih =>
    rw [List.mapM_cons]
    exact Raf.bind_ne (hf a) fun v => Raf.bind_ne ih fun w e => by cases e

/-- **C97, no aborts.** Whatever the file and the place of the block, reading the block and the embedded JPEG never aborts. -/
theorem C97_no_abort (file : List Nat) (off : Nat) : parse file off ≠ panic' ∧ jpeg file ≠ panic' := by
  have r8 : ∀ f p, read8 f p ≠ panic' := by
    intro f p e
    rw [read8] at e
    split at e <;> cases e
  have r16 : ∀ f p, readB16 f p ≠ panic' := fun f p => Raf.bind_ne (r8 _ _) fun _ => Raf.bind_ne (r8 _ _) fun _ e => by cases e
  have r32 : ∀ f p, readB32 f p ≠ panic' := fun f p => Raf.bind_ne (r16 _ _) fun _ => Raf.bind_ne (r16 _ _) fun _ e => by cases e
  have l32 : ∀ f p, readL32 f p ≠ panic' := fun f p =>
    Raf.bind_ne (r8 _ _) fun _ => Raf.bind_ne (r8 _ _) fun _ => Raf.bind_ne (r8 _ _) fun _ => Raf.bind_ne (r8 _ _) fun _ e => by cases e
  have sub : ∀ a n, Small.subview file a n ≠ panic' := by
    intro a n e
    rw [Small.subview] at e
    split at e <;> cases e
  refine ⟨Raf.bind_ne (r32 _ _) fun n => ?_, Raf.bind_ne (sub _ _) fun b => Raf.bind_ne (r32 _ _) fun _ => Raf.bind_ne (r32 _ _) fun _ => sub _ _⟩
  split
  · intro e; cases e
  · refine Raf.bind_ne (forN_ne _ _ _ fun i st _ => ?_) fun _ e => by cases e
    refine Raf.bind_ne (r16 _ _) fun tag => Raf.bind_ne (r16 _ _) fun len => ?_
    simp only
    split
    · exact Raf.bind_ne (Raf.mapM_ne _ (fun _ => r16 _ _) _) fun _ e => by cases e
    · split
      · exact Raf.bind_ne (Raf.mapM_ne _ (fun _ => r8 _ _) _) fun _ e => by cases e
      · split
        · exact Raf.bind_ne (Raf.mapM_ne _ (fun _ => l32 _ _) _) fun _ e => by cases e
        · intro e; cases e

/-- **C97, odd lengths.** A crop of five bytes moves all later entries by one byte: here the cropped size that follows it is lost. -/
theorem C97_odd_lost : ∃ m, parse ([0, 0, 0, 2] ++ [1, 0x10, 0, 5, 0, 1, 0, 2, 0] ++ [1, 0x11, 0, 4, 0, 3, 0, 4]) 0 = .ok m ∧ m 0x111 = none := by
  refine ⟨_, rfl, rfl⟩

/-- A block with a crop, a layout and an unknown tag -/
example : (∀ e ∈ [Entry.shorts 0x110 [1, 2], .other 5 [1, 2, 3], .bytes 0x131 [0, 1, 2], .longs [70000], .shorts 0x110 [3, 4]], e.Ok) ∧
    look [Entry.shorts 0x110 [1, 2], .other 5 [1, 2, 3], .bytes 0x131 [0, 1, 2], .longs [70000], .shorts 0x110 [3, 4]] 0x110 = some (.shorts [3, 4]) := by
  refine ⟨?_, by decide⟩
  intro e he
  simp only [List.mem_cons, List.not_mem_nil, or_false] at he
  rcases he with rfl | rfl | rfl | rfl | rfl <;> simp only [Entry.Ok] <;> decide

end Verif.Props
