import Verif.Proofs.ExifDirs
import Verif.Props.Tiff
/-! # The metadata directories can be written -/

namespace Verif.Exif
open Verif Verif.Tiff Verif.Spec Verif.Spec.Exif

/-! ## What a history leaves was given to it -/

theorem mem_foldl_insert (f : List (Nat × Value) → Nat × Value → List (Nat × Value)) (hf : ∀ l e x, x ∈ f l e → x = e ∨ x ∈ l)
    (src l : List (Nat × Value)) (x : Nat × Value) (h : x ∈ src.foldl f l) : x ∈ l ∨ x ∈ src := by
  induction src generalizing l with
  | nil => exact .inl h
  | cons a src ih =>
    rcases ih _ h with h | h
    · rcases hf _ _ _ h with rfl | h
      · exact .inr List.mem_cons_self
      · exact .inl h
    · exact .inr (List.mem_cons_of_mem _ h)

theorem applyDirOp_mem (l : List (Nat × Value)) (op : DirOp) (x : Nat × Value) (h : x ∈ applyDirOp l op) : x ∈ l ∨ x ∈ given op := by
  cases op with
  | add t v =>
    rcases mem_insertTag t v l x h with rfl | h
    · exact .inr List.mem_cons_self
    · exact .inl h
  | remove t => exact .inl (List.mem_filter.1 h).1
  | copy src =>
    refine mem_foldl_insert _ (fun l e x hx => ?_) src l x h
    split at hx
    · exact .inr hx
    · exact mem_insertTag _ _ l x hx
  | copyOverride src => exact mem_foldl_insert _ (fun l e x hx => mem_insertTag _ _ l x hx) src l x h

theorem foldl_mem (ops : List DirOp) (l : List (Nat × Value)) (x : Nat × Value) (h : x ∈ ops.foldl applyDirOp l) : x ∈ l ∨ x ∈ ops.flatMap given := by
  induction ops generalizing l with
  | nil => exact .inl h
  | cons op ops ih =>
    rw [List.flatMap_cons]
    rcases ih _ h with h | h
    · rcases applyDirOp_mem l op x h with h | h
      · exact .inl h
      · exact .inr (List.mem_append_left _ h)
    · exact .inr (List.mem_append_right _ h)

theorem entries_mem (ops : List DirOp) (x : Nat × Value) (h : x ∈ entriesOf ops) : x ∈ ops.flatMap given := by
  rcases foldl_mem ops [] x h with h | h
  · simp at h
  · exact h

theorem insertTag_length {α : Type} (k : Nat) (v : α) (l : List (Nat × α)) : (insertTag k v l).length ≤ l.length + 1 := by
  induction l with
  | nil => exact Nat.le_refl _
  | cons a l ih =>
    rw [insertTag]
    split
    · exact Nat.le_refl _
    · split
      · simp
      · simp only [List.length_cons]; omega

theorem foldl_insert_length (f : List (Nat × Value) → Nat × Value → List (Nat × Value)) (hf : ∀ l e, (f l e).length ≤ l.length + 1)
    (src l : List (Nat × Value)) : (src.foldl f l).length ≤ l.length + src.length := by
  induction src generalizing l with
  | nil => exact Nat.le_refl _
  | cons a src ih =>
    have h1 := ih (f l a)
    have h2 := hf l a
    simp only [List.foldl_cons, List.length_cons]
    omega

theorem applyDirOp_length (l : List (Nat × Value)) (op : DirOp) : (applyDirOp l op).length ≤ l.length + (given op).length := by
  cases op with
  | add t v => exact insertTag_length t v l
  | remove t => exact Nat.le_trans (List.length_filter_le _ _) (Nat.le_add_right _ _)
  | copy src =>
    refine foldl_insert_length _ (fun l e => ?_) src l
    split
    · exact Nat.le_add_right _ _
    · exact insertTag_length _ _ l
  | copyOverride src => exact foldl_insert_length _ (fun l e => insertTag_length _ _ l) src l

theorem foldl_length (ops : List DirOp) (l : List (Nat × Value)) : (ops.foldl applyDirOp l).length ≤ l.length + (ops.flatMap given).length := by
  induction ops generalizing l with
  | nil => exact Nat.le_refl _
  | cons op ops ih =>
    have h1 := ih (applyDirOp l op)
    have h2 := applyDirOp_length l op
    simp only [List.foldl_cons, List.flatMap_cons, List.length_append]
    omega

theorem writable_of (utf8 : List Nat → Bool) (ops : List DirOp) (t : Nat) (ht : mapOf ops t ≠ none) (hl : (ops.flatMap given).length ≤ 4096)
    (hg : ∀ x ∈ ops.flatMap given, Entry utf8 x) : WritableDir utf8 ops := by
  refine ⟨?_, ?_, fun x hx => hg x (entries_mem ops x hx)⟩
  · intro h
    apply ht
    rw [← (entriesOf_spec ops).2, h]
    rfl
  · have := foldl_length ops []
    rw [List.length_nil, Nat.zero_add] at this
    exact Nat.le_trans this hl

/-! ## The values that are carried over -/

theorem transfer_given (l : List (Nat × Option Value)) : (l.flatMap transfer).flatMap given = l.flatMap fun x => (x.2.map fun v => (x.1, v)).toList := by
  induction l with
  | nil => rfl
  | cons a l ih =>
    rw [List.flatMap_cons, List.flatMap_append, ih, List.flatMap_cons]
    obtain ⟨t, o⟩ := a
    cases o <;> rfl

theorem head_mem {α : Type} {l : List α} {x : α} (h : l.head? = some x) : x ∈ l := by
  cases l with
  | nil => simp at h
  | cons a l => simp only [List.head?_cons, Option.some.injEq] at h; subst h; exact List.mem_cons_self

theorem le_sum_of_mem {l : List Nat} {x : Nat} (h : x ∈ l) : x ≤ l.sum := by
  induction l with
  | nil => simp at h
  | cons a l ih =>
    rw [List.sum_cons]
    rcases List.mem_cons.1 h with rfl | h
    · exact Nat.le_add_right _ _
    · exact Nat.le_trans (ih h) (Nat.le_add_left _ _)

theorem take_good (utf8 : List Nat → Bool) (trim : List Nat → List Nat) (ht : TrimOk utf8 trim) (κ : Kind) (v r : Value) (hv : Typed utf8 v)
    (hc : v.count < 2 ^ 32) (hs : κ = .sshorts ∨ κ = .undefined → Storable v) (h : κ.take trim v = some (some r)) :
    Typed utf8 r ∧ Storable r ∧ r.count < 2 ^ 32 := by
  have one : (1 : Nat) < 2 ^ 32 := by decide
  cases κ <;> cases v <;> simp only [Kind.take, Option.some.injEq, reduceCtorEq, Option.map_eq_some_iff] at h
  case short.short l => obtain ⟨x, hx, rfl⟩ := h; exact ⟨by intro y hy; rw [List.mem_singleton.1 hy]; exact hv x (head_mem hx), Nat.one_pos, one⟩
  case long.long l => obtain ⟨x, hx, rfl⟩ := h; exact ⟨by intro y hy; rw [List.mem_singleton.1 hy]; exact hv x (head_mem hx), Nat.one_pos, one⟩
  case byte.byte l => obtain ⟨x, hx, rfl⟩ := h; exact ⟨by intro y hy; rw [List.mem_singleton.1 hy]; exact hv x (head_mem hx), Nat.one_pos, one⟩
  case rational.rational l => obtain ⟨x, hx, rfl⟩ := h; exact ⟨by intro y hy; rw [List.mem_singleton.1 hy]; exact hv x (head_mem hx), Nat.one_pos, one⟩
  case srational.srational l => obtain ⟨x, hx, rfl⟩ := h; exact ⟨by intro y hy; rw [List.mem_singleton.1 hy]; exact hv x (head_mem hx), Nat.one_pos, one⟩
  case text.ascii a =>
    obtain ⟨x, hx, rfl⟩ := h
    have hm := head_mem hx
    refine ⟨by intro y hy; rw [List.mem_singleton.1 hy]; exact hv x hm, rfl, ?_⟩
    have : x.length + 1 ≤ (a.strings.map fun s => s.length + 1).sum := le_sum_of_mem (List.mem_map.2 ⟨x, hm, rfl⟩)
    have hc' : (a.strings.map fun s => s.length + 1).sum < 2 ^ 32 := hc
    show x.length + 1 + 0 < 2 ^ 32
    omega
  case trimmed.ascii a =>
    obtain ⟨x, hx, rfl⟩ := h
    have hm := head_mem hx
    have hto := ht x (hv x hm)
    refine ⟨by intro y hy; rw [List.mem_singleton.1 hy]; exact hto.1, rfl, ?_⟩
    have : x.length + 1 ≤ (a.strings.map fun s => s.length + 1).sum := le_sum_of_mem (List.mem_map.2 ⟨x, hm, rfl⟩)
    have hc' : (a.strings.map fun s => s.length + 1).sum < 2 ^ 32 := hc
    have := hto.2
    show (trim x).length + 1 + 0 < 2 ^ 32
    omega
  case sshorts.sshort l => subst h; exact ⟨hv, hs (.inl rfl), hc⟩
  case undefined.undefined l => subst h; exact ⟨hv, hs (.inr rfl), hc⟩
  case bytes4.byte l =>
    split at h
    · next hl =>
      rw [Option.some.injEq] at h; subst h
      exact ⟨hv, (by show 0 < l.length; omega), hc⟩
    · exact absurd h (by simp)
  case rational3.rational l =>
    split at h
    · next hl =>
      rw [Option.some.injEq] at h; subst h
      exact ⟨hv, (by show 0 < l.length; omega), hc⟩
    · exact absurd h (by simp)

def sourceDirs (s : Source) (d : List (Nat × Value)) : Prop := d = s.main ∨ s.exif = some d ∨ s.gps = some d

theorem taken_good (utf8 : List Nat → Bool) (trim : List Nat → List Nat) (ht : TrimOk utf8 trim) (s : Source) (hs : s.Writable utf8) (κ : Kind) (t : Nat)
    (hκ : κ = .sshorts ∨ κ = .undefined → t = 0x882a ∨ t = 0x1b ∨ t = 0x1c) (dir : Option (List (Nat × Value)))
    (hd : ∀ d, dir = some d → sourceDirs s d) (r : Value) (h : taken trim κ t dir = some (some r)) :
    Typed utf8 r ∧ Storable r ∧ r.count < 2 ^ 32 := by
  unfold taken at h
  obtain ⟨v, hv, h⟩ := Option.bind_eq_some_iff.1 h
  obtain ⟨d, hd', hf⟩ := Option.bind_eq_some_iff.1 hv
  have hx := hs d (hd d hd') _ (find_mem hf)
  exact take_good utf8 trim ht κ v r hx.1 hx.2.1 (fun hk => hx.2.2 (hκ hk)) h

theorem value_good (utf8 : List Nat → Bool) (trim : List Nat → List Nat) (ht : TrimOk utf8 trim) (s : Source) (hs : s.Writable utf8) (κ : Kind) (t : Nat)
    (hκ : κ = .sshorts ∨ κ = .undefined → t = 0x882a ∨ t = 0x1b ∨ t = 0x1c) (r : Value) (h : s.value trim t κ = some r) :
    Typed utf8 r ∧ Storable r ∧ r.count < 2 ^ 32 := by
  unfold Source.value at h
  split at h
  · next q hq =>
    subst h
    exact taken_good utf8 trim ht s hs κ t hκ _ (fun d hd => .inr (.inl hd)) r hq
  · split at h
    · next q hq =>
      subst h
      exact taken_good utf8 trim ht s hs κ t hκ _ (fun d hd => .inl (Option.some.inj hd).symm) r hq
    · simp at h

theorem tables_kinds : ∀ x ∈ mainTable ++ exifTable ++ gpsTable, x.2 = .sshorts ∨ x.2 = .undefined → x.1 = 0x882a ∨ x.1 = 0x1b ∨ x.1 = 0x1c := by
  decide

theorem want_good (utf8 : List Nat → Bool) (trim : List Nat → List Nat) (ht : TrimOk utf8 trim) (s : Source) (hs : s.Writable utf8) (t : Nat)
    (r : Value) (h : want trim s t = some r) : Typed utf8 r ∧ Storable r ∧ r.count < 2 ^ 32 := by
  obtain ⟨κ, hk, h⟩ := Option.bind_eq_some_iff.1 h
  exact value_good utf8 trim ht s hs κ t (tables_kinds (t, κ) (List.mem_append_left _ (find_mem hk))) r h

theorem gpsWant_good (utf8 : List Nat → Bool) (s : Source) (hs : s.Writable utf8) (t : Nat)
    (r : Value) (h : gpsWant s t = some r) : Typed utf8 r ∧ Storable r ∧ r.count < 2 ^ 32 := by
  obtain ⟨κ, hk, h⟩ := Option.bind_eq_some_iff.1 h
  unfold Source.gpsValue at h
  split at h
  · next q hq =>
    subst h
    exact taken_good utf8 id (fun s hs => ⟨hs, Nat.le_refl _⟩) s hs κ t (tables_kinds (t, κ) (List.mem_append_right _ (find_mem hk))) _
      (fun d hd => .inr (.inr hd)) r hq
  · simp at h

theorem lens_good (utf8 : List Nat → Bool) (lens : Option Lens) (hl : ∀ l, lens = some l → LensOk utf8 l) (t : Nat) (r : Value)
    (h : lensValue lens t = some r) : Typed utf8 r ∧ Storable r ∧ r.count < 2 ^ 32 := by
  obtain ⟨l, hl', h⟩ := Option.bind_eq_some_iff.1 h
  obtain ⟨h1, h2, h3, h4, h5⟩ := hl l hl'
  have h4' : (4 : Nat) < 2 ^ 32 := by decide
  split at h
  · rw [Option.some.injEq] at h; subst h
    exact ⟨h5, Nat.succ_pos _, h4'⟩
  · split at h
    · rw [Option.some.injEq] at h; subst h
      exact ⟨by intro y hy; rw [List.mem_singleton.1 hy]; exact h1, rfl, h3⟩
    · split at h
      · rw [Option.some.injEq] at h; subst h
        exact ⟨by intro y hy; rw [List.mem_singleton.1 hy]; exact h2, rfl, h4⟩
      · simp at h

theorem wantExif_good (utf8 : List Nat → Bool) (trim : List Nat → List Nat) (ht : TrimOk utf8 trim) (s : Source) (hs : s.Writable utf8)
    (lens : Option Lens) (hl : ∀ l, lens = some l → LensOk utf8 l) (t : Nat) (r : Value) (h : wantExif trim s lens t = some r) :
    Typed utf8 r ∧ Storable r ∧ r.count < 2 ^ 32 := by
  unfold wantExif at h
  split at h
  · exact lens_good utf8 lens hl t r h
  · exact want_good utf8 trim ht s hs t r h

/-- Entries of a list of fields -/
theorem fields_entries (utf8 : List Nat → Bool) (tags : List (Nat × Option Value)) (hb : ∀ x ∈ tags, x.1 < 2 ^ 16) (W : Nat → Option Value)
    (hW : ∀ t r, W t = some r → Typed utf8 r ∧ Storable r ∧ r.count < 2 ^ 32) (x : Nat × Value)
    (hx : x ∈ ((tags.map fun x => (x.1, W x.1)).flatMap transfer).flatMap given) : Entry utf8 x := by
  rw [transfer_given] at hx
  obtain ⟨y, hy, hx⟩ := List.mem_flatMap.1 hx
  obtain ⟨z, hz, rfl⟩ := List.mem_map.1 hy
  rw [Option.mem_toList, Option.map_eq_some_iff] at hx
  obtain ⟨v, hv, rfl⟩ := hx
  exact ⟨hb z hz, hW z.1 v hv⟩

theorem fields_length (tags : List (Nat × Option Value)) : ((tags.flatMap transfer).flatMap given).length ≤ tags.length := by
  induction tags with
  | nil => exact Nat.le_refl _
  | cons a l ih =>
    rw [List.flatMap_cons, List.flatMap_append, List.length_append, List.length_cons]
    have : ((transfer a).flatMap given).length ≤ 1 := by
      obtain ⟨t, o⟩ := a
      cases o
      · exact Nat.zero_le _
      · exact Nat.le_refl _
    omega

/-! ## The directories -/

theorem exifOps_map (trim : List Nat → List Nat) (s : Source) (hs : s.Valid) (lens : Option Lens) :
    mapOf (exifOps (metadata trim s.main s.exif s.gps lens)) = s.exifDir trim lens := by
  have h1 : mapOf (exifOps (metadata trim s.main s.exif s.gps lens)) = fun k => if k = 0x927c then none else
      ((exifTags (metadata trim s.main s.exif s.gps lens)).flatMap transfer).foldl applyMap
        (fun k => if k = 0x9000 then some (.undefined [48, 50, 50, 48]) else none) k := by
    rw [exifOps, mapOf, List.foldl_cons, List.foldl_append]
    rfl
  have hn : (((exifTags {}).map fun x => (x.1, wantExif trim s lens x.1)).map (·.1)).Nodup := by
    rw [List.map_map]
    show ((exifTags {}).map (·.1)).Nodup
    decide
  rw [h1, metadata_exif trim s hs lens, fold_transfer _ hn]
  funext k
  simp only [find_map]
  unfold Source.exifDir
  by_cases h9 : k = 0x9000
  · subst h9
    rw [if_neg (by decide), if_pos rfl, if_pos rfl, if_neg (by decide)]
    rfl
  rw [if_neg h9, if_neg h9]
  by_cases h7 : k = 0x927c
  · subst h7
    rw [if_pos rfl]
    show none = lensValue lens 0x927c
    cases lens <;> rfl
  rw [if_neg h7]
  by_cases hm : k ∈ (exifTags {}).map (·.1)
  · rw [if_pos hm]
    show ((some (wantExif trim s lens k)).bind id).or none = _
    rw [Option.bind_some, id, Option.or_none]
    by_cases hl : k = 0xa432 ∨ k = 0xa433 ∨ k = 0xa434
    · rw [wantExif, if_pos hl]
      rcases hl with rfl | rfl | rfl <;> rfl
    · rw [wantExif, if_neg hl, want]
      have hk : kindOf k = find exifTable k := by
        have hr : k ∉ mainTable.map (·.1) := by
          intro hr
          have : ∀ t ∈ mainTable.map (·.1), t ∉ (exifTags {}).map (·.1) := by decide
          exact this k hr hm
        unfold kindOf find
        rw [List.find?_append]
        have : mainTable.find? (fun e => e.1 == k) = none := by
          rw [List.find?_eq_none]
          intro x hx he
          exact hr (List.mem_map.2 ⟨x, hx, by simpa using he⟩)
        rw [this]; rfl
      rw [hk]
      cases hf : find exifTable k with
      | some κ => rfl
      | none =>
        exfalso
        have : ∀ t ∈ (exifTags {}).map (·.1), (t = 0xa432 ∨ t = 0xa433 ∨ t = 0xa434) ∨ (find exifTable t).isSome := by decide
        rcases this k hm with h | h
        · exact hl h
        · rw [hf] at h; simp at h
  · rw [if_neg hm]
    have h0 : find exifTable k = none := by
      cases hf : find exifTable k with
      | none => rfl
      | some κ =>
        have : ∀ t ∈ exifTable.map (·.1), t ∈ (exifTags {}).map (·.1) := by decide
        exact absurd (this k (mem_of_kind hf)) hm
    rw [h0]
    have hl : k ≠ 0xa432 ∧ k ≠ 0xa433 ∧ k ≠ 0xa434 := by
      refine ⟨?_, ?_, ?_⟩ <;> (rintro rfl; exact hm (by decide))
    cases lens with
    | none => rfl
    | some l =>
      simp only [lensValue, Option.bind_some]
      rw [if_neg hl.1, if_neg hl.2.1, if_neg hl.2.2]
      rfl

theorem gpsOps_map (trim : List Nat → List Nat) (s : Source) (hs : s.Valid) (lens : Option Lens) :
    mapOf (gpsOps (metadata trim s.main s.exif s.gps lens)) = s.gpsDir := by
  have hn : (((gpsTags {}).map fun x => (x.1, gpsWant s x.1)).map (·.1)).Nodup := by
    rw [List.map_map]
    show ((gpsTags {}).map (·.1)).Nodup
    decide
  rw [gpsOps_eq, mapOf, metadata_gps trim s hs lens, fold_transfer _ hn]
  funext k
  simp only [find_map]
  unfold Source.gpsDir
  by_cases hm : k ∈ (gpsTags {}).map (·.1)
  · rw [if_pos hm]
    show ((some (gpsWant s k)).bind id).or none = _
    rw [Option.bind_some, id, Option.or_none]
    rfl
  · rw [if_neg hm]
    cases hf : find gpsTable k with
    | none => rfl
    | some κ =>
      have : ∀ t ∈ gpsTable.map (·.1), t ∈ (gpsTags {}).map (·.1) := by decide
      exact absurd (this k (mem_of_kind hf)) hm

end Verif.Exif
