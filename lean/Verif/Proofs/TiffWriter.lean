import Verif.Proofs.TiffDir
/-! # TIFF: the writer -/

namespace Verif.Tiff
open Verif Verif.Spec Verif.Props

theorem Laid.append {lo mid hi : Nat} {l l' : List (Nat × Nat)} (h : Laid lo l mid) (h' : Laid mid l' hi) : Laid lo (l ++ l') hi := by
  induction l generalizing lo with
  | nil =>
    rw [List.nil_append]
    cases l' with
    | nil => exact Nat.le_trans h h'
    | cons x l' => exact ⟨Nat.le_trans h h'.1, h'.2⟩
  | cons x l ih => exact ⟨h.1, h.2.1, ih h.2.2⟩

theorem At.mono {D D' : List Nat} {o : Nat} {b : List Nat} (h : At D o b) (hp : D <+: D') : At D' o b := by
  obtain ⟨r, rfl⟩ := hp
  obtain ⟨h1, h2⟩ := h
  refine ⟨by rw [List.length_append]; omega, ?_⟩
  rw [List.drop_append_of_le_length (by omega), List.take_append_of_le_length (by rw [List.length_drop]; omega), h2]

theorem Stored.mono {D D' : List Nat} {v : Value} {e : Nat} (h : Stored D v e) (hp : D <+: D') : Stored D' v e := by
  unfold Stored at h ⊢
  split
  · rename_i hb
    rw [if_pos hb] at h
    obtain ⟨b, h1, h2⟩ := h
    exact ⟨b, h1, At.mono h2 hp⟩
  · rename_i hb
    rwa [if_neg hb] at h

/-- The writer stands at the end of the file, behind the header. -/
structure Clean (t : Writer) : Prop where
  pos : t.file.pos = t.file.data.length
  hdr : 8 ≤ t.file.data.length
  loc : t.ifdLocation = 4

theorem put_data {t : Writer} (h : Clean t) (b : List Nat) : (t.put b).file.data = t.file.data ++ b := by
  simp [Writer.put, File.put, h.pos]

theorem put_clean {t : Writer} (h : Clean t) (b : List Nat) : Clean (t.put b) := by
  refine ⟨?_, ?_, h.loc⟩
  · rw [put_data h, List.length_append]; simp [Writer.put, File.put, h.pos]
  · rw [put_data h, List.length_append]; have := h.hdr; omega

theorem new_clean : Clean (Writer.new { data := [], pos := 0 }) ∧ (Writer.new { data := [], pos := 0 }).file.data = [0x49, 0x49, 42, 0, 0, 0, 0, 0] := by
  have : (Writer.new { data := [], pos := 0 }).file.data = [0x49, 0x49, 42, 0, 0, 0, 0, 0] := by decide
  exact ⟨⟨by decide, by decide, by decide⟩, this⟩

/-- Padding and a block of bytes. -/
theorem writeData_ok {t : Writer} (h : Clean t) (b : List Nat) :
    Clean (t.writeData b).1 ∧ t.file.data <+: (t.writeData b).1.file.data ∧ t.file.data.length + b.length ≤ (t.writeData b).1.file.data.length ∧
      ((t.writeData b).1.file.data.length < 2 ^ 32 →
        At (t.writeData b).1.file.data (t.writeData b).2 b ∧
        Laid t.file.data.length [((t.writeData b).2, b.length)] (t.writeData b).1.file.data.length) := by
  have hpad : ∃ z : List Nat, Clean t.pad ∧ t.pad.file.data = t.file.data ++ z ∧ (t.file.data.length + z.length) % 4 = 0 := by
    unfold Writer.pad
    by_cases hm : t.position % 4 ≠ 0
    · rw [if_pos hm]
      refine ⟨_, put_clean h _, put_data h _, ?_⟩
      rw [Writer.position, h.pos] at hm ⊢
      have h4 : t.file.data.length % 2 ^ 32 % 4 = t.file.data.length % 4 := by omega
      rw [h4] at hm ⊢
      have hlen : ([0, 0, 0].take (4 - t.file.data.length % 4)).length = 4 - t.file.data.length % 4 := by
        rw [List.length_take]; simp; omega
      rw [hlen]; omega
    · rw [if_neg hm]
      rw [Writer.position, h.pos] at hm
      exact ⟨[], h, by simp, by simp; omega⟩
  obtain ⟨z, hc, hd, hz⟩ := hpad
  have hdata : (t.writeData b).1.file.data = t.file.data ++ z ++ b := by rw [Writer.writeData, put_data hc, hd]
  have hlen : (t.writeData b).1.file.data.length = t.file.data.length + z.length + b.length := by rw [hdata]; simp; omega
  refine ⟨put_clean hc b, ⟨z ++ b, by rw [hdata, List.append_assoc]⟩, by omega, ?_⟩
  intro hlt
  have hoff : (t.writeData b).2 = t.file.data.length + z.length := by
    show t.pad.file.pos % 2 ^ 32 = _
    rw [hc.pos, hd, List.length_append, Nat.mod_eq_of_lt (by omega)]
  rw [hoff, hlen, hdata]
  refine ⟨⟨by simp; omega, ?_⟩, by omega, hz, by show _ ≤ _; omega⟩
  have : t.file.data.length + z.length = (t.file.data ++ z).length := by simp
  rw [this, List.drop_left, List.take_length]

theorem outside_cons (x : Nat × Value × Nat) (es : List (Nat × Value × Nat)) :
    outside (x :: es) = (if x.2.1.byteSize > 4 then [(x.2.2, x.2.1.byteSize)] else []) ++ outside es := by
  rw [outside, List.filterMap_cons]
  by_cases h : x.2.1.byteSize > 4
  · simp only [h, if_true]; rfl
  · simp only [h, if_false]; rfl

theorem putValue_ok (utf8 : List Nat → Bool) {t : Writer} (h : Clean t) (v : Value) (ht : Typed utf8 v) (hs : Storable v) :
    ∃ t' e, t.putValue v = .ok (t', e) ∧ Clean t' ∧ t.file.data <+: t'.file.data ∧
      (t'.file.data.length < 2 ^ 32 → Stored t'.file.data v e ∧ (v.byteSize > 4 → 8 ≤ e) ∧
        Laid t.file.data.length (outside [(0, v, e)]) t'.file.data.length) := by
  obtain ⟨b, hw, hlen, _, _, _⟩ := write_decode utf8 v ht hs
  by_cases h4 : v.byteSize > 4
  · obtain ⟨h1, h2, h3, h5⟩ := writeData_ok h b
    refine ⟨(t.writeData b).1, (t.writeData b).2, ?_, h1, h2, ?_⟩
    · rw [Writer.putValue, if_pos h4, hw]; rfl
    · intro hlt
      obtain ⟨a1, a2⟩ := h5 hlt
      refine ⟨?_, fun _ => ?_, ?_⟩
      · rw [Stored, if_pos h4]; exact ⟨b, hw, a1⟩
      · exact Nat.le_trans h.hdr a2.1
      · rw [outside_cons, if_pos h4, ← hlen]; exact a2
  · obtain ⟨hc, e, b', he, hw', htake⟩ := embedded_bytes utf8 v ht hs (by omega)
    refine ⟨t, e, ?_, h, List.prefix_rfl, ?_⟩
    · rw [Writer.putValue, if_neg h4, if_neg (by omega), he]; rfl
    · intro hlt
      refine ⟨by rw [Stored, if_neg h4]; exact he, fun hh => absurd hh h4, ?_⟩
      rw [outside_cons, if_neg h4]; exact Nat.le_refl _

theorem putValues_ok (utf8 : List Nat → Bool) (l : List (Nat × Value)) (hl : ∀ e ∈ l, Typed utf8 e.2 ∧ Storable e.2) {t : Writer} (h : Clean t) :
    ∃ t' es, t.putValues l = .ok (t', es) ∧ Clean t' ∧ t.file.data <+: t'.file.data ∧ es.map (fun x => (x.1, x.2.1)) = l ∧
      (t'.file.data.length < 2 ^ 32 → (∀ x ∈ es, Stored t'.file.data x.2.1 x.2.2 ∧ (x.2.1.byteSize > 4 → 8 ≤ x.2.2)) ∧
        Laid t.file.data.length (outside es) t'.file.data.length) := by
  induction l generalizing t with
  | nil =>
    exact ⟨t, [], rfl, h, List.prefix_rfl, rfl, fun _ => ⟨by simp, Nat.le_refl _⟩⟩
  | cons a l ih =>
    obtain ⟨tag, v⟩ := a
    obtain ⟨hty, hst⟩ := hl _ List.mem_cons_self
    obtain ⟨t1, e, h1, h2, h3, h4⟩ := putValue_ok utf8 h v hty hst
    obtain ⟨t2, es, g1, g2, g3, g4, g5⟩ := ih (fun x hx => hl x (List.mem_cons_of_mem _ hx)) h2
    refine ⟨t2, (tag, v, e) :: es, ?_, g2, h3.trans g3, by simp [g4], ?_⟩
    · rw [Writer.putValues, h1]
      simp only [bind, Except.bind]
      rw [g1]
    · intro hlt
      have hlt1 : t1.file.data.length < 2 ^ 32 := Nat.lt_of_le_of_lt g3.length_le hlt
      obtain ⟨a1, a2, a3⟩ := h4 hlt1
      obtain ⟨b1, b2⟩ := g5 hlt
      refine ⟨?_, ?_⟩
      · intro x hx
        rcases List.mem_cons.mp hx with rfl | hx
        · exact ⟨Stored.mono a1 g3, a2⟩
        · exact b1 x hx
      · have : outside ((tag, v, e) :: es) = outside [(0, v, e)] ++ outside es := by
          rw [outside_cons, outside_cons]; simp [outside]
        rw [this]
        exact Laid.append a3 b2

/-- A directory written somewhere in the data. -/
def DirAt (D : List Nat) (l : List (Nat × Value)) (off : Nat) (bl : List (Nat × Nat)) : Prop :=
  ∃ es : List (Nat × Value × Nat), es.map (fun x => (x.1, x.2.1)) = l ∧ 8 ≤ off ∧ At D off (dirBytes es) ∧
    (∀ x ∈ es, Stored D x.2.1 x.2.2 ∧ (x.2.1.byteSize > 4 → 8 ≤ x.2.2)) ∧ bl = outside es ++ [(off, (dirBytes es).length)]

theorem DirAt.mono {D D' : List Nat} {l : List (Nat × Value)} {off : Nat} {bl : List (Nat × Nat)} (h : DirAt D l off bl) (hp : D <+: D') :
    DirAt D' l off bl := by
  obtain ⟨es, h1, h2, h3, h4, h5⟩ := h
  exact ⟨es, h1, h2, At.mono h3 hp, fun x hx => ⟨Stored.mono (h4 x hx).1 hp, (h4 x hx).2⟩, h5⟩

theorem buildDir_ok (utf8 : List Nat → Bool) (hist : List DirOp) (hw : WritableDir utf8 hist) {t : Writer} (h : Clean t) :
    ∃ t' off, t.buildDir (entriesOf hist) = .ok (t', off) ∧ Clean t' ∧ t.file.data <+: t'.file.data ∧
      (t'.file.data.length < 2 ^ 32 → ∃ bl, DirAt t'.file.data (entriesOf hist) off bl ∧ Laid t.file.data.length bl t'.file.data.length) := by
  obtain ⟨hne, hlen, hok⟩ := hw
  obtain ⟨t1, es, h1, h2, h3, h4, h5⟩ := putValues_ok utf8 (entriesOf hist) (fun e he => ⟨(hok e he).2.1, (hok e he).2.2.1⟩) h
  obtain ⟨g1, g2, g3, g4⟩ := writeData_ok h2 (dirBytes es)
  refine ⟨(t1.writeData (dirBytes es)).1, (t1.writeData (dirBytes es)).2, ?_, g1, h3.trans g2, ?_⟩
  · rw [Writer.buildDir, if_neg hne, h1]; rfl
  · intro hlt
    have hlt1 := Nat.lt_of_le_of_lt g2.length_le hlt
    obtain ⟨a1, a2⟩ := h5 hlt1
    obtain ⟨b1, b2⟩ := g4 hlt
    exact ⟨_, ⟨es, h4, Nat.le_trans h2.hdr b2.1, b1, fun x hx => ⟨Stored.mono (a1 x hx).1 g2, (a1 x hx).2⟩, rfl⟩, Laid.append a2 b2⟩

/-- What an operation leaves in the data. -/
def OpAt (D : List Nat) (o : WOp) (r : Nat × List (Nat × Nat)) : Prop :=
  match o with
  | .data b => 8 ≤ r.1 ∧ At D r.1 b ∧ r.2 = [(r.1, b.length)]
  | .dir h => DirAt D (entriesOf h) r.1 r.2

theorem OpAt.mono {D D' : List Nat} {o : WOp} {r : Nat × List (Nat × Nat)} (h : OpAt D o r) (hp : D <+: D') : OpAt D' o r := by
  cases o with
  | data b => exact ⟨h.1, At.mono h.2.1 hp, h.2.2⟩
  | dir hist => exact DirAt.mono h hp

theorem run_ok (utf8 : List Nat → Bool) (o : WOp) (hw : Writable utf8 o) {t : Writer} (h : Clean t) :
    ∃ t' off, o.run t = .ok (t', off) ∧ Clean t' ∧ t.file.data <+: t'.file.data ∧
      (t'.file.data.length < 2 ^ 32 → ∃ bl, OpAt t'.file.data o (off, bl) ∧ Laid t.file.data.length bl t'.file.data.length) := by
  cases o with
  | data b =>
    obtain ⟨g1, g2, g3, g4⟩ := writeData_ok h b
    exact ⟨_, _, rfl, g1, g2, fun hlt => ⟨_, ⟨Nat.le_trans h.hdr (g4 hlt).2.1, (g4 hlt).1, rfl⟩, (g4 hlt).2⟩⟩
  | dir hist => exact buildDir_ok utf8 hist hw h

theorem runAll_ok (utf8 : List Nat → Bool) (ops : List WOp) (hw : ∀ o ∈ ops, Writable utf8 o) {t : Writer} (h : Clean t) :
    ∃ t' offs, runAll t ops = .ok (t', offs) ∧ Clean t' ∧ t.file.data <+: t'.file.data ∧
      (t'.file.data.length < 2 ^ 32 → ∃ lay : List (Nat × List (Nat × Nat)), offs = lay.map (·.1) ∧
        List.Forall₂ (OpAt t'.file.data) ops lay ∧ Laid t.file.data.length (lay.flatMap (·.2)) t'.file.data.length) := by
  induction ops generalizing t with
  | nil => exact ⟨t, [], rfl, h, List.prefix_rfl, fun _ => ⟨[], rfl, List.Forall₂.nil, Nat.le_refl _⟩⟩
  | cons o ops ih =>
    obtain ⟨t1, off, h1, h2, h3, h4⟩ := run_ok utf8 o (hw o List.mem_cons_self) h
    obtain ⟨t2, offs, g1, g2, g3, g4⟩ := ih (fun x hx => hw x (List.mem_cons_of_mem _ hx)) h2
    refine ⟨t2, off :: offs, ?_, g2, h3.trans g3, ?_⟩
    · rw [runAll, h1]
      simp only [bind, Except.bind]
      rw [g1]
    · intro hlt
      obtain ⟨bl, a1, a2⟩ := h4 (Nat.lt_of_le_of_lt g3.length_le hlt)
      obtain ⟨lay, b1, b2, b3⟩ := g4 hlt
      exact ⟨(off, bl) :: lay, by rw [b1]; rfl, List.Forall₂.cons (OpAt.mono a1 g3) b2, Laid.append a2 b3⟩

/-! ## The header -/

/-- The final patch of the header leaves everything behind it alone. -/
theorem patch_drop (D p : List Nat) (hp : p.length = 4) (h8 : 8 ≤ D.length) (o : Nat) (ho : 8 ≤ o) :
    ((({ data := D, pos := 4 } : File).put p).data).length = D.length ∧ ((({ data := D, pos := 4 } : File).put p).data).drop o = D.drop o := by
  have e : (({ data := D, pos := 4 } : File).put p).data = (D.take 4 ++ p) ++ D.drop 8 := by
    have h0 : 4 - D.length = 0 := by omega
    simp [File.put, hp, h0]
  have hl : (D.take 4 ++ p).length = 8 := by rw [List.length_append, List.length_take, hp]; omega
  rw [e]
  refine ⟨by rw [List.length_append, hl, List.length_drop]; omega, ?_⟩
  rw [List.drop_append, hl, List.drop_of_length_le (by omega), List.nil_append, List.drop_drop]
  congr 1; omega

theorem patch_head (D p : List Nat) (hp : p.length = 4) (h8 : 8 ≤ D.length) (hd : D.take 4 = [0x49, 0x49, 42, 0]) :
    At (({ data := D, pos := 4 } : File).put p).data 0 ([0x49, 0x49, 42, 0] ++ p) := by
  have h0 : 4 - D.length = 0 := by omega
  have e : (({ data := D, pos := 4 } : File).put p).data = ([0x49, 0x49, 42, 0] ++ p) ++ D.drop 8 := by
    simp [File.put, hp, h0, hd]
  rw [e]
  refine ⟨by simp [hp], ?_⟩
  rw [List.drop_zero, List.take_left]

/-- Everything behind the header that is in `D` is in `F`. -/
def Keeps (D F : List Nat) : Prop := F.length = D.length ∧ ∀ o, 8 ≤ o → F.drop o = D.drop o

theorem At.keep {D F : List Nat} (h : Keeps D F) {o : Nat} {b : List Nat} (ho : 8 ≤ o) (ha : At D o b) : At F o b := by
  obtain ⟨h1, h2⟩ := ha
  exact ⟨by rw [h.1]; exact h1, by rw [h.2 o ho]; exact h2⟩

theorem DirAt.keep {D F : List Nat} (h : Keeps D F) {l : List (Nat × Value)} {off : Nat} {bl : List (Nat × Nat)} (hd : DirAt D l off bl) :
    DirAt F l off bl := by
  obtain ⟨es, h1, h2, h3, h4, h5⟩ := hd
  refine ⟨es, h1, h2, At.keep h h2 h3, fun x hx => ⟨?_, (h4 x hx).2⟩, h5⟩
  obtain ⟨s, e8⟩ := h4 x hx
  unfold Stored at s ⊢
  split
  · rename_i hb
    rw [if_pos hb] at s
    obtain ⟨b, s1, s2⟩ := s
    exact ⟨b, s1, At.keep h (e8 hb) s2⟩
  · rename_i hb
    rwa [if_neg hb] at s

theorem OpAt.keep {D F : List Nat} (h : Keeps D F) {o : WOp} {r : Nat × List (Nat × Nat)} (hd : OpAt D o r) : OpAt F o r := by
  cases o with
  | data b => exact ⟨hd.1, At.keep h hd.1 hd.2.1, hd.2.2⟩
  | dir hist => exact DirAt.keep h hd

/-! ## Reading back -/

theorem same_find (es ys : List (Nat × Value × Nat)) (h : List.Forall₂ Same es ys) (tag : Nat) :
    (find ys tag).map (fun x => content x.1) = (find (es.map fun x => (x.1, x.2.1)) tag).map content := by
  induction h with
  | nil => rfl
  | @cons x y es ys h hs ih =>
    rw [List.map_cons, find_cons, find_cons]
    dsimp only
    rw [h.1]
    split
    · simp [h.2.1]
    · exact ih

theorem same_asc (es ys : List (Nat × Value × Nat)) (h : List.Forall₂ Same es ys) (ha : Ascending es) : Ascending ys := by
  have key : ∀ {es ys : List (Nat × Value × Nat)}, List.Forall₂ Same es ys → ∀ y ∈ ys, ∃ x ∈ es, x.1 = y.1 := by
    intro es ys h
    induction h with
    | nil => intro y hy; simp at hy
    | @cons x y es ys h hs ih =>
      intro z hz
      rcases List.mem_cons.mp hz with rfl | hz
      · exact ⟨x, List.mem_cons_self, h.1.symm⟩
      · obtain ⟨w, hw, e⟩ := ih z hz
        exact ⟨w, List.mem_cons_of_mem _ hw, e⟩
  induction h with
  | nil => exact List.Pairwise.nil
  | @cons x y es ys h hs ih =>
    obtain ⟨a1, a2⟩ := List.pairwise_cons.mp ha
    refine List.pairwise_cons.mpr ⟨?_, ih a2⟩
    intro z hz
    obtain ⟨w, hw, e⟩ := key hs z hz
    rw [h.1, ← e]; exact a1 w hw

theorem same_outside (es ys : List (Nat × Value × Nat)) (h : List.Forall₂ Same es ys) : outside ys = outside es := by
  induction h with
  | nil => rfl
  | @cons x y es ys h hs ih =>
    rw [outside_cons, outside_cons, (content_count _ _ h.2.1).2, ih]
    split
    · rename_i hb; rw [h.2.2 hb]
    · rfl

/-- A directory in the final file is read back as the map its history denotes. -/
theorem DirAt.read (utf8 : List Nat → Bool) {F : List Nat} (hF : F.length < 2 ^ 32) {hist : List DirOp} (hw : WritableDir utf8 hist) {off : Nat}
    {bl : List (Nat × Nat)} (h : DirAt F (entriesOf hist) off bl) (subTags : List Nat) :
    ∃ d subs, readDir utf8 F .little 0 0 subTags off = .ok (d, subs) ∧ d.offset = off ∧ IsMap d (mapOf hist) ∧ d.entries ≠ [] ∧
      bl = outside d.entries ++ [(off, 6 + 12 * d.entries.length)] ∧ (subTags = [] → subs = []) := by
  obtain ⟨es, h1, h2, h3, h4, h5⟩ := h
  obtain ⟨hne, hlen, hok⟩ := hw
  obtain ⟨hasc, hmap⟩ := entriesOf_spec hist
  have hesl : es.length = (entriesOf hist).length := by rw [← h1, List.length_map]
  have hesasc : Ascending es := by
    rw [← h1] at hasc
    exact (List.pairwise_map (f := fun x : Nat × Value × Nat => (x.1, x.2.1))).mp hasc
  obtain ⟨d, subs, r1, r2, r3, r4, r5⟩ := readDir_ok utf8 F hF subTags es off h3 (by omega)
    (fun x hx => ⟨hok (x.1, x.2.1) (by rw [← h1]; exact List.mem_map_of_mem hx), (h4 x hx).1⟩) hesasc
  have hdl : d.entries.length = es.length := r4.length_eq.symm
  refine ⟨d, subs, r1, r2, ⟨r3, same_asc _ _ r4 hesasc, fun tag => ?_⟩, ?_, ?_, r5⟩
  · rw [same_find _ _ r4, h1, hmap]
  · intro hnil
    rw [hnil] at hdl
    exact hne (List.length_eq_zero_iff.mp (by simpa [← hesl] using hdl.symm))
  · have : (dirBytes es).length = 6 + 12 * es.length := by
      have hl : (es.flatMap entryBytes).length = 12 * es.length := by
        clear h5 h4 h3 h1 hesl hesasc r4 hdl
        induction es with
        | nil => rfl
        | cons x es ih => rw [List.flatMap_cons, List.length_append, ih, List.length_cons]; simp [entryBytes, le_length]; omega
      simp only [dirBytes, List.length_append, le_length, hl]; omega
    rw [h5, same_outside _ _ r4, this, hdl]

end Verif.Tiff
