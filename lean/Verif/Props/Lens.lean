import Verif.Proofs.Lens
/-! # C79: finding the lens -/

namespace Verif.Props
open Verif.Lens Verif.Spec.Lens

/-- Only one lens of the database agrees with the query. -/
def C79_OnlyOne (db : List Entry) (q : Query) (e : Entry) : Prop := e ∈ db ∧ Agrees q e ∧ ∀ x ∈ db, Agrees q x → x = e

/-- A lens that is found is in the database, and it has an identifier the file gives, or no lens has one and it is the only one that agrees with
everything else the file says, or it is the only one after the correction for two cameras that say 4 instead of 7. (Missing from the full claim, that a
lens found has the identifier if there is one: see `C79_unknown_id_other_lens`.) -/
theorem C79_sound_partial (db : List Entry) (q : Query) (hd : ∀ e ∈ db, Entry.Sane e) (hq : Query.Sane q) (hn : db.Nodup) (e : Entry)
    (h : resolve db q = some e) :
    e ∈ db ∧ (Named q e ∨ ((∀ x ∈ db, ¬ Named q x) ∧ C79_OnlyOne db q e) ∨
      (Wrong4 q ∧ (∀ x ∈ db, ¬ Named q x) ∧ (¬ ∃ x, C79_OnlyOne db q x) ∧ C79_OnlyOne db (corrected q) e)) := by
  have one : ∀ q' : Query, Query.Sane q' → ∀ x, byFilter db q' = some x ↔ C79_OnlyOne db q' x := by
    intro q' hq' x
    rw [byFilter_some, filter_single hn, C79_OnlyOne]
    constructor
    · rintro ⟨a, b, c⟩
      exact ⟨a, (keeps_iff _ _ hq' (hd _ a)).1 b, fun y hy hA => c y hy ((keeps_iff _ _ hq' (hd _ hy)).2 hA)⟩
    · rintro ⟨a, b, c⟩
      exact ⟨a, (keeps_iff _ _ hq' (hd _ a)).2 b, fun y hy hA => c y hy ((keeps_iff _ _ hq' (hd _ hy)).1 hA)⟩
  rw [resolve] at h
  split at h
  · rename_i x hx
    cases h
    obtain ⟨h1, h2⟩ := internal_some hx
    refine ⟨h1, ?_⟩
    rcases h2 with h2 | ⟨h2, h3⟩
    · exact .inl h2
    · exact .inr (.inl ⟨h2, (one q hq _).1 h3⟩)
  · rename_i hnone
    split at h
    · rename_i sub hsub
      split at h
      · rename_i hcam
        have hcor : ({ q with id := some (7, sub) } : Query) = corrected q := by rw [corrected, hsub]; rfl
        rw [hcor] at h
        obtain ⟨h1, h2⟩ := internal_some h
        have hnn : NoName db q := by
          intro x hx hN
          rw [resolveInternal] at hnone
          split at hnone
          · cases hnone
          · rename_i n1
            split at hnone
            · cases hnone
            · rename_i n2
              split at hnone
              · cases hnone
              · rename_i n3
                rcases hN with ⟨k, a, b, c⟩ | ⟨k, a, c⟩ | ⟨k, a, c⟩
                · exact findBy_none.1 n1 k ((filter_name _ _).2 ⟨a, b⟩) x hx c
                · exact findBy_none.1 n2 k a x hx c
                · exact findBy_none.1 n3 k a x hx c
        refine ⟨h1, ?_⟩
        rcases h2 with h2 | ⟨-, h3⟩
        · exact absurd (show Named q e from h2) (hnn e h1)
        · refine .inr (.inr ⟨⟨hcam, sub, hsub⟩, hnn, ?_, (one (corrected q) hq _).1 h3⟩)
          rintro ⟨x, hx⟩
          rw [internal_noName hnn, (one q hq x).2 hx] at hnone
          cases hnone
      · cases h
    · cases h

/-- A key name in the database decides alone, whatever else the file says. -/
theorem C79_key_name (db : List Entry) (q : Query) (hu : UniqueIds db) (k : String) (hk : q.keyname = some k) (h0 : k ≠ "") (e : Entry) (he : e ∈ db)
    (hn : e.name = some k) : resolve db q = some e := by
  have hf : findBy db (·.name) (q.keyname.filter fun s => s != "") = some e := by
    rw [(filter_name _ _).2 ⟨hk, h0⟩]
    cases h : findBy db (·.name) (some k) with
    | none => exact absurd hn (findBy_none.1 h k rfl e he)
    | some f =>
      obtain ⟨h1, k', h2, h3⟩ := findBy_some h
      cases h2
      rw [hu e he f h1 (.inl ⟨by rw [hn]; simp, by rw [hn, h3]⟩)]
  rw [resolve, resolveInternal, hf]

/-- A camera with a fixed lens: its key is looked up, not the name in the file. -/
theorem C79_fixed_lens (db : List Entry) (q : Query) (hu : UniqueIds db) (model k : String) (h0 : k ≠ "") (e : Entry) (he : e ∈ db) (hn : e.name = some k)
    (name : Option String) : resolve db (withCamera (withKeyname q name) model (some k)) = some e :=
  C79_key_name db _ hu k rfl h0 e he hn

/-- A Nikon or Olympus identifier in the database decides, unless a key name did. -/
theorem C79_maker_id (db : List Entry) (q : Query) (hu : UniqueIds db) (hk : ∀ k, q.keyname = some k → k ≠ "" → ∀ x ∈ db, x.name ≠ some k) (e : Entry)
    (he : e ∈ db) (h : (∃ n, q.nikonId = some n ∧ e.nikonId = some n) ∨
      ((∀ n, q.nikonId = some n → ∀ x ∈ db, x.nikonId ≠ some n) ∧ ∃ n, q.olympusId = some n ∧ e.olympusId = some n)) :
    resolve db q = some e := by
  have h1 : findBy db (·.name) (q.keyname.filter fun s => s != "") = none :=
    findBy_none.2 fun k hk' x hx => hk k ((filter_name _ _).1 hk').1 ((filter_name _ _).1 hk').2 x hx
  rw [resolve, resolveInternal, h1]
  rcases h with ⟨n, h2, h3⟩ | ⟨h4, n, h2, h3⟩
  · cases hf : findBy db (·.nikonId) q.nikonId with
    | none => exact absurd h3 (findBy_none.1 hf n h2 e he)
    | some f =>
      obtain ⟨g1, k', g2, g3⟩ := findBy_some hf
      rw [h2] at g2; cases g2
      rw [hu e he f g1 (.inr (.inl ⟨by rw [h3]; simp, by rw [h3, g3]⟩))]
  · rw [findBy_none.2 h4]
    cases hf : findBy db (·.olympusId) q.olympusId with
    | none => exact absurd h3 (findBy_none.1 hf n h2 e he)
    | some f =>
      obtain ⟨g1, k', g2, g3⟩ := findBy_some hf
      rw [h2] at g2; cases g2
      rw [hu e he f g1 (.inr (.inr ⟨by rw [h3]; simp, by rw [h3, g3]⟩))]

/-- Without identifiers in the database, the only lens that agrees is found. -/
theorem C79_found (db : List Entry) (q : Query) (hd : ∀ e ∈ db, Entry.Sane e) (hq : Query.Sane q) (hn : db.Nodup) (hno : ∀ x ∈ db, ¬ Named q x) (e : Entry)
    (h : C79_OnlyOne db q e) : resolve db q = some e := by
  obtain ⟨a, b, c⟩ := h
  rw [resolve, internal_noName hno, byFilter_some.2 ((filter_single hn).2
    ⟨a, (keeps_iff _ _ hq (hd _ a)).2 b, fun y hy hA => c y hy ((keeps_iff _ _ hq (hd _ hy)).1 hA)⟩)]

/-- The two cameras that say 4 instead of 7 get their lens: what `with_camera` is told decides. -/
theorem C79_camera_model (db : List Entry) (q : Query) (hd : ∀ e ∈ db, Entry.Sane e) (hq : Query.Sane q) (hn : db.Nodup) (model : String)
    (hm : model = "*ist DS" ∨ model = "*ist D") (sub : Nat) (hi : q.id = some (4, sub)) (hno : ∀ x ∈ db, ¬ Named q x)
    (h4 : ¬ ∃ x, C79_OnlyOne db (withCamera q model none) x) (e : Entry) (h : C79_OnlyOne db (corrected (withCamera q model none)) e) :
    resolve db (withCamera q model none) = some e := by
  have hq' : Query.Sane (withCamera q model none) := hq
  have hno' : ∀ x ∈ db, ¬ Named (withCamera q model none) x := hno
  obtain ⟨a, b, c⟩ := h
  have hf : byFilter db (withCamera q model none) = none := by
    cases hb : byFilter db (withCamera q model none) with
    | none => rfl
    | some x =>
      obtain ⟨h1, h2, h3⟩ := (filter_single hn).1 (byFilter_some.1 hb)
      exact absurd ⟨x, h1, (keeps_iff _ _ hq' (hd _ h1)).1 h2, fun y hy hA => h3 y hy ((keeps_iff _ _ hq' (hd _ hy)).2 hA)⟩ h4
  rw [resolve, internal_noName hno', hf]
  have e1 : (withCamera q model none).id = some (4, sub) := hi
  have e2 : (withCamera q model none).cameraModel = some model := rfl
  simp only [e1, e2]
  rw [if_pos (by rcases hm with rfl | rfl <;> simp)]
  have hcor : corrected (withCamera q model none) = { withCamera q model none with id := some (7, sub) } := by
    rw [corrected, e1]; rfl
  show resolveInternal db { withCamera q model none with id := some (7, sub) } = some e
  rw [← hcor, internal_noName (show NoName db (corrected (withCamera q model none)) from hno), byFilter_some.2 ((filter_single hn).2
    ⟨a, (keeps_iff _ _ (show Query.Sane (corrected (withCamera q model none)) from hq) (hd _ a)).2 b,
      fun y hy hA => c y hy ((keeps_iff _ _ (show Query.Sane (corrected (withCamera q model none)) from hq) (hd _ hy)).1 hA)⟩)]

/-- Never a guess: if two lenses agree and none is named, none is reported. -/
theorem C79_never_guess (db : List Entry) (q : Query) (hd : ∀ e ∈ db, Entry.Sane e) (hq : Query.Sane q) (hn : db.Nodup) (hno : ∀ x ∈ db, ¬ Named q x)
    (hw : ¬ Wrong4 q) (a b : Entry) (ha : a ∈ db) (hb : b ∈ db) (hab : a ≠ b) (h1 : Agrees q a) (h2 : Agrees q b) : resolve db q = none := by
  cases h : resolve db q with
  | none => rfl
  | some e =>
    exfalso
    obtain ⟨he, h | ⟨-, -, -, h⟩ | ⟨h, -⟩⟩ := C79_sound_partial db q hd hq hn e h
    · exact hno e he h
    · exact hab ((h a ha h1).trans (h b hb h2).symm)
    · exact hw h

/-- The order of the database does not matter, where identifiers are unique. -/
theorem C79_order_partial (db db' : List Entry) (hp : db.Perm db') (hu : UniqueIds db) (q : Query) : resolve db q = resolve db' q := by
  have hi : ∀ q, resolveInternal db q = resolveInternal db' q := by
    intro q
    rw [resolveInternal, resolveInternal, find_perm hp _ _ (fun a ha b hb h1 h2 => hu a ha b hb (.inl ⟨h1, h2⟩)),
      find_perm hp _ _ (fun a ha b hb h1 h2 => hu a ha b hb (.inr (.inl ⟨h1, h2⟩))),
      find_perm hp _ _ (fun a ha b hb h1 h2 => hu a ha b hb (.inr (.inr ⟨h1, h2⟩))), byFilter_perm hp]
  rw [resolve, resolve, hi]
  cases resolveInternal db' q with
  | some e => rfl
  | none =>
    simp only []
    split
    · rw [hi]
    · rfl

/-! ## Lenses of the shipped database -/

def C79_pana : Entry :=
  { name := none, id := none, nikonId := none, olympusId := some "02 09 10", mount := "MFT-mount", make := "Lumix", model := "G Vario 100-300mm F4.0-5.6 Mega OIS",
    focalMin := ⟨100, 1⟩, focalMax := ⟨300, 1⟩, aperture := ⟨40, 10⟩ }

def C79_sigma : Entry :=
  { name := none, id := none, nikonId := none, olympusId := some "01 12 00", mount := "MFT-mount", make := "Sigma", model := "APO 300-800mm F5.6 EX DG HSM",
    focalMin := ⟨300, 1⟩, focalMax := ⟨800, 1⟩, aperture := ⟨56, 10⟩ }

def C79_fixed : Entry :=
  { name := some "canon_powershot_v1_lens", id := none, nikonId := none, olympusId := none, mount := "fixed", make := "Canon", model := "Zoom Lens 3.1x IS",
    focalMin := ⟨82, 10⟩, focalMax := ⟨256, 10⟩, aperture := ⟨28, 10⟩ }

def C79_k7 : Entry :=
  { name := none, id := some (7, 0), nikonId := none, olympusId := none, mount := "k-mount", make := "Pentax", model := "smc PENTAX-DA 21mm F3.2 AL Limited",
    focalMin := ⟨21, 1⟩, focalMax := ⟨21, 1⟩, aperture := ⟨32, 10⟩ }

def C79_db : List Entry := [C79_pana, C79_sigma, C79_fixed, C79_k7]

theorem C79_db_sane : ∀ e ∈ C79_db, Entry.Sane e := by unfold Entry.Sane; decide

theorem C79_db_unique : UniqueIds C79_db := by unfold UniqueIds; decide

/-- Not in the database, and more focal length than other lenses for this mount. -/
def C79_query : Query := { olympusId := some "77 00 01", mounts := some ["MFT-mount"], focal := some ⟨600, 1⟩ }

example : resolve C79_db { olympusId := some "02 09 10", mounts := some ["MFT-mount"], focal := some ⟨200, 1⟩ } = some C79_pana := by decide

example : resolve C79_db { mounts := some ["k-mount"], id := some (4, 0), cameraModel := some "*ist DS" } = some C79_k7 := by decide

example : resolve C79_db { mounts := some ["MFT-mount"], focal := some ⟨3000, 10⟩ } = none := by decide

example : resolve C79_db (withCamera (withKeyname {} (some "Zoom")) "PowerShot V1" (some "canon_powershot_v1_lens")) = some C79_fixed :=
  C79_fixed_lens _ _ C79_db_unique _ _ (by decide) _ (by decide) rfl _

example : Query.Sane C79_query ∧ C79_db.Nodup ∧ ∀ x ∈ C79_db, ¬ Named C79_query x := by
  refine ⟨⟨fun f h => ?_, fun a h => ?_⟩, by decide, ?_⟩
  · cases h; decide
  · cases h
  · rintro x hx (⟨k, h, -⟩ | ⟨k, h, -⟩ | ⟨k, h, h'⟩)
    · cases h
    · cases h
    · cases h
      have : ∀ x ∈ C79_db, x.olympusId ≠ some "77 00 01" := by decide
      exact this x hx h'

/-! ## Where the full claim fails -/

/-- A file whose lens is not in the database: another lens, of another identifier, is reported, because it is the only one with this mount and focal
length. -/
theorem C79_unknown_id_other_lens :
    resolve C79_db C79_query = some C79_sigma ∧ C79_query.olympusId ≠ none ∧ C79_sigma.olympusId ≠ none ∧ C79_sigma.olympusId ≠ C79_query.olympusId := by
  decide

/-- The same with a key name: a lens the database does not know is reported as another one. -/
theorem C79_unknown_name_other_lens :
    ∃ (db : List Entry) (q : Query) (e : Entry), q.keyname = some "Unknown 35mm" ∧ resolve db q = some e ∧ e.name = some "Schneider LS 150mm f/3.5" :=
  ⟨[{ name := some "Schneider LS 150mm f/3.5", id := none, nikonId := none, olympusId := none, mount := "phaseone", make := "Schneider", model := "150mm LS f/3.5",
      focalMin := ⟨150, 1⟩, focalMax := ⟨150, 1⟩, aperture := ⟨35, 10⟩ }], { keyname := some "Unknown 35mm", mounts := some ["phaseone"] }, _, rfl, rfl, rfl⟩

/-- A focal length of 0/0, as cameras write for "not known", is in every range. -/
theorem C79_zero_over_zero (q : Query) (e : Entry) (h : q.focal = some ⟨0, 0⟩) : keeps q e = keeps { q with focal := none } e := by
  have : ∀ r : Rational, Rational.ge ⟨0, 0⟩ r = true ∧ Rational.le ⟨0, 0⟩ r = true := by intro r; simp [Rational.ge, Rational.le]
  simp only [keeps, h, noneOr, (this _).1, (this _).2, Bool.and_true]

/-- With a doubled identifier the order of the database decides: two lenses of the shipped database have the Nikon identifier of this one. -/
theorem C79_double_id_order (a b : Entry) (hab : a ≠ b) (k : String) (ha : a.nikonId = some k) (hb : b.nikonId = some k) :
    resolve [a, b] { nikonId := some k } ≠ resolve [b, a] { nikonId := some k } := by
  simpa [resolve, resolveInternal, findBy, ha, hb] using hab

end Verif.Props
