import Verif.Proofs.Exif
import Verif.Proofs.TiffWriter
/-! # Metadata directories as maps -/

namespace Verif.Exif
open Verif Verif.Tiff Verif.Spec Verif.Spec.Exif

/-- The list of fields after a directory was read -/
theorem fold_list {σ : Type} (L : σ → List (Nat × Option Value)) (step : σ → Nat × Value → σ) (kind : Nat → Option Kind) (trim : List Nat → List Nat)
    (hstep : ∀ s t v, L (step s (t, v)) = (L s).map (change kind trim t v)) (dir : List (Nat × Value)) (hn : (dir.map (·.1)).Nodup) (s : σ) :
    L (dir.foldl step s) = (L s).map fun x => (x.1, ((find dir x.1).bind (effect kind trim x.1)).getD x.2) := by
  induction dir generalizing s with
  | nil => exact (List.map_id _).symm
  | cons a dir ih =>
    obtain ⟨t, v⟩ := a
    simp only [List.map_cons, List.nodup_cons] at hn
    rw [List.foldl_cons, ih hn.2, hstep, List.map_map]
    refine List.map_congr_left fun x _ => ?_
    simp only [Function.comp_apply, change]
    by_cases hx : x.1 = t
    · have h0 : find dir t = none := by
        cases hf : find dir t with
        | none => rfl
        | some w => exact absurd (List.mem_map.2 ⟨_, find_mem hf, rfl⟩) hn.1
      rw [if_pos hx]
      simp only [hx, h0, find_cons, if_true]
      rfl
    · rw [if_neg hx]
      simp only [find_cons, if_neg hx]

/-- What `Exif::new` finds -/
def want (trim : List Nat → List Nat) (s : Source) (t : Nat) : Option Value := (kindOf t).bind (s.value trim t)

def gpsWant (s : Source) (t : Nat) : Option Value := (gpsKindOf t).bind (s.gpsValue t)

theorem effect_taken (kind : Nat → Option Kind) (trim : List Nat → List Nat) (dir : Option (List (Nat × Value))) (t : Nat) (κ : Kind) (hk : kind t = some κ) :
    ((dir.bind fun d => find d t).bind (effect kind trim t)) = taken trim κ t dir := by
  unfold taken
  congr 1
  funext v
  rw [effect, hk, Option.bind_some, take_eq]

theorem extendFromGps_fields (e : Exif) (d : List (Nat × Value)) : fields (extendFromGps e d) = fields e := by
  unfold extendFromGps
  induction d generalizing e with
  | nil => rfl
  | cons a d ih =>
    rw [List.foldl_cons, ih]
    split <;> rfl

theorem extendFromIfd_gps (trim : List Nat → List Nat) (e : Exif) (d : List (Nat × Value)) : (extendFromIfd trim e d).gps = e.gps := by
  unfold extendFromIfd
  induction d generalizing e with
  | nil => rfl
  | cons a d ih =>
    rw [List.foldl_cons, ih]
    unfold extendStep
    split <;> rfl

theorem new_fields (trim : List Nat → List Nat) (s : Source) (hs : s.Valid) :
    fields (Exif.new trim s.main s.exif s.gps) = (fields {}).map fun x => (x.1, want trim s x.1) := by
  have h1 : fields (Exif.new trim s.main s.exif s.gps) =
      fields (match s.exif with | some d => extendFromIfd trim (extendFromIfd trim {} s.main) d | none => extendFromIfd trim {} s.main) := by
    unfold Exif.new
    cases s.gps with
    | none => rfl
    | some d => exact extendFromGps_fields _ d
  have h2 : fields (extendFromIfd trim {} s.main) =
      (fields {}).map fun x => (x.1, ((find s.main x.1).bind (effect kindOf trim x.1)).getD x.2) :=
    fold_list fields _ kindOf trim (fun s t v => extendStep_fields trim s t v) s.main hs.1 _
  have h0 : ∀ x ∈ fields {}, x.2 = none := by
    intro x hx
    have : (fields {}).all (fun x => x.2.isNone) = true := rfl
    exact Option.isNone_iff_eq_none.1 (List.all_eq_true.1 this x hx)
  have key : ∀ x ∈ fields {}, (((s.exif.bind fun d => find d x.1).bind (effect kindOf trim x.1)).getD
      (((find s.main x.1).bind (effect kindOf trim x.1)).getD x.2)) = want trim s x.1 := by
    intro x hx
    rw [h0 x hx]
    cases hk : kindOf x.1 with
    | none =>
      have he : effect kindOf trim x.1 = fun _ => none := by funext v; rw [effect, hk]; rfl
      rw [he, want, hk]
      cases (s.exif.bind fun d => find d x.1) <;> cases find s.main x.1 <;> rfl
    | some κ =>
      have ha := effect_taken kindOf trim s.exif x.1 κ hk
      have hb := effect_taken kindOf trim (some s.main) x.1 κ hk
      rw [Option.bind_some] at hb
      rw [ha, hb, want, hk, Option.bind_some, Source.value]
      cases taken trim κ x.1 s.exif with
      | some r => rfl
      | none => cases taken trim κ x.1 (some s.main) <;> rfl
  rw [h1]
  cases hd : s.exif with
  | none =>
    show fields (extendFromIfd trim {} s.main) = _
    rw [h2]
    refine List.map_congr_left fun x hx => ?_
    have := key x hx
    rw [hd] at this
    exact congrArg (Prod.mk x.1) this
  | some d =>
    have h3 := fold_list fields _ kindOf trim (fun s t v => extendStep_fields trim s t v) d (hs.2.1 d hd) (extendFromIfd trim {} s.main)
    show fields (extendFromIfd trim (extendFromIfd trim {} s.main) d) = _
    rw [extendFromIfd, h3, h2, List.map_map]
    refine List.map_congr_left fun x hx => ?_
    have := key x hx
    rw [hd] at this
    exact congrArg (Prod.mk x.1) this

theorem append_split {a b c d : List (Nat × Option Value)} (h : a ++ b = c ++ d) (hl : a.length = c.length) : a = c ∧ b = d :=
  List.append_inj h hl

theorem new_split (trim : List Nat → List Nat) (s : Source) (hs : s.Valid) :
    rootTags (Exif.new trim s.main s.exif s.gps) = (rootTags {}).map (fun x => (x.1, want trim s x.1)) ∧
    exifTags (Exif.new trim s.main s.exif s.gps) = (exifTags {}).map (fun x => (x.1, want trim s x.1)) := by
  have h := new_fields trim s hs
  rw [fields, fields, List.map_append] at h
  exact List.append_inj h rfl

/-- The EXIF tags with those of the lens -/
def wantExif (trim : List Nat → List Nat) (s : Source) (lens : Option Lens) (t : Nat) : Option Value :=
  if t = 0xa432 ∨ t = 0xa433 ∨ t = 0xa434 then lensValue lens t else want trim s t

theorem metadata_root (trim : List Nat → List Nat) (s : Source) (hs : s.Valid) (lens : Option Lens) :
    rootTags (metadata trim s.main s.exif s.gps lens) = (rootTags {}).map (fun x => (x.1, want trim s x.1)) := by
  rw [← (new_split trim s hs).1]
  cases lens <;> rfl

theorem lens_tags (e : Exif) (l : Lens) : exifTags (extendFromLens e l) =
    (exifTags e).map (fun x => (x.1, if x.1 = 0xa432 ∨ x.1 = 0xa433 ∨ x.1 = 0xa434 then lensValue (some l) x.1 else x.2)) := by
  simp only [exifTags, extendFromLens, List.map_cons, List.map_nil, Nat.reduceEqDiff, or_self, or_false, or_true, false_or, true_or, if_true, if_false]
  rfl

theorem metadata_exif (trim : List Nat → List Nat) (s : Source) (hs : s.Valid) (lens : Option Lens) :
    exifTags (metadata trim s.main s.exif s.gps lens) = (exifTags {}).map (fun x => (x.1, wantExif trim s lens x.1)) := by
  cases lens with
  | none =>
    show exifTags (Exif.new trim s.main s.exif s.gps) = _
    rw [(new_split trim s hs).2]
    refine List.map_congr_left fun x _ => congrArg (Prod.mk x.1) ?_
    unfold wantExif
    split
    · next h => rcases h with h | h | h <;> rw [h] <;> rfl
    · rfl
  | some l =>
    show exifTags (extendFromLens (Exif.new trim s.main s.exif s.gps) l) = _
    rw [lens_tags, (new_split trim s hs).2, List.map_map]
    rfl

def gfields (e : Exif) : List (Nat × Option Value) := gpsTags (e.gps.getD {})

theorem gpsKindOf_big {t : Nat} (h : ¬ t ≤ 0x1f) : gpsKindOf t = none := by
  cases hk : gpsKindOf t with
  | none => rfl
  | some κ =>
    have hm : t ∈ gpsTable.map (·.1) := List.mem_map.2 ⟨_, find_mem hk, rfl⟩
    have : ∀ x ∈ gpsTable.map (·.1), x ≤ 0x1f := by decide
    exact absurd (this t hm) h

def baseOf (trim : List Nat → List Nat) (s : Source) : Exif :=
  match s.exif with
  | some d => extendFromIfd trim (extendFromIfd trim {} s.main) d
  | none => extendFromIfd trim {} s.main

theorem baseOf_gps (trim : List Nat → List Nat) (s : Source) : (baseOf trim s).gps = none := by
  unfold baseOf
  cases s.exif with
  | none => exact extendFromIfd_gps trim {} s.main
  | some d => exact (extendFromIfd_gps trim _ d).trans (extendFromIfd_gps trim {} s.main)

theorem new_eq (trim : List Nat → List Nat) (s : Source) : Exif.new trim s.main s.exif s.gps =
    match s.gps with | some d => extendFromGps (baseOf trim s) d | none => baseOf trim s := rfl

theorem new_gps (trim : List Nat → List Nat) (s : Source) (hs : s.Valid) :
    gfields (Exif.new trim s.main s.exif s.gps) = (gpsTags {}).map fun x => (x.1, gpsWant s x.1) := by
  have h0 : ∀ x ∈ gpsTags {}, x.2 = none := by
    intro x hx
    have : (gpsTags {}).all (fun x => x.2.isNone) = true := rfl
    exact Option.isNone_iff_eq_none.1 (List.all_eq_true.1 this x hx)
  have key : ∀ x ∈ gpsTags {}, (((s.gps.bind fun d => find d x.1).bind (effect gpsKindOf id x.1)).getD x.2) = gpsWant s x.1 := by
    intro x hx
    rw [h0 x hx]
    cases hk : gpsKindOf x.1 with
    | none =>
      have he : effect gpsKindOf id x.1 = fun _ => none := by funext v; rw [effect, hk]; rfl
      rw [he, gpsWant, hk]
      cases (s.gps.bind fun d => find d x.1) <;> rfl
    | some κ =>
      rw [effect_taken gpsKindOf id s.gps x.1 κ hk, gpsWant, hk, Option.bind_some, Source.gpsValue]
      cases taken id κ x.1 s.gps <;> rfl
  rw [new_eq]
  have hen := baseOf_gps trim s
  generalize baseOf trim s = e at hen
  have h1 : gfields e = gpsTags {} := by rw [gfields, hen]; rfl
  cases hd : s.gps with
  | none =>
    show gfields e = _
    rw [h1]
    refine ((List.map_congr_left ?_).trans (List.map_id _)).symm
    intro x hx
    have := key x hx
    rw [hd] at this
    exact Prod.ext rfl this.symm
  | some d =>
    show gfields (extendFromGps e d) = _
    have h3 := fold_list gfields (fun e x => if x.1 ≤ 0x1f then { e with gps := some (gpsStep (e.gps.getD {}) x) } else e) gpsKindOf id
      (fun e t v => by
        by_cases ht : t ≤ 0x1f
        · simp only [ht, if_true]
          exact gpsStep_fields _ t v
        · simp only [ht, if_false]
          rw [map_none]
          rw [effect, gpsKindOf_big ht]; rfl) d (hs.2.2 d hd) e
    rw [extendFromGps, h3, h1]
    refine List.map_congr_left fun x hx => ?_
    have := key x hx
    rw [hd] at this
    exact congrArg (Prod.mk x.1) this

theorem metadata_gps (trim : List Nat → List Nat) (s : Source) (hs : s.Valid) (lens : Option Lens) :
    gfields (metadata trim s.main s.exif s.gps lens) = (gpsTags {}).map fun x => (x.1, gpsWant s x.1) := by
  rw [← new_gps trim s hs]
  cases lens <;> rfl

theorem gpsOps_eq (e : Exif) : gpsOps e = (gfields e).flatMap transfer := by
  unfold gpsOps gfields
  cases e.gps <;> rfl

/-! ## Histories as maps -/

theorem fold_transfer (l : List (Nat × Option Value)) (hn : (l.map (·.1)).Nodup) (m : Nat → Option Value) :
    (l.flatMap transfer).foldl applyMap m = fun k => ((find l k).bind id).or (m k) := by
  induction l generalizing m with
  | nil => funext k; rfl
  | cons a l ih =>
    simp only [List.map_cons, List.nodup_cons] at hn
    rw [List.flatMap_cons, List.foldl_append, ih hn.2]
    funext k
    obtain ⟨t, o⟩ := a
    by_cases hk : k = t
    · have h0 : find l t = none := by
        cases hf : find l t with
        | none => rfl
        | some w => exact absurd (List.mem_map.2 ⟨_, find_mem hf, rfl⟩) hn.1
      rw [find_cons, if_pos hk, hk, h0]
      cases o with
      | none => rfl
      | some v => show (none : Option Value).or (if t = t then some v else m t) = _; rw [if_pos rfl]; rfl
    · rw [find_cons, if_neg hk]
      congr 1
      cases o with
      | none => rfl
      | some v => show (if k = t then some v else m k) = _; rw [if_neg hk]

theorem find_map (l : List (Nat × Option Value)) (W : Nat → Option Value) (k : Nat) :
    find (l.map fun x => (x.1, W x.1)) k = if k ∈ l.map (·.1) then some (W k) else none := by
  induction l with
  | nil => rfl
  | cons a l ih =>
    rw [List.map_cons, find_cons, ih, List.map_cons]
    by_cases hk : k = a.1
    · rw [if_pos hk, if_pos (by rw [hk]; exact List.mem_cons_self), hk]
    · rw [if_neg hk]
      by_cases h2 : k ∈ l.map (·.1)
      · rw [if_pos h2, if_pos (List.mem_cons_of_mem _ h2)]
      · rw [if_neg h2, if_neg (fun h => (List.mem_cons.1 h).elim hk h2)]

theorem mem_of_kind {tbl : List (Nat × Kind)} {t : Nat} {κ : Kind} (h : find tbl t = some κ) : t ∈ tbl.map (·.1) :=
  List.mem_map.2 ⟨_, find_mem h, rfl⟩

end Verif.Exif
