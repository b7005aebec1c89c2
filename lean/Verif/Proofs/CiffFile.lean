import Verif.Proofs.Ciff
/-! # Writing CIFF directories -/

namespace Verif.Ciff
open Verif Verif.Spec.Ciff
open Verif.Orf (ok_bind)

/-- Tags and counts as they have to be, in one directory. -/
def FineOf (sub : List Item → Prop) (items : List Item) : Prop :=
  items.length < 65536 ∧ ∀ x ∈ items, match x with
    | .value t _ => t < 0x4000 ∧ ¬IsDir t
    | .inline t d => t < 0x4000 ∧ ¬IsDir t ∧ d.length = 8
    | .dir t its => t < 0x4000 ∧ IsDir t ∧ sub its

/-- Tags and counts as they have to be, down to `lv` levels. -/
def Fine : Nat → List Item → Prop
  | 0 => FineOf fun _ => True
  | lv + 1 => FineOf (Fine lv)

/-- An item's share of the values. -/
def part (enc : List Item → List Nat) : Item → List Nat
  | .value _ d => d
  | .inline _ _ => []
  | .dir _ its => enc its

/-- The entry of an item. -/
def entryBytes (enc : List Item → List Nat) (o : Nat) : Item → List Nat
  | .value t d => le 2 t ++ le 4 d.length ++ le 4 o
  | .inline t d => le 2 (t + 0x4000) ++ d
  | .dir t its => le 2 t ++ le 4 (enc its).length ++ le 4 o

/-- A directory. -/
def encDir (enc : List Item → List Nat) (items : List Item) : List Nat :=
  items.flatMap (part enc) ++ (le 2 items.length ++ ((List.range items.length).flatMap (fun i =>
    match items[i]? with
    | some x => entryBytes enc ((items.take i).flatMap (part enc)).length x
    | none => []) ++ le 4 (items.flatMap (part enc)).length))

/-- A directory and its subdirectories down to `lv` levels. -/
def enc : Nat → List Item → List Nat
  | 0 => encDir fun _ => []
  | lv + 1 => encDir (enc lv)

theorem at_part {f : List Nat} {p : Nat} {items : List Item} {g : Item → List Nat} (h : At f p (items.flatMap g)) (i : Nat) (x : Item)
    (hx : items[i]? = some x) : At f (p + ((items.take i).flatMap g).length) (g x) := by
  obtain ⟨hi, rfl⟩ := List.getElem?_eq_some_iff.1 hx
  have e : items = items.take i ++ (items[i] :: items.drop (i + 1)) := by simp
  rw [e, List.flatMap_append, List.flatMap_cons] at h
  exact h.right.left

theorem flatMap_range_length (n k : Nat) (g : Nat → List Nat) (hg : ∀ i, i < n → (g i).length = k) : ((List.range n).flatMap g).length = k * n := by
  induction n with
  | zero => rfl
  | succ n ih =>
    rw [List.range_succ, List.flatMap_append, List.length_append, ih (fun i hi => hg i (by omega))]
    simp [hg n (by omega), Nat.mul_succ]

theorem at_range {f : List Nat} {p n k : Nat} {g : Nat → List Nat} (h : At f p ((List.range n).flatMap g)) (hg : ∀ i, i < n → (g i).length = k)
    (i : Nat) (hi : i < n) : At f (p + k * i) (g i) := by
  induction n with
  | zero => omega
  | succ n ih =>
    rw [List.range_succ, List.flatMap_append] at h
    by_cases hn : i < n
    · exact ih h.left (fun i hi => hg i (by omega)) hn
    · have : i = n := by omega
      subst this
      have h2 := h.right
      rw [flatMap_range_length _ _ _ (fun i hi => hg i (by omega))] at h2
      simpa using h2

theorem part_le (enc : List Item → List Nat) (items : List Item) (i : Nat) (x : Item) (hx : items[i]? = some x) :
    ((items.take i).flatMap (part enc)).length + (part enc x).length ≤ (items.flatMap (part enc)).length := by
  obtain ⟨hi, rfl⟩ := List.getElem?_eq_some_iff.1 hx
  have e : items.flatMap (part enc) = (items.take i).flatMap (part enc) ++ (part enc items[i] ++ (items.drop (i + 1)).flatMap (part enc)) := by
    rw [← List.flatMap_cons, ← List.flatMap_append]; simp
  rw [e]
  simp only [List.length_append]
  omega

theorem encDir_ok {f : List Nat} {enc : List Item → List Nat} {sub : Nat → Nat → List Item → Prop} {fine : List Item → Prop} {a : Nat} {items : List Item}
    (hfine : FineOf fine items) (hlen : (encDir enc items).length < 2 ^ 32) (h : At f a (encDir enc items))
    (hsub : ∀ a its, fine its → (enc its).length < 2 ^ 32 → At f a (enc its) → sub a (a + (enc its).length) its) :
    DirOf f sub a (a + (encDir enc items).length) items := by
  obtain ⟨hn, hx⟩ := hfine
  have hlen' := hlen
  unfold encDir at hlen' h
  have hg : ∀ i, i < items.length → (match items[i]? with
    | some x => entryBytes enc ((items.take i).flatMap (part enc)).length x
    | none => []).length = 10 := by
    intro i hi
    rw [List.getElem?_eq_getElem hi]
    have := hx items[i] (List.getElem_mem _)
    revert this
    cases items[i] <;> intro this <;> simp [entryBytes, le_length]
    have := this.2.2
    omega
  have hl := flatMap_range_length _ _ _ hg
  have hv := h.left
  have h2 := h.right.left
  have h3 := h.right.right.left
  have h4 := h.right.right.right
  rw [le_length] at h3
  rw [le_length, hl] at h4
  simp only [List.length_append, le_length, hl] at hlen'
  have hL : (encDir enc items).length = (items.flatMap (part enc)).length + (2 + (10 * items.length + 4)) := by
    unfold encDir; simp only [List.length_append, le_length, hl]
  refine ⟨(items.flatMap (part enc)).length, by omega, by omega, hn, ?_, h2, ?_⟩
  · have : a + (encDir enc items).length - 4 = a + (items.flatMap (part enc)).length + 2 + 10 * items.length := by omega
    rw [this]; exact h4
  · intro i x hix
    have hi : i < items.length := (List.getElem?_eq_some_iff.1 hix).1
    have he := at_range h3 hg i hi
    simp only [hix] at he
    have hp := at_part hv i x hix
    have hle := part_le enc items i x hix
    have hf := hx x (List.mem_of_getElem? hix)
    cases x with
    | value t d => exact ⟨hf.1, hf.2, _, by omega, by simp only [part] at hle; omega, he, hp⟩
    | inline t d => exact ⟨hf.1, hf.2.1, hf.2.2, he⟩
    | dir t its =>
      simp only [part] at hle hp
      refine ⟨hf.1, hf.2.1, _, (enc its).length, by omega, by omega, he, ?_, hsub _ _ hf.2.2 (by omega) hp⟩
      have := hp.2
      omega

theorem enc_ok {f : List Nat} (lv : Nat) : ∀ {a : Nat} {items : List Item}, Fine lv items → (enc lv items).length < 2 ^ 32 → At f a (enc lv items) →
    DirAt f lv a (a + (enc lv items).length) items := by
  induction lv with
  | zero => exact fun hf hl h => encDir_ok hf hl h (fun _ _ _ _ _ => trivial)
  | succ lv ih => exact fun hf hl h => encDir_ok hf hl h (fun _ _ hf hl h => ih hf hl h)

theorem _root_.Verif.Spec.Ciff.At.mid (a b c : List Nat) {p : Nat} (hp : p = a.length) : At (a ++ (b ++ c)) p b := by
  subst hp
  refine ⟨by rw [List.drop_left, List.take_left], by simp only [List.length_append]; omega⟩

/-- A file: header, `body`, directory. -/
def encFile (body : List Nat) (lv : Nat) (items : List Item) : List Nat :=
  [73, 73] ++ (le 4 (26 + body.length) ++ ("HEAPCCDR".toList.map Char.toNat ++ (List.replicate 12 0 ++ (body ++ enc lv items))))

theorem encFile_ok (body : List Nat) (lv : Nat) (items : List Item) (hf : Fine lv items) (hl : (encFile body lv items).length < 2 ^ 32) :
    FileAt (encFile body lv items) lv items := by
  have hL : (encFile body lv items).length = 26 + body.length + (enc lv items).length := by
    unfold encFile
    simp only [List.length_append, le_length, List.length_map, List.length_replicate]
    rw [show "HEAPCCDR".toList.length = 8 from by decide]
    simp
    omega
  have hs : (("HEAPCCDR".toList.map Char.toNat).length) = 8 := by decide
  refine ⟨26 + body.length, by omega, At.mid _ _ _ rfl, ?_, ?_⟩
  · unfold encFile
    rw [← List.append_assoc]
    exact At.mid _ _ _ (by simp [le_length])
  · rw [hL]
    have : At (encFile body lv items) (26 + body.length) (enc lv items) := by
      unfold encFile
      rw [← List.append_assoc, ← List.append_assoc, ← List.append_assoc, ← List.append_assoc]
      have := At.mid (((([73, 73] ++ le 4 (26 + body.length)) ++ "HEAPCCDR".toList.map Char.toNat) ++ List.replicate 12 0) ++ body) (enc lv items) []
        (p := 26 + body.length) (by simp only [List.length_append, le_length, hs, List.length_replicate]; simp)
      rwa [List.append_nil] at this
    exact enc_ok lv hf (by omega) this

end Verif.Ciff
