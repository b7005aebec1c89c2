import Verif.Proofs.Orf
import Verif.Proofs.Grid
import Verif.Model.Ciff
import Verif.Spec.Ciff
/-! # Reading CIFF directories -/

namespace Verif.Ciff
open Verif Verif.Spec.Ciff
open Verif.Orf (ok_bind)

theorem le_length (n v : Nat) : (le n v).length = n := by
  induction n generalizing v with
  | zero => rfl
  | succ n ih => simp [le, ih]

theorem _root_.Verif.Spec.Ciff.At.left {f : List Nat} {p : Nat} {a b : List Nat} (h : At f p (a ++ b)) : At f p a := by
  obtain ⟨h1, h2⟩ := h
  rw [List.length_append] at h2
  refine ⟨?_, by omega⟩
  have := congrArg (List.take a.length) h1
  rwa [List.take_take, List.length_append, Nat.min_eq_left (by omega), List.take_left] at this

theorem _root_.Verif.Spec.Ciff.At.right {f : List Nat} {p : Nat} {a b : List Nat} (h : At f p (a ++ b)) : At f (p + a.length) b := by
  obtain ⟨h1, h2⟩ := h
  rw [List.length_append] at h2
  refine ⟨?_, by omega⟩
  have := congrArg (List.drop a.length) h1
  rwa [List.drop_take, List.drop_drop, List.length_append, Nat.add_sub_cancel_left, List.drop_left] at this

theorem _root_.Verif.Spec.Ciff.At.slice {f : List Nat} {p : Nat} {l : List Nat} (h : At f p l) {q : Nat} (hq : q = p + l.length) : slice f p q = .ok l := by
  subst hq
  rw [slice_ok _ _ _ (by omega) h.2, Nat.add_sub_cancel_left, h.1]

theorem leU16_at {f : List Nat} {p v : Nat} (h : At f p (le 2 v)) (hv : v < 65536) : leU16 f p = .ok v := by
  unfold leU16
  rw [h.slice (by rw [le_length]), ok_bind]
  simp only [le]
  congr 1
  omega

theorem leU32_at {f : List Nat} {p v : Nat} (h : At f p (le 4 v)) (hv : v < 2 ^ 32) : leU32 f p = .ok v := by
  unfold leU32
  rw [h.slice (by rw [le_length]), ok_bind]
  simp only [le]
  congr 1
  omega

theorem typ_and (p : Nat) : p &&& 0x3800 = typ p := by
  unfold typ
  apply Nat.eq_of_testBit_eq
  intro i
  rw [show (0x3800 : Nat) = (2 ^ 3 - 1) * 2 ^ 11 from rfl, show (2048 : Nat) = 2 ^ 11 from rfl, show (8 : Nat) = 2 ^ 3 from rfl, Nat.testBit_and,
    Nat.testBit_mul_two_pow, Nat.testBit_mul_two_pow, Nat.testBit_mod_two_pow, Nat.testBit_div_two_pow, Nat.testBit_two_pow_sub_one]
  by_cases h : 11 ≤ i
  · simp [h, Bool.and_comm]
  · simp [h]

theorem typ_add (t : Nat) : typ (t + 0x4000) = typ t := by unfold typ; omega

theorem tag_and (p : Nat) : p &&& 0x3fff = p % 0x4000 := by
  rw [show (0x3fff : Nat) = 2 ^ 14 - 1 from rfl, Nat.and_two_pow_sub_one_eq_mod]

theorem loc_and {p : Nat} (h : p < 65536) : p &&& 0xc000 = p / 0x4000 * 0x4000 := by
  apply Nat.eq_of_testBit_eq
  intro i
  rw [show (0xc000 : Nat) = (2 ^ 2 - 1) * 2 ^ 14 from rfl, show (0x4000 : Nat) = 2 ^ 14 from rfl, Nat.testBit_and,
    Nat.testBit_mul_two_pow, Nat.testBit_mul_two_pow, Nat.testBit_div_two_pow, Nat.testBit_two_pow_sub_one]
  by_cases h1 : 14 ≤ i
  · simp only [h1, decide_true, Bool.true_and, Nat.sub_add_cancel]
    by_cases h2 : i - 14 < 2
    · simp [h2]
    · rw [Nat.testBit_lt_two_pow (x := p) (i := i)]
      · simp
      · exact Nat.lt_of_lt_of_le h (show 2 ^ 16 ≤ 2 ^ i from Nat.pow_le_pow_right (by omega) (by omega))
  · simp [h1]

/-- What an entry with this tag and this data has to be. -/
def Good (t : Nat) (d : List Nat) (e : Entry) : Prop :=
  e.tag = t ∧ e.typ = typ t ∧ e.bytesize = d.length ∧ e.count = d.length >>> elementShift (typ t) ∧ e.data = d

theorem entry_value {f : List Nat} {a pos t o : Nat} {d : List Nat} (ht : t < 0x4000) (ho : o < 2 ^ 32) (hn : d.length < 2 ^ 32)
    (h : At f pos (le 2 t ++ le 4 d.length ++ le 4 o)) (hd : At f (a + o) d) :
    ∃ e, Entry.new f a pos = .ok e ∧ Good t d e ∧ e.dataOffset = a + o := by
  have h1 := leU16_at h.left.left (by omega)
  have h2 := h.left.right
  have h3 := h.right
  rw [le_length] at h2
  rw [List.length_append, le_length, le_length] at h3
  refine ⟨⟨t, typ t, d.length >>> elementShift (typ t), d.length, a + o, d⟩, ?_, ⟨rfl, rfl, rfl, rfl, rfl⟩, rfl⟩
  unfold Entry.new
  rw [h1, ok_bind]
  simp only [typ_and, tag_and, loc_and (show t < 65536 by omega)]
  rw [if_pos (by omega), leU32_at h2 hn, ok_bind, leU32_at h3 ho, ok_bind, ok_bind]
  simp only
  rw [Nat.add_comm o a, hd.slice rfl, ok_bind, Nat.mod_eq_of_lt ht]

theorem entry_inline {f : List Nat} {a pos t : Nat} {d : List Nat} (ht : t < 0x4000) (hn : d.length = 8)
    (h : At f pos (le 2 (t + 0x4000) ++ d)) :
    ∃ e, Entry.new f a pos = .ok e ∧ Good t d e := by
  have h1 := leU16_at h.left (by omega)
  have h2 := h.right
  rw [le_length] at h2
  refine ⟨⟨t, typ t, d.length >>> elementShift (typ t), d.length, pos + 2, d⟩, ?_, ⟨rfl, rfl, rfl, rfl, rfl⟩⟩
  unfold Entry.new
  rw [h1, ok_bind]
  simp only [typ_and, tag_and, loc_and (show t + 0x4000 < 65536 by omega), typ_add]
  rw [if_neg (by omega), if_pos (by omega), ok_bind]
  simp only
  rw [h2.slice (by omega), ok_bind, Nat.add_mod_right, Nat.mod_eq_of_lt ht, hn]

theorem _root_.Verif.Spec.Ciff.At.self {f : List Nat} {p n : Nat} (h : p + n ≤ f.length) : At f p ((f.drop p).take n) := by
  have : ((f.drop p).take n).length = n := by simp; omega
  refine ⟨by rw [this], by omega⟩

/-- What is found, and what is there. -/
def Sees (t : Nat) (o : Option Entry) (d : Option (List Nat)) : Prop :=
  match o, d with
  | none, none => True
  | some e, some d => Good t d e
  | _, _ => False

theorem Sees.or {t : Nat} {o o' : Option Entry} {d d' : Option (List Nat)} (h : Sees t o d) (h' : Sees t o' d') : Sees t (o.or o') (d.or d') := by
  cases o <;> cases d <;> simp_all [Sees]

theorem findAny_append (t : Nat) (l : List Ifd) (x : Ifd) : findAny t (l ++ [x]) = (findAny t l).or (x.find t) := by
  induction l with
  | nil => simp [findAny]
  | cons y l ih => rw [List.cons_append, findAny, ih, findAny, Option.or_assoc]

theorem here_snoc (t : Nat) (l : List Item) (x : Item) : here t (l ++ [x]) =
    (match x with
      | .value s d => if s = t then some d else none
      | .inline s d => if s = t then some d else none
      | .dir _ _ => none).or (here t l) := by
  unfold here
  rw [List.filterMap_append, List.getLast?_append]
  congr 1
  cases x <;> simp only [List.filterMap_cons, List.filterMap_nil] <;> (try split) <;> simp_all

/-- The subdirectories' part of `find`. -/
def findSubs (t : Nat) : Nat → List Item → Option (List Nat)
  | 0, _ => none
  | lv + 1, items => items.findSome? fun
    | .dir _ sub => find t lv sub
    | _ => none

theorem find_eq (t lv : Nat) (items : List Item) : find t lv items = (here t items).or (findSubs t lv items) := by
  cases lv with
  | zero => simp [find, findSubs]
  | succ lv => rfl

theorem findSubs_snoc (t lv : Nat) (l : List Item) (x : Item) : findSubs t lv (l ++ [x]) =
    (findSubs t lv l).or (match lv, x with
      | lv + 1, .dir _ sub => find t lv sub
      | _, _ => none) := by
  cases lv with
  | zero => rfl
  | succ lv =>
    simp only [findSubs]
    rw [List.findSome?_append]
    congr 1
    cases x <;> simp

theorem dirOf_ok (f : List Nat) (lv : Nat) (sub : Nat → Nat → List Item → Prop) (rd : Option (Nat → Nat → R Ifd))
    (hsub : match lv, rd with
      | 0, none => True
      | lv + 1, some g => ∀ a b items, sub a b items → ∃ v, g a b = .ok v ∧ ∀ t, Sees t (v.find t) (find t lv items)
      | _, _ => False)
    (a b : Nat) (items : List Item) (h : DirOf f sub a b items) :
    ∃ v, dir f rd a b = .ok v ∧ ∀ t, Sees t (v.find t) (find t lv items) := by
  obtain ⟨vs, h4, hvs, hlen, hv, hc, hi⟩ := h
  unfold dir
  rw [usub, if_pos h4, ok_bind, leU32_at hv hvs, ok_bind, leU16_at hc hlen, ok_bind]
  obtain ⟨st, e, inv⟩ := forN_inv items.length (fun i st => dirStep f rd a vs i st)
    (fun k st => ∀ t, Sees t (st.1.lookup t) (here t (items.take k)) ∧ Sees t (findAny t st.2) (findSubs t lv (items.take k)))
    ([], []) (by intro t; cases lv <;> simp [here, findSubs, findAny, Sees]) (by
      intro i st hi' inv
      have hx := hi i items[i] (by simp)
      have htake : items.take (i + 1) = items.take i ++ [items[i]] := by simp
      simp only [htake]
      unfold dirStep
      rw [Nat.mul_comm i 10]
      generalize items[i] = x at hx ⊢
      have hval : ∀ (t : Nat) (d : List Nat) (e : Entry), Good t d e → (∀ s, here s (items.take i ++ [x]) = (if t = s then some d else none).or (here s (items.take i))) →
          (∀ s, findSubs s lv (items.take i ++ [x]) = findSubs s lv (items.take i)) →
          ∀ s, Sees s (((e.tag, e) :: st.1).lookup s) (here s (items.take i ++ [x])) ∧ Sees s (findAny s st.2) (findSubs s lv (items.take i ++ [x])) := by
        intro t d e he h1 h2 s
        rw [h1 s, h2 s]
        refine ⟨?_, (inv s).2⟩
        rw [List.lookup_cons, he.1]
        by_cases hs : t = s
        · subst hs
          simp [Sees, he]
        · rw [beq_eq_false_iff_ne.2 (fun h => hs h.symm), if_neg hs]
          exact (inv s).1
      cases x with
      | value t d =>
        obtain ⟨ht, hnd, o, ho, hn, hat, hd⟩ := hx
        obtain ⟨e, he, hg, _⟩ := entry_value ht ho hn hat hd
        rw [he, ok_bind, if_neg (by rw [hg.2.1]; exact hnd)]
        refine ⟨_, rfl, hval t d e hg (fun s => here_snoc _ _ _) (fun s => ?_)⟩
        rw [findSubs_snoc]
        cases lv <;> simp
      | inline t d =>
        obtain ⟨ht, hnd, hn, hat⟩ := hx
        obtain ⟨e, he, hg⟩ := entry_inline (a := a) ht hn hat
        rw [he, ok_bind, if_neg (by rw [hg.2.1]; exact hnd)]
        refine ⟨_, rfl, hval t d e hg (fun s => here_snoc _ _ _) (fun s => ?_)⟩
        rw [findSubs_snoc]
        cases lv <;> simp
      | dir t its =>
        obtain ⟨ht, hnd, o, n, ho, hn, hat, hd, hs⟩ := hx
        have hl : ((f.drop (a + o)).take n).length = n := by simp; omega
        obtain ⟨e, he, hg, hoff⟩ := entry_value (d := (f.drop (a + o)).take n) ht ho (by omega) (by rw [hl]; exact hat) (At.self hd)
        rw [he, ok_bind, if_pos (by rw [hg.2.1]; exact hnd), hoff, hg.2.2.1, hl]
        have hh : ∀ s, here s (items.take i ++ [Item.dir t its]) = here s (items.take i) := fun s => by rw [here_snoc]; rfl
        cases lv with
        | zero =>
          cases rd with
          | none => exact ⟨st, rfl, fun s => ⟨by rw [hh]; exact (inv s).1, (inv s).2⟩⟩
          | some g => exact hsub.elim
        | succ lv =>
          cases rd with
          | none => exact hsub.elim
          | some g =>
            obtain ⟨v, hv, hf⟩ := hsub _ _ _ hs
            simp only
            rw [hv]
            refine ⟨_, rfl, fun s => ⟨by rw [hh]; exact (inv s).1, ?_⟩⟩
            rw [findAny_append, findSubs_snoc]
            exact (inv s).2.or (hf s))
  rw [e, ok_bind]
  refine ⟨_, rfl, fun t => ?_⟩
  rw [find_eq, Ifd.find]
  have := inv t
  rw [List.take_length] at this
  exact this.1.or this.2

theorem new_ok (f : List Nat) (lv : Nat) : ∀ a b items, DirAt f lv a b items →
    ∃ v, Ifd.new f lv a b = .ok v ∧ ∀ t, Sees t (v.find t) (find t lv items) := by
  induction lv with
  | zero => exact fun a b items h => dirOf_ok f 0 _ none trivial a b items h
  | succ lv ih => exact fun a b items h => dirOf_ok f (lv + 1) _ (some (Ifd.new f lv)) ih a b items h

theorem newFile_ok (f : List Nat) (items : List Item) (h : FileAt f 9 items) :
    ∃ v, Ifd.newFile f = .ok v ∧ ∀ t, Sees t (v.find t) (find t 9 items) := by
  obtain ⟨start, hs, h2, _, hd⟩ := h
  unfold Ifd.newFile
  rw [leU32_at h2 hs, ok_bind]
  exact new_ok f 9 _ _ _ hd

end Verif.Ciff
