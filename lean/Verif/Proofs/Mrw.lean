import Verif.Model.Mrw
import Verif.Spec.Mrw
import Verif.Props.Packed
import Mathlib.Data.List.Induction
import Verif.Proofs.Orf
/-! Lemmas on MRW files. -/

namespace Verif.Mrw
open Verif Verif.Packed Verif.Spec.Mrw
open Verif.Orf (ok_bind)

theorem drop_at {buf a b : List Nat} {pos : Nat} (h : buf.drop pos = a ++ b) (ha : a ≠ []) :
    pos + a.length ≤ buf.length ∧ buf.drop (pos + a.length) = b := by
  have hl : (buf.drop pos).length = (a ++ b).length := by rw [h]
  rw [List.length_drop, List.length_append] at hl
  have : 0 < a.length := List.length_pos_iff.mpr ha
  refine ⟨by omega, ?_⟩
  rw [← List.drop_drop, h, List.drop_left]

theorem slice_at {buf a b : List Nat} {pos : Nat} (h : buf.drop pos = a ++ b) (ha : a ≠ []) :
    slice buf pos (pos + a.length) = .ok a := by
  rw [slice, if_pos ⟨by omega, (drop_at h ha).1⟩, h, Nat.add_sub_cancel_left, List.take_left]

theorem beU32_at {buf b : List Nat} {pos v : Nat} (h : buf.drop pos = w32 v ++ b) : beU32 buf pos = .ok v := by
  have := slice_at h (by simp [w32])
  simp only [w32, List.length_cons, List.length_nil] at this
  rw [beU32, this, ok_bind]
  simp only []
  congr 1
  omega

/-- A 16 bit number inside data that lie in the file. -/
theorem beU16_in {buf d b : List Nat} {pos k : Nat} (h : buf.drop pos = d ++ b) (hk : k + 2 ≤ d.length) :
    beU16 buf (pos + k) = .ok (u16At d k) := by
  have hd : d ≠ [] := by intro e; subst e; simp at hk
  have hl := (drop_at h hd).1
  rw [beU16, slice, if_pos ⟨by omega, by omega⟩, ← List.drop_drop, h, Nat.add_sub_cancel_left, List.drop_append_of_le_length (by omega)]
  have e1 : d[k]? = some (d.getD k 0) := by simp [List.getD, List.getElem?_eq_getElem (show k < d.length by omega)]
  have e2 : d[k + 1]? = some (d.getD (k + 1) 0) := by simp [List.getD, List.getElem?_eq_getElem (show k + 1 < d.length by omega)]
  have : d.drop k = d.getD k 0 :: d.getD (k + 1) 0 :: d.drop (k + 2) := by
    rw [List.drop_eq_getElem?_toList_append, List.drop_eq_getElem?_toList_append (i := k + 1), e1, e2]
    rfl
  rw [this]
  rfl

theorem idx_in {buf d b : List Nat} {pos k : Nat} (h : buf.drop pos = d ++ b) (hk : k < d.length) :
    idx buf (pos + k) = .ok (d.getD k 0) := by
  have : buf[pos + k]? = some (d.getD k 0) := by
    rw [← List.getElem?_drop, h, List.getElem?_append_left hk]
    simp [List.getD, List.getElem?_eq_getElem hk]
  rw [idx, this]

/-- The settings after these blocks. -/
def after (s : Mrw) (o : Nat) (bs : List Block) : Mrw :=
  { dataOffset := s.dataOffset
    rawHeight := (lastOf PRD bs).elim s.rawHeight (u16At · 8)
    rawWidth := (lastOf PRD bs).elim s.rawWidth (u16At · 10)
    packed := (lastOf PRD bs).elim s.packed (·.getD 16 0 == 12)
    wb := (lastOf WBG bs).elim s.wb fun d => [u16At d 4, u16At d 6, u16At d 8, u16At d 10]
    tiffpos := (lastAt TTW o bs).getD s.tiffpos }

theorem bytes_length (b : Block) : b.bytes.length = 8 + b.data.length := by simp [Block.bytes, w32]; omega

theorem block_ok (buf : List Nat) (pos : Nat) (s : Mrw) (b : Block) (t : List Nat) (h : buf.drop pos = b.bytes ++ t) (hb : b.Ok) :
    block buf pos s = .ok (after s pos [b], pos + b.bytes.length) := by
  obtain ⟨h1, h2, h3, h4⟩ := hb
  have e1 : buf.drop pos = w32 b.tag ++ (w32 b.data.length ++ b.data ++ t) := by rw [h, Block.bytes]; simp [List.append_assoc]
  have e2 : buf.drop (pos + 4) = w32 b.data.length ++ (b.data ++ t) := by
    have := (drop_at e1 (by simp [w32])).2
    rw [List.append_assoc] at this
    exact this
  have e3 : buf.drop (pos + 8) = b.data ++ t := (drop_at e2 (by simp [w32])).2
  rw [block, beU32_at e1, ok_bind, beU32_at e2, ok_bind]
  have hl : assert' (decide (b.data.length + 8 < 2 ^ 32)) = .ok () := by rw [assert', if_pos (by simpa using h2)]
  rw [bytes_length]
  by_cases hp : b.tag = PRD
  · have := h3 hp
    rw [if_pos (show b.tag = 0x505244 from hp), beU16_in (k := 8) e3 (by omega), ok_bind, beU16_in (k := 10) e3 (by omega), ok_bind, idx_in (k := 16) e3 (by omega)]
    simp only [ok_bind, hl]
    simp only [after, lastOf, lastAt, hp, if_true, Option.none_or, show ¬(PRD = WBG) by decide, show ¬(PRD = TTW) by decide, if_false,
      Option.elim, Option.getD]
    congr 2; omega
  · rw [if_neg (show ¬b.tag = 0x505244 from hp)]
    by_cases hw : b.tag = WBG
    · have := h4 hw
      rw [if_pos (show b.tag = 0x574247 from hw), beU16_in (k := 4) e3 (by omega), ok_bind, beU16_in (k := 6) e3 (by omega), ok_bind, beU16_in (k := 8) e3 (by omega), ok_bind,
        beU16_in (k := 10) e3 (by omega)]
      simp only [ok_bind, hl]
      simp only [after, lastOf, lastAt, hw, if_true, Option.none_or, show ¬(WBG = PRD) by decide, show ¬(WBG = TTW) by decide, if_false,
        Option.elim, Option.getD]
      congr 2; omega
    · rw [if_neg (show ¬b.tag = 0x574247 from hw)]
      by_cases ht : b.tag = TTW
      · rw [if_pos (show b.tag = 0x545457 from ht)]
        simp only [ok_bind, hl]
        simp only [after, lastOf, lastAt, ht, if_true, Option.none_or, show ¬(TTW = PRD) by decide, show ¬(TTW = WBG) by decide, if_false,
          Option.elim, Option.getD]
        congr 2; omega
      · rw [if_neg (show ¬b.tag = 0x545457 from ht)]
        simp only [ok_bind, hl]
        simp only [after, lastOf, lastAt, if_neg hp, if_neg hw, if_neg ht, Option.none_or, Option.elim, Option.getD]
        congr 2; omega

theorem after_cons (s : Mrw) (o : Nat) (b : Block) (bs : List Block) :
    after (after s o [b]) (o + b.bytes.length) bs = after s o (b :: bs) := by
  have hk : ∀ {α : Type} (t : Nat) (f : List Nat → α) (x : α), (lastOf t bs).elim ((lastOf t [b]).elim x f) f = (lastOf t (b :: bs)).elim x f := by
    intro α t f x
    simp only [lastOf]
    cases lastOf t bs <;> simp
  have ht : (lastAt TTW (o + b.bytes.length) bs).getD ((lastAt TTW o [b]).getD s.tiffpos) = (lastAt TTW o (b :: bs)).getD s.tiffpos := by
    simp only [lastAt]
    cases lastAt TTW (o + b.bytes.length) bs <;> simp
  simp only [after]
  rw [hk, hk, hk, hk, ht]

theorem bytes_cons (b : Block) (bs : List Block) : bytes (b :: bs) = b.bytes ++ bytes bs := rfl

theorem after_none (s : Mrw) (o : Nat) (bs : List Block) (hg : Good bs) (hl : (bytes bs).length ≤ 20) : after s o bs = s := by
  induction bs generalizing s o with
  | nil => rfl
  | cons b bs ih =>
    obtain ⟨-, h2, h3⟩ := hg
    have hl' := hl
    rw [bytes_cons, List.length_append] at hl'
    have hn : ¬(b.tag = PRD ∨ b.tag = WBG ∨ b.tag = TTW) := fun h => by have := h2 h; omega
    rw [← after_cons, ih _ _ h3 (by omega)]
    simp only [after, lastOf, lastAt, if_neg (fun h => hn (.inl h)), if_neg (fun h => hn (.inr (.inl h))), if_neg (fun h => hn (.inr (.inr h))),
      Option.none_or, Option.elim, Option.getD]

theorem blocks_ok (buf : List Nat) (fuel pos : Nat) (s : Mrw) (bs : List Block) (t : List Nat) (h : buf.drop pos = bytes bs ++ t) (hg : Good bs)
    (hd : s.dataOffset = pos + (bytes bs).length) (hf : (bytes bs).length < fuel) : blocks buf fuel pos s = .ok (after s pos bs) := by
  induction bs generalizing fuel pos s with
  | nil =>
    obtain ⟨fuel, rfl⟩ : ∃ n, fuel = n + 1 := ⟨fuel - 1, by simp [bytes] at hf; omega⟩
    simp only [bytes, List.flatMap_nil, List.length_nil] at hd
    rw [blocks, if_neg (by omega)]
    rfl
  | cons b bs ih =>
    obtain ⟨fuel, rfl⟩ : ∃ n, fuel = n + 1 := ⟨fuel - 1, by omega⟩
    rw [blocks]
    by_cases hp : pos + 20 < s.dataOffset
    · rw [if_pos hp]
      rw [bytes_cons, List.append_assoc] at h
      have hne : b.bytes ≠ [] := by intro e; have := bytes_length b; rw [e] at this; simp at this; omega
      rw [block_ok buf pos s b _ h hg.1, ok_bind]
      simp only []
      have hb := bytes_length b
      rw [bytes_cons, List.length_append] at hd hf
      rw [ih fuel (pos + b.bytes.length) (after s pos [b]) (drop_at h hne).2 hg.2.2 (by show s.dataOffset = _; omega) (by omega), after_cons]
    · rw [if_neg hp, after_none s pos (b :: bs) hg (by omega)]

theorem lastAt_le (tag : Nat) (o : Nat) (bs : List Block) (p : Nat) (h : lastAt tag o bs = some p) : p ≤ o + (bytes bs).length := by
  induction bs generalizing o with
  | nil => cases h
  | cons b bs ih =>
    rw [lastAt] at h
    rw [bytes_cons, List.length_append]
    have hb := bytes_length b
    cases hl : lastAt tag (o + b.bytes.length) bs with
    | some q => rw [hl] at h; cases h; have := ih _ hl; omega
    | none =>
      rw [hl, Option.none_or] at h
      split at h
      · cases h; omega
      · cases h

theorem newMrw_ok (bs : List Block) (pic : List Nat) (hg : Good bs) (hl : (bytes bs).length + 8 < 2 ^ 32) :
    newMrw (Spec.Mrw.file bs pic) = .ok (after { dataOffset := 8 + (bytes bs).length } 8 bs) := by
  have h4 : (Spec.Mrw.file bs pic).drop 4 = w32 (bytes bs).length ++ (bytes bs ++ pic) := by
    simp [Spec.Mrw.file, List.append_assoc]
  have h8 : (Spec.Mrw.file bs pic).drop 8 = bytes bs ++ pic := (drop_at h4 (by simp [w32])).2
  have hlen : (Spec.Mrw.file bs pic).length = 8 + (bytes bs).length + pic.length := by simp [Spec.Mrw.file, w32]; omega
  rw [newMrw, beU32_at h4, ok_bind, assert', if_pos (by simpa using hl), ok_bind,
    blocks_ok _ _ 8 _ bs pic h8 hg (Nat.add_comm _ _) (by omega), ok_bind, if_pos ?_]
  · rw [Nat.add_comm]
  · rw [hlen]
    show (lastAt TTW 8 bs).getD 0 ≤ _
    cases ht : lastAt TTW 8 bs with
    | none => simp
    | some p => have := lastAt_le _ _ _ _ ht; simp only [Option.getD]; omega

/-- `decompress_12be` returns the 12 bit fields. -/
theorem dec12be_ok (buf : List Nat) (hb : IsBytes buf) (w h : Nat) (h0 : 0 < w) (hw : w % 2 = 0) (hlen : h * w * 12 ≤ 8 * buf.length) :
    ∃ img, dec12be buf w h = .ok img ∧ Spec.Holds img w h (fun r c => Spec.fieldMSB 12 buf (r * w + c)) := by
  refine linesFn_ok w h h0 _ _ fun r hr => ?_
  have := Props.C13_packed_partial 12 (by omega) buf hb r [List.replicate w 0] w (by simp) (by right; right; left; exact ⟨rfl, hw⟩)
  have h1 : (r + 1) * w ≤ h * w := Nat.mul_le_mul_right _ hr
  rw [oneLine, this, if_pos (by simp only [List.length_cons, List.length_nil, Nat.zero_add]; omega)]
  simp [ok_bind]

/-! ## White balance from the maker notes -/

/-- The last four numbers, with zeros before the first. -/
def Is (s : Win) (l : List Nat) : Prop :=
  ∃ a b c d t, l.reverse ++ [0, 0, 0, 0] = d :: c :: b :: a :: t ∧ s.w0 = a ∧ s.w2 = b ∧ s.w1 = c ∧ s.w3 = d

theorem is_step (s : Win) (l : List Nat) (v : Nat) (h : Is s l) : Is (winStep s v) (l ++ [v]) := by
  obtain ⟨a, b, c, d, t, h1, h2, h3, h4, h5⟩ := h
  refine ⟨b, c, d, v, a :: t, by rw [List.reverse_append]; simp [h1], ?_⟩
  rw [winStep]
  simp only []
  split <;> exact ⟨h3, h4, h5, rfl⟩

theorem quad_last (l : List Nat) (a b c d : Nat) (t : List Nat) (h : l.reverse ++ [0, 0, 0, 0] = d :: c :: b :: a :: t)
    (i r q : Nat) (hq : Quad l i r q) (hi : i + 4 = l.length) : a = r ∧ b = q ∧ c = 256 ∧ d = 256 := by
  obtain ⟨q1, q2, q3, q4, -⟩ := hq
  have hr : ∀ k, k < l.length → (l.reverse ++ [0, 0, 0, 0])[k]? = l[l.length - 1 - k]? := by
    intro k hk
    rw [List.getElem?_append_left (by simpa using hk), List.getElem?_reverse hk]
  have r0 := hr 0 (by omega); have r1 := hr 1 (by omega); have r2 := hr 2 (by omega); have r3 := hr 3 (by omega)
  rw [h] at r0 r1 r2 r3
  rw [show l.length - 1 - 0 = i + 3 by omega, q4] at r0
  rw [show l.length - 1 - 1 = i + 2 by omega, q3] at r1
  rw [show l.length - 1 - 2 = i + 1 by omega, q2] at r2
  rw [show l.length - 1 - 3 = i by omega, q1] at r3
  simp at r0 r1 r2 r3
  exact ⟨r3, r2, r1, r0⟩

theorem quad_of_last (l : List Nat) (a b c d : Nat) (t : List Nat) (h : l.reverse ++ [0, 0, 0, 0] = d :: c :: b :: a :: t)
    (h1 : c = 256) (h2 : d = 256) (h3 : 256 < a) (h4 : a < 640) (h5 : 256 < b) (h6 : b < 640) : ∃ i, i + 4 = l.length ∧ Quad l i a b := by
  have hlen : 4 ≤ l.length := by
    by_contra hc
    have h3' : (l.reverse ++ [0, 0, 0, 0])[3]? = some a := by rw [h]; rfl
    rw [List.getElem?_append_right (by simp; omega)] at h3'
    have : ∀ k, k < 4 → ([0, 0, 0, 0] : List Nat)[k]? = some 0 := by decide
    rw [this _ (by simp; omega)] at h3'
    cases h3'; omega
  have hr : ∀ k, k < l.length → (l.reverse ++ [0, 0, 0, 0])[k]? = l[l.length - 1 - k]? := by
    intro k hk
    rw [List.getElem?_append_left (by simpa using hk), List.getElem?_reverse hk]
  have r0 := hr 0 (by omega); have r1 := hr 1 (by omega); have r2 := hr 2 (by omega); have r3 := hr 3 (by omega)
  rw [h] at r0 r1 r2 r3
  refine ⟨l.length - 4, by omega, ?_, ?_, ?_, ?_, h3, h4, h5, h6⟩
  · rw [show l.length - 4 = l.length - 1 - 3 by omega, ← r3]; rfl
  · rw [show l.length - 4 + 1 = l.length - 1 - 2 by omega, ← r2]; rfl
  · rw [show l.length - 4 + 2 = l.length - 1 - 1 by omega, ← r1, ← h1]; rfl
  · rw [show l.length - 4 + 3 = l.length - 1 - 0 by omega, ← r0, ← h2]; rfl

/-- What the loop has found after the numbers `l`. -/
def Found (l : List Nat) (mul : List Nat) : Prop :=
  (∀ i r b, Quad l i r b → (∀ j r' b', i < j → ¬Quad l j r' b') → mul = [r, 256, 256, b]) ∧ ((∀ i r b, ¬Quad l i r b) → mul = [1, 1, 1, 1])

theorem quad_len {l : List Nat} {i r b : Nat} (h : Quad l i r b) : i + 4 ≤ l.length := by
  have := h.2.2.2.1
  have := (List.getElem?_eq_some_iff.mp this).1
  omega

theorem quad_snoc (l : List Nat) (v i r b : Nat) (hi : i + 4 ≤ l.length) : Quad (l ++ [v]) i r b ↔ Quad l i r b := by
  rw [Quad, Quad, List.getElem?_append_left (by omega), List.getElem?_append_left (by omega), List.getElem?_append_left (by omega),
    List.getElem?_append_left (by omega)]

theorem quad_unique {l : List Nat} {i r b r' b' : Nat} (h : Quad l i r b) (h' : Quad l i r' b') : r = r' ∧ b = b' := by
  have a := h.1; have c := h.2.1
  rw [h'.1] at a; rw [h'.2.1] at c
  cases a; cases c; exact ⟨rfl, rfl⟩

theorem found_step (s : Win) (l : List Nat) (v : Nat) (hi : Is s l) (hf : Found l s.mul) : Found (l ++ [v]) (winStep s v).mul := by
  obtain ⟨a, b, c, d, t, h1, h2, h3, h4, h5⟩ := hi
  have hrev : (l ++ [v]).reverse ++ [0, 0, 0, 0] = v :: d :: c :: b :: (a :: t) := by rw [List.reverse_append]; simp [h1]
  rw [winStep]
  simp only [h3, h4, h5]
  by_cases hc : d = 256 ∧ v = 256 ∧ b > 256 ∧ b < 640 ∧ c > 256 ∧ c < 640
  · rw [if_pos hc]
    simp only []
    obtain ⟨k, hk, hq⟩ := quad_of_last (l ++ [v]) b c d v (a :: t) hrev hc.1 hc.2.1 hc.2.2.1 hc.2.2.2.1 hc.2.2.2.2.1 hc.2.2.2.2.2
    refine ⟨fun i r q h hm => ?_, fun h => absurd hq (h _ _ _)⟩
    have hik : i = k := by
      have := quad_len h
      by_contra hne
      exact hm k _ _ (by omega) hq
    subst hik
    obtain ⟨rfl, rfl⟩ := quad_unique h hq
    rw [hc.1, hc.2.1]
  · rw [if_neg hc]
    simp only []
    have hnl : ∀ i r q, Quad (l ++ [v]) i r q → i + 4 ≤ l.length := by
      intro i r q h
      have := quad_len h
      by_contra hne
      obtain ⟨rfl, rfl, rfl, rfl⟩ := quad_last (l ++ [v]) b c d v (a :: t) hrev i r q h (by simp at this ⊢; omega)
      exact hc ⟨rfl, rfl, h.2.2.2.2.1, h.2.2.2.2.2.1, h.2.2.2.2.2.2.1, h.2.2.2.2.2.2.2⟩
    refine ⟨fun i r q h hm => ?_, fun h => hf.2 fun i r q hq => h i r q ((quad_snoc l v i r q (quad_len hq)).mpr hq)⟩
    refine hf.1 i r q ((quad_snoc l v i r q (hnl _ _ _ h)).mp h) fun j r' b' hj hq => ?_
    exact hm j r' b' hj ((quad_snoc l v j r' b' (quad_len hq)).mpr hq)

theorem found_all (l : List Nat) : Is (l.foldl winStep {}) l ∧ Found l (l.foldl winStep {}).mul := by
  induction l using List.reverseRecOn with
  | nil =>
    refine ⟨⟨0, 0, 0, 0, [], rfl, rfl, rfl, rfl, rfl⟩, fun i r b h => ?_, fun _ => rfl⟩
    have := quad_len h; simp at this
  | append_singleton l v ih =>
    rw [List.foldl_append]
    exact ⟨is_step _ _ _ ih.1, found_step _ _ _ ih.1 ih.2⟩

theorem mlyWb_words (file : List Nat) (n : Nat) : mlyWb file n = ((words file n).foldl winStep {}).mul := by
  rw [mlyWb, words, List.foldl_map]
  rfl

end Verif.Mrw
