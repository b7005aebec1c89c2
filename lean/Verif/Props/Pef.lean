import Verif.Proofs.Pef
import Verif.Props.CrxRange
/-! # C57: Pentax PEF data decode to the pixels the camera stored -/

namespace Verif.Props
open Verif Verif.Spec Verif.Spec.TwoRow Verif.Spec.Pef Verif.Pef Verif.Pumps Verif.Ljpeg

/-- All differences of the image have a word. -/
def Codable (ws : Words) (w h : Nat) (px : Nat → Nat → Nat) : Prop :=
  ∀ r c, r < h → c < w → catOf ((px r c : Int) - before (fun _ _ => 0) (fun r c => (px r c : Int)) r c) < ws.length

/-- Cameras that store their words in the file: for every canonical table of at most 15 words in either byte order, every image
of even width whose differences have words, and every file that holds its code followed by at least 32 more bits, the decoder
returns the image. -/
theorem C57_stored_table_partial (le : Bool) (n : Nat) (skip tail : List Nat) (ws : Words) (order : List Nat)
    (hn : (n + 12) % 16 = ws.length) (hs : skip.length = 12) (hc : Canonical ws order) (src : List Nat) (hb : IsBytes src) (w h : Nat)
    (hw : w % 2 = 0) (h0 : 0 < w) (px : Nat → Nat → Nat) (hpx : ∀ r c, r < h → c < w → px r c < 65536) (hcat : Codable ws w h px)
    (pad : List Bool) (hp : 32 ≤ pad.length) (hcode : bytesMSB src = encodePef ws w h px ++ pad) :
    ∃ img, doDecode src (some (blob le n skip ws tail, le)) w h = .ok img ∧ Holds img w h px := by
  obtain ⟨hv, e1, hl, hv'⟩ := fileTable_ok le n skip tail ws order hn hs hc
  obtain ⟨t, e2, ht⟩ := table_decodes ws order hv (by omega) hc hl hv'
  obtain ⟨st, e3, h3⟩ := image_ok t ws src hb w h hw h0 px hpx hcat ht pad hp hcode
  refine ⟨st.out, ?_, h3⟩
  unfold doDecode
  simp only [bind, Except.bind]
  rw [e1]
  simp only
  rw [e2]
  simp only
  rw [e3]

/-- Four words of 1 to 3 bits, a 2 x 3 image and its file. -/
example : ∃ (ws : Words) (order src : List Nat) (px : Nat → Nat → Nat), (8 + 12) % 16 = ws.length ∧ Canonical ws order ∧ IsBytes src ∧
    (∀ r < 3, ∀ c < 2, px r c < 65536 ∧
      catOf ((px r c : Int) - before (fun _ _ => 0) (fun r c => (px r c : Int)) r c) < ws.length) ∧
    bytesMSB src = encodePef ws 2 3 px ++ List.replicate 36 false ∧ px 1 0 = 5 ∧ px 2 1 = 8 ∧
    blob true 8 (List.replicate 12 7) ws [9] = [8, 0, 7, 7, 7, 7, 7, 7, 7, 7, 7, 7, 7, 7, 0, 8, 0, 0, 0, 12, 0, 14, 2, 1, 3, 3, 9] :=
  ⟨[(2, 2), (1, 0), (3, 6), (3, 7)], [1, 0, 2, 3], [159, 91, 240, 0, 0, 0, 0],
    fun r c => (([[0, 1], [5, 1], [0, 8]] : List (List Nat)).getD r []).getD c 0, by decide, by decide +kernel, by decide,
    by decide +kernel, by decide +kernel, by decide, by decide, by decide +kernel⟩

theorem doDecode_eq (src : List Nat) (huff : Option (List Nat × Bool)) (w h : Nat) (bits hv : List Nat) (t : HuffTable) (st : St)
    (e1 : (match huff with
      | some (h, le) => fileTable le h
      | none => .ok builtinTable) = .ok (bits, hv))
    (e2 : HuffTable.new bits hv (List.replicate 256 0) false = .ok t)
    (e3 : forN h (rowStep t w) ⟨PumpMSB.new src, [0, 0], [0, 0], List.replicate (w * h) 0⟩ = .ok st) :
    doDecode src huff w h = .ok st.out := by
  have key : ∀ x : R (List Nat × List Nat), x = .ok (bits, hv) → (do
      let (bits, hv) ← x
      let t ← HuffTable.new bits hv (List.replicate 256 0) false
      let st ← forN h (rowStep t w) ⟨PumpMSB.new src, [0, 0], [0, 0], List.replicate (w * h) 0⟩
      .ok st.out) = (.ok st.out : R (List Nat)) := by
    intro x hx
    rw [hx]
    simp only [bind, Except.bind]
    rw [e2]
    simp only
    rw [e3]
  rcases huff with _ | ⟨a, le⟩
  · exact key _ e1
  · exact key _ e1

theorem builtin_canonical : Canonical builtin TREE_VALS ∧ counts builtin = TREE_BITS := by decide +kernel

/-- Cameras without a stored table use the built-in words, for differences of up to 12 binary digits. -/
theorem C57_builtin_table_partial (src : List Nat) (hb : IsBytes src) (w h : Nat) (hw : w % 2 = 0) (h0 : 0 < w) (px : Nat → Nat → Nat)
    (hpx : ∀ r c, r < h → c < w → px r c < 65536) (hcat : Codable builtin w h px) (pad : List Bool) (hp : 32 ≤ pad.length)
    (hcode : bytesMSB src = encodePef builtin w h px ++ pad) :
    ∃ img, doDecode src none w h = .ok img ∧ Holds img w h px := by
  obtain ⟨t, e2, ht⟩ := table_decodes builtin TREE_VALS (TREE_VALS ++ List.replicate (256 - TREE_VALS.length) 0) (by decide)
    builtin_canonical.1 (by rw [List.length_append, List.length_replicate]; rfl) (by
      intro k hk
      rw [List.getD_eq_getElem?_getD, List.getD_eq_getElem?_getD, List.getElem?_append_left (show k < TREE_VALS.length from hk)])
  obtain ⟨st, e3, h3⟩ := image_ok t builtin src hb w h hw h0 px hpx hcat ht pad hp hcode
  rw [builtin_canonical.2] at e2
  exact ⟨st.out, doDecode_eq src none w h _ _ t st rfl e2 e3, h3⟩

/-- All 12 bit images are covered. -/
theorem C57_twelve_bits (w h : Nat) (px : Nat → Nat → Nat) (hpx : ∀ r c, r < h → c < w → px r c < 4096) : Codable builtin w h px := by
  intro r c hr hc
  have h1 := hpx r c hr hc
  have h2 : 0 ≤ before (fun _ _ => 0) (fun r c => (px r c : Int)) r c ∧ before (fun _ _ => 0) (fun r c => (px r c : Int)) r c < 4096 := by
    unfold before
    split
    · have := hpx r (c - 2) hr (by omega); simp only; exact ⟨by omega, by omega⟩
    · split
      · have := hpx (r - 2) c (by omega) hc; simp only; exact ⟨by omega, by omega⟩
      · simp only; exact ⟨by omega, by omega⟩
  show _ < 13
  have : ((px r c : Int) - before (fun _ _ => 0) (fun r c => (px r c : Int)) r c).natAbs < 2 ^ 12 := by
    have : (2 : Nat) ^ 12 = 4096 := rfl
    omega
  unfold catOf
  split
  · omega
  · rename_i hne
    have := (Nat.log2_lt (by omega)).2 this
    omega

/-- A 4 x 1 image with the largest difference, and its file. -/
example : bytesMSB [255, 255, 255, 127, 240, 0, 250, 96, 0, 0, 0, 0] =
    encodePef builtin 4 1 (fun _ c => [4095, 1, 0, 77].getD c 0) ++ List.replicate 35 false := by decide +kernel

/-! ## What fails -/

theorem upd_len {α} (l : List α) (i : Nat) (v : α) (l' : List α) (e : upd l i v = .ok l') : l'.length = l.length ∧ i < l.length := by
  by_cases h : i < l.length
  · rw [upd_lt _ _ _ h] at e
    injection e with e
    rw [← e]; simp [h]
  · unfold upd at e
    rw [if_neg h] at e
    exact absurd e (by simp [panic'])

theorem pairStep_len (t : HuffTable) (w r k : Nat) (s s' : PumpMSB × Int × Int × List Nat) (e : pairStep t w r k s = .ok s') :
    s'.2.2.2.length = s.2.2.2.length ∧ r * w + (2 + 2 * k) + 1 < s.2.2.2.length := by
  unfold pairStep at e
  obtain ⟨⟨l1, p1⟩, _, e⟩ := bind_inv _ _ _ e
  obtain ⟨⟨l2, p2⟩, _, e⟩ := bind_inv _ _ _ e
  obtain ⟨o1, e1, e⟩ := bind_inv _ _ _ e
  obtain ⟨o2, e2, e⟩ := bind_inv _ _ _ e
  cases e
  have h1 := upd_len _ _ _ _ e1
  have h2 := upd_len _ _ _ _ e2
  exact ⟨by simp only; omega, by omega⟩

theorem rowStep_len (t : HuffTable) (w r : Nat) (s s' : St) (e : rowStep t w r s = .ok s') :
    s'.out.length = s.out.length ∧ (w % 2 = 1 → r * w + w < s.out.length) := by
  unfold rowStep at e
  obtain ⟨u1, _, e⟩ := bind_inv _ _ _ e
  obtain ⟨⟨l1, p1⟩, _, e⟩ := bind_inv _ _ _ e
  obtain ⟨u2, _, e⟩ := bind_inv _ _ _ e
  obtain ⟨⟨l2, p2⟩, _, e⟩ := bind_inv _ _ _ e
  obtain ⟨o1, e1, e⟩ := bind_inv _ _ _ e
  obtain ⟨o2, e2, e⟩ := bind_inv _ _ _ e
  obtain ⟨⟨p3, x, y, o3⟩, e3, e⟩ := bind_inv _ _ _ e
  cases e
  have h1 := upd_len _ _ _ _ e1
  have h2 := upd_len _ _ _ _ e2
  have h3 := forN_post _ _ (fun s => s.2.2.2.length = o2.length) (fun i a b hab hi => by rw [(pairStep_len _ _ _ _ _ _ hab).1]; exact hi)
    _ _ e3 rfl
  refine ⟨by simp only at h3 ⊢; omega, ?_⟩
  intro ho
  obtain ⟨m, hm⟩ : ∃ m, (w - 1) / 2 = m := ⟨_, rfl⟩
  cases m with
  | zero =>
    have : w = 1 := by omega
    subst this
    omega
  | succ m =>
    rw [hm, forN_succ] at e3
    obtain ⟨s1, e4, e5⟩ := bind_inv _ _ _ e3
    have h4 := forN_post _ _ (fun s => s.2.2.2.length = o2.length)
      (fun i a b hab hi => by rw [(pairStep_len _ _ _ _ _ _ hab).1]; exact hi) _ _ e4 rfl
    have h5 := (pairStep_len _ _ _ _ _ _ e5).2
    omega

theorem rows_odd (t : HuffTable) (w h : Nat) (hw : w % 2 = 1) (hh : 0 < h) (s s' : St) (hs : s.out.length = w * h) :
    forN h (rowStep t w) s ≠ .ok s' := by
  intro e1
  obtain ⟨k, rfl⟩ : ∃ k, h = k + 1 := ⟨h - 1, by omega⟩
  rw [forN_succ] at e1
  obtain ⟨s1, e2, e3⟩ := bind_inv _ _ _ e1
  have h1 := forN_post _ _ (fun s : St => s.out.length = w * (k + 1))
    (fun i a b hab hi => by rw [(rowStep_len _ _ _ _ _ hab).1]; exact hi) _ _ e2 hs
  have h2 := (rowStep_len _ _ _ _ _ e3).2 hw
  rw [h1, Nat.mul_add, Nat.mul_comm] at h2
  omega

/-- No image of odd width is ever decoded, whatever the file holds: the last pair of the last row does not fit. -/
theorem C57_odd_width (src : List Nat) (huff : Option (List Nat × Bool)) (w h : Nat) (hw : w % 2 = 1) (hh : 0 < h) (img : List Nat) :
    doDecode src huff w h ≠ .ok img := by
  intro e
  unfold doDecode at e
  cases huff with
  | none =>
    obtain ⟨⟨bits, hv⟩, _, e⟩ := bind_inv _ _ _ e
    obtain ⟨t, _, e⟩ := bind_inv _ _ _ e
    obtain ⟨st, e1, _⟩ := bind_inv _ _ _ e
    exact rows_odd t w h hw hh _ _ List.length_replicate e1
  | some x =>
    obtain ⟨⟨bits, hv⟩, _, e⟩ := bind_inv _ _ _ e
    obtain ⟨t, _, e⟩ := bind_inv _ _ _ e
    obtain ⟨st, e1, _⟩ := bind_inv _ _ _ e
    exact rows_odd t w h hw hh _ _ List.length_replicate e1

/-- Tables that are not canonical are misread although each file is unambiguous: the words are sorted by their value and then
given new ones. Here differences 0, ±1 and ±2, ±3 have the words 1, 01 and 00; the file holds two pixels of value 1 and the
decoder returns two pixels of value 3. -/
theorem C57_other_tables_wrong :
    ∃ (ws : Words) (src img : List Nat), PrefixFree ws ∧ Codable ws 2 1 (fun _ _ => 1) ∧ IsBytes src ∧
      bytesMSB src = encodePef ws 2 1 (fun _ _ => 1) ++ List.replicate 34 false ∧
      doDecode src (some (blob true 7 (List.replicate 12 0) ws [], true)) 2 1 = .ok img ∧ Holds img 2 1 (fun _ _ => 3) := by
  have hc : Canonical [(2, 3), (2, 2), (1, 0)] [2, 1, 0] := by decide +kernel
  have e1 : ∃ hv, fileTable true (blob true 7 (List.replicate 12 0) [(1, 1), (2, 1), (2, 0)] []) = .ok (0 :: counts [(2, 3), (2, 2), (1, 0)], hv) ∧
      hv.length = 256 ∧ ∀ k, k < 3 → hv.getD k 0 = [2, 1, 0].getD k 0 := by
    refine ⟨2 :: 1 :: 0 :: List.replicate 253 0, by decide +kernel, ?_, ?_⟩
    · simp only [List.length_cons, List.length_replicate]
    · intro k hk
      match k, hk with
      | 0, _ => rfl
      | 1, _ => rfl
      | 2, _ => rfl
  obtain ⟨hv, e1, hl, hv'⟩ := e1
  obtain ⟨t, e2, ht⟩ := table_decodes [(2, 3), (2, 2), (1, 0)] [2, 1, 0] hv (by decide) hc hl hv'
  obtain ⟨st, e3, h3⟩ := image_ok t [(2, 3), (2, 2), (1, 0)] [0x6c, 0, 0, 0, 0] (by decide) 2 1 (by decide) (by decide) (fun _ _ => 3)
    (by intros; decide)
    (by
      intro r c hr hc
      have : r = 0 := by omega
      subst this
      have : c = 0 ∨ c = 1 := by omega
      rcases this with rfl | rfl <;> decide) ht (List.replicate 34 false) (by decide) (by decide +kernel)
  refine ⟨[(1, 1), (2, 1), (2, 0)], [0x6c, 0, 0, 0, 0], st.out, by decide +kernel, ?_, by decide, by decide +kernel, ?_, h3⟩
  · intro r c hr hc
    have : r = 0 := by omega
    subst this
    have : c = 0 ∨ c = 1 := by omega
    rcases this with rfl | rfl <;> decide
  · exact doDecode_eq _ (some (_, true)) 2 1 _ _ t st e1 e2 e3

end Verif.Props
