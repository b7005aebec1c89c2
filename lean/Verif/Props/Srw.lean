import Verif.Proofs.Srw3
import Verif.Proofs.CrxBytes
/-!
# C67: compressed Samsung images decode to the stored image
-/

namespace Verif.Props
open Verif Verif.Srw Verif.Pumps Verif.Spec Verif.Spec.Srw Verif.Spec.Pef Verif.Spec.TwoRow Verif.CrxSpec

/-! ## The three generations -/

/-- A file of the first generation and `h` rows of `w` pixels belong together: a table says where the rows are, and there are the codes
of the pixels for some choices of the camera. -/
def Stored1 (buf loffsets : List Nat) (w h : Nat) (px : Nat → Nat → Nat) : Prop :=
  IsBytes buf ∧ ∃ (m : Nat) (g : Nat → Nat → Group) (off : Nat → Nat), w = 16 * m ∧ (∀ r k, r < h → k < m → Fits1 g px r k) ∧ (∀ r, r < h → Entry loffsets r (off r)) ∧
    ∀ r, r < h → BitsAt buf (off r) (row1Bits g px m r)

/-- **C67**, first generation: every pixel arrives, with the red and blue ones back in their places. -/
theorem C67_gen1 (buf loffsets : List Nat) (w h : Nat) (px : Nat → Nat → Nat) (hS : Stored1 buf loffsets w h px) (hh : h % 2 = 0) :
    ∃ out, decode1 buf loffsets w h = .ok out ∧ Holds out w h (swapped px) := by
  obtain ⟨hb, m, g, off, hw, hf, ho, hbits⟩ := hS
  exact decode1_ok buf loffsets hb w h m hw hh px g off hf ho hbits

/-- A file of the second generation: the codes of the differences from the pixel two to the left, or two above, and at least 10 more bits. -/
def Stored2 (buf : List Nat) (w h : Nat) (px : Nat → Nat → Nat) : Prop :=
  IsBytes buf ∧ (∀ r c, r < h → c < w → px r c < 65536 ∧ catOf ((px r c : Int) - before (fun _ _ => 0) (fun r c => (px r c : Int)) r c) < 14) ∧
    ∃ pad, 10 ≤ pad.length ∧ bytesMSB buf = encodePef words2 w h px ++ pad

/-- **C67**, second generation: every pixel arrives at its place. -/
theorem C67_gen2 (buf : List Nat) (w h : Nat) (px : Nat → Nat → Nat) (hS : Stored2 buf w h px) :
    ∃ out, decode2 buf w h = .ok out ∧ Holds out w h px := by
  obtain ⟨hb, hpx, pad, hp, hbits⟩ := hS
  exact decode2_ok buf hb w h px (fun r c hr hc => (hpx r c hr hc).1) (fun r c hr hc => (hpx r c hr hc).2) pad hp hbits

/-- A file of the third generation and the picture that it stores, for some choices of the camera. -/
def Stored3 (buf : List Nat) (w h : Nat) (px : Nat → Nat → Nat) : Prop :=
  IsBytes buf ∧ ∃ m p opt b x y z, w = 16 * m ∧ Flags p opt ∧ (1 ≤ p.depth ∧ p.depth ≤ 15) ∧ p.init < 2 ^ 14 ∧
    Picture p b w h px ∧ (∀ r k, r < h → k < m → Fits3 p (b r) w r k) ∧ x.length = 20 ∧ y.length = 60 ∧ z.length = 26 ∧
    BitsAt buf 0 (headerBits p opt x y z) ∧ ∀ r, r < h → BitsAt buf (rowStart p b m r) (row3Bits p b m r)

/-- **C67**, third generation: every pixel arrives at its place. -/
theorem C67_gen3 (buf : List Nat) (w h : Nat) (px : Nat → Nat → Nat) (hS : Stored3 buf w h px) :
    ∃ out, decode3 buf w h = .ok out ∧ Holds out w h px := by
  obtain ⟨hb, m, p, opt, b, x, y, z, hw, hopt, hdep, hinit, hpic, hf, hx, hy, hz, hhead, hbits⟩ := hS
  exact decode3_ok buf hb w h m hw px p opt hopt b hdep hinit hpic hf x y z hx hy hz hhead hbits

/-! ## Every picture has a file -/

/-- Bits in words of four bytes, filled up to a multiple of 16 bytes. -/
def wordFile (l : List Bool) : List Nat := swapWords (toBytes (l ++ List.replicate (128 * ((l.length + 127) / 128) - l.length) false))

theorem srw_swapWords_swap (l : List Nat) (h : l.length % 4 = 0) : swapWords (swapWords l) = l := by
  match l, h with
  | [], _ => rfl
  | [_], h => simp at h
  | [_, _], h => simp at h
  | [_, _, _], h => simp at h
  | x :: y :: z :: w :: r, h =>
    have := srw_swapWords_swap r (by simp at h; omega)
    simp [swapWords, this]

theorem isBytes_swapWords (l : List Nat) (h : IsBytes l) : IsBytes (swapWords l) := by
  induction l using swapWords.induct with
  | case1 a b c d r ih =>
    intro x hx
    simp only [swapWords, List.mem_cons] at hx
    rcases hx with rfl | rfl | rfl | rfl | hx
    · exact h _ (by simp)
    · exact h _ (by simp)
    · exact h _ (by simp)
    · exact h _ (by simp)
    · exact ih (fun y hy => h y (by simp [hy])) x hx
  | case2 l hl =>
    rw [swapWords.eq_2 l hl]
    intro x hx
    exact h x (List.mem_reverse.1 hx)

theorem wordFile_spec (l : List Bool) : (wordFile l).length = 16 * ((l.length + 127) / 128) ∧ IsBytes (wordFile l) ∧
    ∃ pad, bytesMSB (swapWords (wordFile l)) = l ++ pad := by
  obtain ⟨pad, h1, h2, h3⟩ := toBytes_spec _ (l ++ List.replicate (128 * ((l.length + 127) / 128) - l.length) false) (Nat.le_refl _)
  rw [List.length_append, List.length_replicate] at h3
  refine ⟨?_, isBytes_swapWords _ h2, List.replicate (128 * ((l.length + 127) / 128) - l.length) false ++ pad, ?_⟩
  · rw [wordFile, PumpMSB32.length_swapWords, h3]; omega
  · rw [wordFile, srw_swapWords_swap _ (by rw [h3]; omega), h1, List.append_assoc]

theorem bitsAt_wordFile (a : List Nat) (l : List Bool) (c : List Nat) : BitsAt (a ++ (wordFile l ++ c)) a.length l := by
  obtain ⟨h1, _, pad, h3⟩ := wordFile_spec l
  refine ⟨by simp, 4 * ((l.length + 127) / 128), pad, by simp only [List.length_append]; omega, ?_⟩
  rw [List.drop_left, List.take_append_of_le_length (by omega), List.take_of_length_le (by omega), h3]

theorem range_split {α : Type} (f : Nat → List α) (h r : Nat) (hr : r < h) :
    ∃ c, (List.range h).flatMap f = (List.range r).flatMap f ++ (f r ++ c) := by
  obtain ⟨k, rfl⟩ : ∃ k, h = r + 1 + k := ⟨h - (r + 1), by omega⟩
  rw [List.range_add, List.flatMap_append, List.range_succ, List.flatMap_append]
  exact ⟨(List.map (fun x => r + 1 + x) (List.range k)).flatMap f, by simp [List.append_assoc]⟩

theorem isBytes_flatMap {β : Type} (l : List β) (f : β → List Nat) (h : ∀ x ∈ l, IsBytes (f x)) : IsBytes (l.flatMap f) := by
  intro y hy
  obtain ⟨x, hx, hy⟩ := List.mem_flatMap.1 hy
  exact h x hx y hy

theorem isBytes_append (a b : List Nat) (ha : IsBytes a) (hb : IsBytes b) : IsBytes (a ++ b) := by
  intro x hx
  rcases List.mem_append.1 hx with h | h
  · exact ha x h
  · exact hb x h

/-- A table of offsets. -/
def offTable (h : Nat) (off : Nat → Nat) : List Nat :=
  (List.range h).flatMap fun r => [off r % 256, off r / 256 % 256, off r / 256 ^ 2 % 256, off r / 256 ^ 3 % 256]

theorem offTable_entry (h : Nat) (off : Nat → Nat) (r : Nat) (hr : r < h) (ho : off r < 2 ^ 32) : Entry (offTable h off) r (off r) := by
  refine ⟨ho, ?_⟩
  intro i hi
  obtain ⟨c, hc⟩ := range_split (fun r => [off r % 256, off r / 256 % 256, off r / 256 ^ 2 % 256, off r / 256 ^ 3 % 256]) h r hr
  have hl : ∀ n, ((List.range n).flatMap fun r => [off r % 256, off r / 256 % 256, off r / 256 ^ 2 % 256, off r / 256 ^ 3 % 256]).length = 4 * n := by
    intro n; induction n with
    | zero => rfl
    | succ n ih => rw [List.range_succ, List.flatMap_append, List.length_append, ih]; simp; omega
  rw [offTable, hc, List.getElem?_append_right (by rw [hl]; omega), hl, Nat.add_sub_cancel_left]
  rcases (by omega : i = 0 ∨ i = 1 ∨ i = 2 ∨ i = 3) with rfl | rfl | rfl | rfl <;> simp

/-- Groups that are not compared with rows above, with fields of 13 bits. -/
def plain1 (_ _ : Nat) : Group := ⟨false, fun _ => 3, fun _ => 13⟩

theorem plain1_lens (s r k i : Nat) : lens s (plain1 r) (k + 1) i = 13 := rfl

theorem plain1_fits (px : Nat → Nat → Nat) (m h : Nat) (hpx : ∀ r c, r < h → c < 16 * m → px r c < 4096) (r k : Nat) (hr : r < h) (hk : k < m) :
    Fits1 plain1 px r k := by
  refine ⟨fun h => Bool.noConfusion h, ?_, ?_⟩
  · intro i _
    exact ⟨(by decide : 3 < 4), (by decide : 13 < 16), fun h => absurd h (by decide : ¬ 3 = 2), by rw [plain1_lens]; decide⟩
  · intro c hc
    have h1 := hpx r (16 * k + c) hr (by omega)
    refine ⟨by omega, ?_⟩
    rw [plain1_lens]
    have hb : ∃ v : Nat, v < 4096 ∧ before1 plain1 px r (16 * k + c) = (v : Int) := by
      rw [before1, show (16 * k + c) / 16 = k by omega]
      by_cases h0 : k = 0
      · exact ⟨128, by decide, by rw [if_neg (fun h => Bool.noConfusion h), if_pos h0]; rfl⟩
      · exact ⟨_, hpx r (16 * k - 2 + (16 * k + c) % 2) hr (by omega), by rw [if_neg (fun h => Bool.noConfusion h), if_neg h0]⟩
    obtain ⟨v, hv, e⟩ := hb
    rw [e, InField, if_neg (by decide)]
    omega

theorem swapped_swapped (px : Nat → Nat → Nat) (r c : Nat) : swapped (swapped px) r c = px r c := by
  unfold swapped
  by_cases h1 : r % 2 = 0 ∧ c % 2 = 1
  · rw [if_pos h1, if_neg (by omega), if_pos (by omega), show r + 1 - 1 = r by omega, show c - 1 + 1 = c by omega]
  · rw [if_neg h1]
    by_cases h2 : r % 2 = 1 ∧ c % 2 = 0
    · rw [if_pos h2, if_pos (by omega), show r - 1 + 1 = r by omega, show c + 1 - 1 = c by omega]
    · rw [if_neg h2, if_neg h1, if_neg h2]

/-- Every 12 bit picture has a file of the first generation, unless it is so large that the table has no room for the offsets. -/
theorem C67_gen1_every (m h : Nat) (hh : h % 2 = 0) (hsize : h * (30 * m + 16) < 2 ^ 32) (px : Nat → Nat → Nat)
    (hpx : ∀ r c, r < h → c < 16 * m → px r c < 4096) :
    ∃ buf loffsets, Stored1 buf loffsets (16 * m) h (swapped px) ∧
      ∃ out, decode1 buf loffsets (16 * m) h = .ok out ∧ Holds out (16 * m) h px := by
  have hpx' : ∀ r c, r < h → c < 16 * m → swapped px r c < 4096 := by
    intro r c hr hc
    unfold swapped
    split
    · exact hpx _ _ (by omega) (by omega)
    · split
      · exact hpx _ _ (by omega) (by omega)
      · exact hpx _ _ hr hc
  obtain ⟨off, hoff⟩ : ∃ off : Nat → Nat, off = fun r => ((List.range r).flatMap fun r => wordFile (row1Bits plain1 (swapped px) m r)).length := ⟨_, rfl⟩
  have hlen : ∀ r k, (group1Bits plain1 (swapped px) r k).length = 233 := by
    intro r k
    rw [group1Bits, lenBits]
    simp only [plain1_lens]
    simp [order, field, plain1, List.range_succ]
  have hrow : ∀ r n, ((List.range n).flatMap (group1Bits plain1 (swapped px) r)).length = 233 * n := by
    intro r n
    induction n with
    | zero => rfl
    | succ n ih => rw [List.range_succ, List.flatMap_append, List.length_append, ih]; simp [hlen]; omega
  have hol : ∀ r, off r ≤ r * (30 * m + 16) := by
    intro r
    rw [hoff]
    induction r with
    | zero => simp
    | succ r ih =>
      simp only at ih ⊢
      rw [List.range_succ, List.flatMap_append, List.length_append, Nat.add_mul]
      have h1 := (wordFile_spec (row1Bits plain1 (swapped px) m r)).1
      rw [row1Bits, hrow] at h1
      simp only [List.flatMap_cons, List.flatMap_nil, List.append_nil, Nat.one_mul]
      rw [row1Bits, h1]
      omega
  have hS : Stored1 ((List.range h).flatMap fun r => wordFile (row1Bits plain1 (swapped px) m r)) (offTable h off) (16 * m) h (swapped px) := by
    refine ⟨isBytes_flatMap _ _ fun r _ => (wordFile_spec _).2.1, m, plain1, off, rfl, fun r k hr hk => plain1_fits _ m h hpx' r k hr hk, ?_, ?_⟩
    · intro r hr
      refine offTable_entry h off r hr (Nat.lt_of_le_of_lt (hol r) (Nat.lt_of_le_of_lt (Nat.mul_le_mul_right _ (by omega)) hsize))
    · intro r hr
      obtain ⟨c, hc⟩ := range_split (fun r => wordFile (row1Bits plain1 (swapped px) m r)) h r hr
      rw [hc, hoff]
      exact bitsAt_wordFile _ _ _
  refine ⟨_, _, hS, ?_⟩
  obtain ⟨out, e, ho⟩ := C67_gen1 _ _ _ _ _ hS hh
  exact ⟨out, e, holds_congr ho fun r c _ _ => swapped_swapped px r c⟩

theorem catOf_lt (d : Int) (n : Nat) (h1 : -2 ^ n < d) (h2 : d < 2 ^ n) : catOf d < n + 1 := by
  unfold catOf
  split
  · omega
  · rename_i h0
    have : Nat.log2 d.natAbs < n := (Nat.log2_lt (by omega)).2 (by
      have hc : ((2 ^ n : Nat) : Int) = 2 ^ n := by simp
      rw [← Int.ofNat_lt, hc]; omega)
    omega

/-- Every 13 bit picture has a file of the second generation. -/
theorem C67_gen2_every (w h : Nat) (px : Nat → Nat → Nat) (hpx : ∀ r c, r < h → c < w → px r c < 8192) :
    ∃ buf, Stored2 buf w h px ∧ ∃ out, decode2 buf w h = .ok out ∧ Holds out w h px := by
  obtain ⟨pad, h1, h2, _⟩ := toBytes_spec _ (encodePef words2 w h px ++ List.replicate 10 false) (Nat.le_refl _)
  have hS : Stored2 (toBytes (encodePef words2 w h px ++ List.replicate 10 false)) w h px := by
    refine ⟨h2, ?_, List.replicate 10 false ++ pad, by simp, by rw [h1, List.append_assoc]⟩
    intro r c hr hc
    have h1 := hpx r c hr hc
    refine ⟨by omega, catOf_lt _ 13 ?_ ?_⟩
    all_goals
      unfold before
      simp only
      split
      · have := hpx r (c - 2) hr (by omega); omega
      · split
        · have := hpx (r - 2) c (by omega) hc; omega
        · omega
  exact ⟨_, hS, C67_gen2 _ w h px hS⟩

/-- Blocks that are not compared with rows above, with fields of 15 bits and differences as they are. -/
def plain3 (px : Nat → Nat → Nat) (r k : Nat) : Block :=
  ⟨0, 0, false, 0, false, fun _ => 3, fun _ => 15, fun c => (px r (16 * k + c) : Int) - if k = 0 then 0 else (px r (16 * k - 2 + c % 2) : Int)⟩

/-- 14 bit pixels, no scale. -/
def params3 : Params := ⟨true, false, true, 14, 0⟩

theorem plain3_motion (px : Nat → Nat → Nat) (r k : Nat) : motion params3 (plain3 px r) k = 7 := by
  induction k with
  | zero => rfl
  | succ k ih => rw [motion_step]; exact ih

theorem plain3_scale (px : Nat → Nat → Nat) (r k : Nat) : Spec.Srw.scale params3 (plain3 px r) k = 0 := by
  induction k with
  | zero => rfl
  | succ k ih => rw [scale_step]; exact ih

theorem plain3_lens (px : Nat → Nat → Nat) (s r k i : Nat) : lens3 s (plain3 px r) (k + 1) i = 15 := rfl
theorem plain3_len (px : Nat → Nat → Nat) (s r k i : Nat) : len3 s (plain3 px r) k i = 15 := rfl

/-- Every 14 bit picture has a file of the third generation. -/
theorem C67_gen3_every (m h : Nat) (px : Nat → Nat → Nat) (hpx : ∀ r c, r < h → c < 16 * m → px r c < 16384) :
    ∃ buf, Stored3 buf (16 * m) h px ∧ ∃ out, decode3 buf (16 * m) h = .ok out ∧ Holds out (16 * m) h px := by
  obtain ⟨hd, hhd⟩ : ∃ hd, hd = headerBits params3 5 (List.replicate 20 false) (List.replicate 60 false) (List.replicate 26 false) := ⟨_, rfl⟩
  have hhl : hd.length = 128 := by rw [hhd]; simp [headerBits]
  obtain ⟨f, hf⟩ : ∃ f : Nat → List Nat, f = fun r => wordFile (row3Bits params3 (plain3 px) m r) := ⟨_, rfl⟩
  have hstart : ∀ r, (wordFile hd ++ (List.range r).flatMap f).length = rowStart params3 (plain3 px) m r := by
    intro r
    induction r with
    | zero => rw [rowStart]; simp [(wordFile_spec hd).1, hhl]
    | succ r ih =>
      rw [rowStart, ← ih, List.range_succ, List.flatMap_append, ← List.append_assoc, List.length_append]
      simp only [List.flatMap_cons, List.flatMap_nil, List.append_nil]
      rw [hf]
      simp only [(wordFile_spec (row3Bits params3 (plain3 px) m r)).1]
  have hS : Stored3 (wordFile hd ++ (List.range h).flatMap f) (16 * m) h px := by
    refine ⟨isBytes_append _ _ (wordFile_spec hd).2.1 (isBytes_flatMap _ _ fun r _ => by rw [hf]; exact (wordFile_spec _).2.1),
      m, params3, 5, plain3 px, List.replicate 20 false, List.replicate 60 false, List.replicate 26 false, rfl, ⟨by decide, rfl, rfl, rfl⟩, by decide, by decide, ?_, ?_,
      by simp, by simp, by simp, ?_, ?_⟩
    · intro r c hr hc
      rw [plain3_scale, before3]
      simp only [plain3_motion, if_true]
      have e : (plain3 px r (c / 16)).diff (c % 16) = (px r c : Int) - if c / 16 = 0 then 0 else (px r (16 * (c / 16) - 2 + c % 2) : Int) := by
        show (px r (16 * (c / 16) + c % 16) : Int) - (if c / 16 = 0 then 0 else (px r (16 * (c / 16) - 2 + c % 16 % 2) : Int)) = _
        rw [Nat.div_add_mod, Nat.mod_mod_of_dvd _ (by decide : 2 ∣ 16)]
      rw [e]
      have h1 := hpx r c hr hc
      have hv : ((if c / 16 = 0 then params3.init else px r (16 * (c / 16) - 2 + c % 2) : Nat) : Int) =
          if c / 16 = 0 then 0 else (px r (16 * (c / 16) - 2 + c % 2) : Int) := by
        split <;> rfl
      rw [hv]
      have hs : ∀ a b : Int, a + (b - a) * (2 * 0 + 1) + 0 = b := by intro a b; omega
      rw [hs, clamp, if_neg (by omega), if_neg (by show ¬ (2 : Int) ^ 14 ≤ _; omega)]
      rfl
    · intro r k hr hk
      refine ⟨⟨(by decide : 0 < 4), (by decide : 0 < 4096)⟩, by rw [plain3_scale]; decide, (by decide : 0 < 8), fun _ => plain3_motion px r k,
        fun hm => absurd (plain3_motion px r k) hm, fun h => Bool.noConfusion h, ?_, ?_⟩
      · intro i _
        refine ⟨(by decide : 3 < 4), (by decide : 15 < 16), ?_, ?_⟩
        · exact fun _ h => absurd h (by decide : ¬ 3 = 2)
        · intro _; rw [plain3_lens]; decide
      · intro j hj
        rw [plain3_len, InField, if_neg (by decide)]
        obtain ⟨c, hc, hcl⟩ : ∃ c, c = order3 r j ∧ c < 16 := ⟨_, rfl, by rw [order3_mod]; exact order3_lt ⟨j, hj⟩ ⟨r % 2, by omega⟩⟩
        rw [← hc]
        show -2 ^ 14 ≤ (px r (16 * k + c) : Int) - (if k = 0 then 0 else (px r (16 * k - 2 + c % 2) : Int)) ∧
          (px r (16 * k + c) : Int) - (if k = 0 then 0 else (px r (16 * k - 2 + c % 2) : Int)) < 2 ^ 14
        have h1 := hpx r (16 * k + c) hr (by omega)
        split
        · omega
        · have h2 := hpx r (16 * k - 2 + c % 2) hr (by omega)
          omega
    · have := bitsAt_wordFile [] hd ((List.range h).flatMap f)
      rw [hhd] at this ⊢
      exact this
    · intro r hr
      obtain ⟨c, hc⟩ := range_split f h r hr
      rw [hc, ← List.append_assoc, ← hstart r]
      have := bitsAt_wordFile (wordFile hd ++ (List.range r).flatMap f) (row3Bits params3 (plain3 px) m r) c
      have hfr : f r = wordFile (row3Bits params3 (plain3 px) m r) := by rw [hf]
      rw [← hfr] at this
      exact this
  exact ⟨_, hS, C67_gen3 _ _ h px hS⟩

/-! ## Concrete files -/

/-- A row of one group: the first length field set to 8, the others unchanged (7), and small differences. -/
example : decode1 (wordFile ([false] ++ bitsMSB 8 0b11000000 ++ bitsMSB 4 8 ++ bitsMSB 8 100 ++ bitsMSB 8 156 ++ List.replicate 300 false)
    ++ wordFile ([false] ++ bitsMSB 8 0b01000000 ++ bitsMSB 8 1 ++ bitsMSB 8 2 ++ List.replicate 300 false)) [0, 0, 0, 0, 48, 0, 0, 0] 16 2 =
    .ok [228, 129, 28, 130, 128, 128, 128, 128, 128, 128, 128, 128, 128, 128, 128, 128,
      128, 128, 128, 128, 128, 128, 128, 128, 128, 128, 128, 128, 128, 128, 128, 128] := by decide +kernel

/-- A 3 x 3 picture and its file: the bits, the bytes, and what is decoded (by `C67_gen2`; the 16384 entries of the
lookup table are too many to run the decoder in the kernel). -/
example : toBytes (encodePef words2 3 3 (fun r c => 1000 * r + 7 * c) ++ List.replicate 10 false) =
    [211, 56, 237, 111, 163, 91, 239, 29, 174, 250, 26, 239, 160, 56, 0] := by decide +kernel

example : ∃ buf out, Stored2 buf 3 3 (fun r c => 1000 * r + 7 * c) ∧ decode2 buf 3 3 = .ok out ∧ out[5]? = some 1014 := by
  obtain ⟨buf, h1, out, h2, h3⟩ := C67_gen2_every 3 3 (fun r c => 1000 * r + 7 * c) (by intro r c hr hc; show _ < 8192; omega)
  exact ⟨buf, out, h1, h2, h3.2 1 2 (by decide) (by decide)⟩

/-- Three rows; the third one is compared with pixels above, the first block with the mean of two, and scaled. -/
def block3Ex (r k : Nat) : Block :=
  if r = 2 then if k = 0 then ⟨3, 1, true, 4, true, fun _ => 0, fun _ => 0, fun _ => 0⟩
    else ⟨0, 0, true, 1, false, fun i => i, fun i => i, fun c => if c % 2 = 0 then -1 else 0⟩
  else ⟨0, 0, false, 0, false, fun _ => 1, fun _ => 0, fun c => 10 * r + c⟩

def params3Ex : Params := ⟨false, false, false, 12, 100⟩

example : decode3 (wordFile (headerBits params3Ex 0 (List.replicate 20 true) (List.replicate 60 true) (List.replicate 26 true)) ++
    (List.range 3).flatMap (fun r => wordFile (row3Bits params3Ex block3Ex 2 r))) 32 3 =
    .ok [100, 101, 102, 103, 104, 105, 106, 107, 108, 109, 110, 111, 112, 113, 114, 115, 114, 116, 116, 118, 118, 120,
      120, 122, 122, 124, 124, 126, 126, 128, 128, 130, 110, 111, 112, 113, 114, 115, 116, 117, 118, 119, 120, 121, 122, 123,
      124, 125, 134, 136, 136, 138, 138, 140, 140, 142, 142, 144, 144, 146, 146, 148, 148, 150, 113, 103, 115, 105, 117, 107,
      119, 109, 121, 111, 123, 113, 125, 115, 132, 117, 123, 116, 134, 117, 136, 119, 138, 121, 140, 123, 142, 125, 144, 127,
      146, 129] := by decide +kernel

/-! ## Where the decoders fail -/

/-- With an odd number of rows the first generation's exchange of red and blue runs out of the image. -/
theorem C67_gen1_odd_height : ∃ buf loffsets px, Stored1 buf loffsets 16 1 px ∧ decode1 buf loffsets 16 1 = .error .panic := by
  refine ⟨wordFile (row1Bits plain1 (fun _ _ => 128) 1 0), [0, 0, 0, 0], fun _ _ => 128, ⟨(wordFile_spec _).2.1, 1, plain1, fun _ => 0, rfl, ?_, ?_, ?_⟩, ?_⟩
  · exact fun r k hr hk => plain1_fits (fun _ _ => 128) 1 1 (by intros; decide) r k hr hk
  · intro r hr
    have : r = 0 := by omega
    subst this
    exact ⟨by decide, by decide⟩
  · intro r hr
    have : r = 0 := by omega
    subst this
    have := bitsAt_wordFile [] (row1Bits plain1 (fun _ _ => 128) 1 0) []
    rw [List.append_nil] at this
    exact this
  · decide +kernel

/-- Files with a pixel depth of 16 bits: blocks with large pixels in two rows, and a third row compared with the mean of two pixels. -/
def block16 (r _ : Nat) : Block :=
  if r = 2 then ⟨0, 0, true, 4, true, fun _ => 0, fun _ => 0, fun _ => 0⟩
  else ⟨3, 1, false, 0, false, fun _ => 3, fun _ => 15, fun _ => 16383⟩

def params16 : Params := ⟨false, false, false, 16, 16383⟩

/-- In such a file the mean of two pixels above 32767 is an arithmetic overflow. That is why `C67_gen3` stops at 15 bits. -/
theorem C67_gen3_depth16 :
    decode3 (wordFile (headerBits params16 0 (List.replicate 20 true) (List.replicate 60 true) (List.replicate 26 true)) ++
      (List.range 3).flatMap (fun r => wordFile (row3Bits params16 block16 2 r))) 32 3 = .error .panic ∧
    decode3 (wordFile (headerBits params16 0 (List.replicate 20 true) (List.replicate 60 true) (List.replicate 26 true)) ++
      (List.range 2).flatMap (fun r => wordFile (row3Bits params16 block16 1 r))) 16 2 = .ok (List.replicate 32 65533) :=
  ⟨by decide +kernel, by decide +kernel⟩

end Verif.Props
