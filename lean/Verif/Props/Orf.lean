import Verif.Proofs.Orf
import Verif.Props.Leaf
/-!
# C65: compressed Olympus images decode to the stored image
-/

namespace Verif.Props
open Verif Verif.Orf Verif.Pumps Verif.Spec Verif.Spec.Orf Verif.CrxSpec

/-- A compressed strip and `h` rows of `w` samples belong together: after a header of 8 bytes for 14 bit images, 7 bytes for others, there
are the codes of the samples, and at least 9 more bits. -/
structure StoredOrf (buf : List Nat) (bps w h : Nat) (f : Nat → Nat → Nat) : Prop where
  samples : ∀ r c, r < h → c < w → f r c < 32768
  bits : ∃ hdr data b rest, buf = hdr ++ data ∧ (hdr.length = if bps = 14 then 8 else 7) ∧ IsBytes data ∧
    (∀ r k s, r < h → k < w / 2 → s < 2 → (state f r s k).Coded (residual f r (2 * k + s)) (b r (2 * k + s))) ∧
    bytesMSB data = scanBits b w h ++ rest ∧ 9 ≤ rest.length

/-- **C65.** Every sample arrives at its place. A last column without a partner is not in the data and is 0. -/
theorem C65_orf (buf : List Nat) (bps w h : Nat) (f : Nat → Nat → Nat) (hS : StoredOrf buf bps w h f) :
    ∃ out, decodeOrf buf w h bps = .ok out ∧ Holds out w h fun r c => if c / 2 < w / 2 then f r c else 0 := by
  obtain ⟨hdr, data, b, rest, rfl, h1, h2, h3, h4, h5⟩ := hS.bits
  exact decodeOrf_ok hS.samples h3 h1 h2 h4 h5

/-- For an even width that is the whole image. -/
theorem C65_orf_even (buf : List Nat) (bps w h : Nat) (f : Nat → Nat → Nat) (hS : StoredOrf buf bps w h f) (he : w % 2 = 0) :
    ∃ out, decodeOrf buf w h bps = .ok out ∧ Holds out w h f := by
  obtain ⟨out, e, ho⟩ := C65_orf buf bps w h f hS
  exact ⟨out, e, ho.same fun r c _ hc => if_pos (by omega)⟩

/-- A code for a residual. -/
def orfCode (a : State) (v : Int) : List Bool :=
  let m := mag (a.signed v)
  let n := a.digits
  [decide (a.signed v < 0)] ++ bitsMSB 2 (v % 4).toNat ++
    (if m / 2 ^ n < 12 then List.replicate (m / 2 ^ n) false ++ [true]
     else List.replicate 12 false ++ bitsMSB (15 - n) (m / 2 ^ n) ++ [false]) ++ bitsMSB n (m % 2 ^ n)

theorem orfCode_coded (a : State) (v : Int) (h : mag (a.signed v) < 32768) : a.Coded v (orfCode a v) := by
  refine ⟨by omega, _, rfl, ?_⟩
  by_cases h1 : mag (a.signed v) / 2 ^ a.digits < 12
  · exact .inl ⟨h1, if_pos h1⟩
  · refine .inr ⟨?_, ?_, false, if_neg h1⟩
    · by_contra h2
      have : a.digits = 16 := by have := digits_le a; omega
      rw [this] at h1
      omega
    · have h3 : a.digits ≤ 15 := by
        by_contra h2
        have : a.digits = 16 := by have := digits_le a; omega
        rw [this] at h1
        omega
      rw [Nat.div_lt_iff_lt_mul (Nat.two_pow_pos _), ← Nat.pow_add, show 15 - a.digits + a.digits = 15 by omega]
      exact h

/-- The bits of an image. -/
def orfBits (f : Nat → Nat → Nat) (r c : Nat) : List Bool := orfCode (state f r (c % 2) (c / 2)) (residual f r c)

/-- Every image of 15 bit samples has a file. -/
theorem C65_every_picture (w h bps : Nat) (f : Nat → Nat → Nat) (hf : ∀ r c, r < h → c < w → f r c < 32768) (hdr : List Nat)
    (hh : hdr.length = if bps = 14 then 8 else 7) :
    ∃ data, IsBytes data ∧ StoredOrf (hdr ++ data) bps w h f := by
  obtain ⟨pad, e, hb, _⟩ := toBytes_spec _ (scanBits (orfBits f) w h) (Nat.le_refl _)
  have hB : IsBytes (toBytes (scanBits (orfBits f) w h) ++ [0, 0]) := by
    intro b hm
    rcases List.mem_append.1 hm with hm | hm
    · exact hb b hm
    · simp only [List.mem_cons, List.not_mem_nil, or_false, or_self] at hm; omega
  refine ⟨_, hB, hf, hdr, _, orfBits f, pad ++ bytesMSB [0, 0], rfl, hh, hB, ?_, ?_, ?_⟩
  · intro r k s hr hk hs
    have e1 : (2 * k + s) % 2 = s := by omega
    have e2 : (2 * k + s) / 2 = k := by omega
    rw [orfBits, e1, e2]
    apply orfCode_coded
    have h1 := (avg_range (s := s) hf hr k (by omega)).1
    have h2 := residual_range (c := 2 * k + s) hf hr (by omega)
    generalize residual f r (2 * k + s) = v at *
    generalize state f r s k = a at *
    have hs : a.signed v = v / 4 - a.avg := rfl
    simp only [mag]
    by_cases h0 : a.signed v < 0
    · rw [if_pos h0]; omega
    · rw [if_neg h0]; omega
  · rw [bytesMSB_append, e, List.append_assoc]
  · rw [List.length_append, length_bytesMSB]; simp

/-- A picture with 16 bit samples whose data, all codes in order, stops the program: the product of two differences is too large for 32 bits. -/
def orfBig (r c : Nat) : Nat := if r < 2 ∧ c < 2 then 0 else 65535

/-- The bound on the samples is needed. -/
theorem C65_bound_needed : ∃ data b rest,
    IsBytes data ∧ (∀ r k s, r < 3 → k < 2 → s < 2 → (state orfBig r s k).Coded (residual orfBig r (2 * k + s)) (b r (2 * k + s))) ∧
    bytesMSB data = scanBits b 4 3 ++ rest ∧ 9 ≤ rest.length ∧ decodeOrf (List.replicate 7 0 ++ data) 4 3 12 = .error .panic := by
  refine ⟨toBytes (scanBits (orfBits orfBig) 4 3) ++ [0, 0], orfBits orfBig, (bytesMSB (toBytes (scanBits (orfBits orfBig) 4 3) ++ [0, 0])).drop
    (scanBits (orfBits orfBig) 4 3).length, ?_, ?_, ?_, ?_, ?_⟩
  · decide +kernel
  · have key : ∀ r, r < 3 → ∀ k, k < 2 → ∀ s, s < 2 → mag ((state orfBig r s k).signed (residual orfBig r (2 * k + s))) < 32768 := by decide +kernel
    intro r k s hr hk hs
    have e1 : (2 * k + s) % 2 = s := by omega
    have e2 : (2 * k + s) / 2 = k := by omega
    rw [orfBits, e1, e2]
    exact orfCode_coded _ _ (key r hr k hk s hs)
  · decide +kernel
  · decide +kernel
  · decide +kernel

/-- A picture of 5 columns and 4 rows, with all kinds of predictions, short and long codes; the file, and what is decoded. -/
def orfEx (r c : Nat) : Nat := (r * r * 37 + c * 11 + (if r = 3 then 30000 else 0) + (if c = 3 then 17 * r else 0)) % 32768

example : ∃ data, StoredOrf ([1, 2, 3, 4, 5, 6, 7] ++ data) 12 5 4 orfEx ∧
    ∃ out, decodeOrf ([1, 2, 3, 4, 5, 6, 7] ++ data) 5 4 12 = .ok out ∧ Holds out 5 4 fun r c => if c / 2 < 2 then orfEx r c else 0 := by
  obtain ⟨data, _, h⟩ := C65_every_picture 5 4 12 orfEx (fun r c _ _ => Nat.mod_lt _ (by omega)) [1, 2, 3, 4, 5, 6, 7] rfl
  exact ⟨data, h, C65_orf _ _ _ _ _ h⟩

example : decodeOrf (List.replicate 8 255 ++ toBytes (scanBits (orfBits orfEx) 4 4) ++ [0, 0]) 4 4 14 =
    .ok ((List.range 4).flatMap fun r => (List.range 4).map (orfEx r)) := by decide +kernel

/-- Some of its codes are long, some are short. -/
example : (orfBits orfEx 3 0).length = 31 ∧ (orfBits orfEx 0 2).length = 8 := by decide +kernel

end Verif.Props
