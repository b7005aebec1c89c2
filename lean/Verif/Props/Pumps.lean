import Verif.Props.JpegBits
import Verif.Proofs.Pumps32
/-! # C10, C11, C12: the plain bit readers

A *use* of a reader is a list of pairs `(n, k)`: look at `n` bits, then skip `k` of them.  `get_bits(n)` is `(n, n)`. -/

namespace Verif.Props
open Verif Verif.Pumps Verif.Spec

/-- The operations look at most 32 bits ahead, skip no more than they looked at, and stay within `len` bits. -/
def Fits : Nat → List (Nat × Nat) → Prop
  | _, [] => True
  | len, (n, k) :: ops => k ≤ n ∧ n ≤ 32 ∧ n ≤ len ∧ Fits (len - k) ops

instance : (len : Nat) → (ops : List (Nat × Nat)) → Decidable (Fits len ops)
  | _, [] => isTrue trivial
  | len, (n, k) :: ops =>
    have := instDecidableFits (len - k) ops
    inferInstanceAs (Decidable (k ≤ n ∧ n ≤ 32 ∧ n ≤ len ∧ Fits (len - k) ops))

/-- The successive fields of a bit string, most significant bit first. -/
def fieldsMSB (l : List Bool) : List (Nat × Nat) → List Nat
  | [] => []
  | (n, k) :: ops => natMSB (l.take n) :: fieldsMSB (l.drop k) ops

/-- The successive fields of a bit string, least significant bit first. -/
def fieldsLSB (l : List Bool) : List (Nat × Nat) → List Nat
  | [] => []
  | (n, k) :: ops => natLSB (l.take n) :: fieldsLSB (l.drop k) ops

/-- Run the operations and keep the reader. -/
def runOps {P : Type} [BitPump P] (p : P) : List (Nat × Nat) → R (List Nat × P)
  | [] => .ok ([], p)
  | (n, k) :: ops => do
    let (v, p) ← BitPump.peek p n
    let p ← BitPump.consume p k
    let (vs, p) ← runOps p ops
    .ok (v :: vs, p)

/-- Number of bits the operations skip. -/
def skipped (ops : List (Nat × Nat)) : Nat := (ops.map (·.2)).sum

theorem runOps_lawful {P : Type} [BitPump P] {Rep : P → List Bool → Prop} {avail : P → Nat}
    (h : Lawful P Rep avail (fun l n => n ≤ l.length)) (ops : List (Nat × Nat))
    (p : P) (l : List Bool) (hp : Rep p l) (hf : Fits l.length ops) :
    ∃ p', runOps p ops = .ok (fieldsMSB l ops, p') ∧ Rep p' (l.drop (skipped ops)) := by
  induction ops generalizing p l with
  | nil => exact ⟨p, rfl, by simpa [skipped] using hp⟩
  | cons o ops ih =>
    obtain ⟨n, k⟩ := o
    obtain ⟨hk, h32, hn, hf⟩ := hf
    obtain ⟨p1, e1, r1, a1⟩ := h.peek_ok p l n hp h32 hn
    obtain ⟨p2, e2, r2, _⟩ := h.consume_ok p1 l k r1 (Nat.le_trans hk a1)
    obtain ⟨p3, e3, r3⟩ := ih p2 _ r2 (by simpa using hf)
    refine ⟨p3, ?_, by simpa [skipped, Nat.add_comm] using r3⟩
    rw [takeZ_of_le hn] at e1
    simp only [runOps, fieldsMSB, e1, bind, Except.bind, e2, e3]

theorem readOps_of_runOps {P : Type} [BitPump P] (ops : List (Nat × Nat)) (p p' : P) (vs : List Nat)
    (h : runOps p ops = .ok (vs, p')) : readOps p ops = .ok vs := by
  induction ops generalizing p vs with
  | nil => simp [runOps] at h; simp [readOps, h.1]
  | cons o ops ih =>
    obtain ⟨n, k⟩ := o
    simp only [runOps, bind, Except.bind] at h
    simp only [readOps, bind, Except.bind]
    split at h
    · cases h
    · split at h
      · cases h
      · split at h
        · cases h
        · rename_i x e1 _ y e2 _ z e3
          simp only [Except.ok.injEq, Prod.mk.injEq] at h
          obtain ⟨rfl, rfl⟩ := h
          simp only [ih y z.1 e3]

/-- **C10.** As long as the reads stay inside the data (whatever its length), the MSB-first reader returns the successive
fields of the byte string read as one big-endian bit string. -/
theorem C10_msb_reader (src : List Nat) (hb : IsBytes src) (ops : List (Nat × Nat)) (hf : Fits (8 * src.length) ops) :
    readOps (PumpMSB.new src) ops = .ok (fieldsMSB (bytesMSB src) ops) := by
  obtain ⟨p', e, _⟩ := runOps_lawful PumpMSB.lawful ops _ _ (PumpMSB.rep_new src hb) (by rw [length_bytesMSB]; exact hf)
  exact readOps_of_runOps _ _ _ _ e

/-- reads over two refills and a trailing partial word -/
example : Fits (8 * 7) [(12, 12), (32, 20), (24, 24)] ∧
    readOps (PumpMSB.new [0x12, 0x34, 0x56, 0x78, 0x9a, 0xbc, 0xde]) [(12, 12), (32, 20), (24, 24)] =
      .ok [0x123, 0x456789ab, 0x9abcde] := by decide +kernel

theorem fields_lsb_ok (ops : List (Nat × Nat)) (p : PumpLSB) (l : List Bool) (hp : p.Rep l) (hf : Fits l.length ops) :
    readOps p ops = .ok (fieldsLSB l ops) := by
  induction ops generalizing p l with
  | nil => rfl
  | cons o ops ih =>
    obtain ⟨n, k⟩ := o
    obtain ⟨hk, h32, hn, hf⟩ := hf
    obtain ⟨p1, e1, r1, a1⟩ := PumpLSB.peek_ok p l n hp h32 hn
    obtain ⟨p2, e2, r2, _⟩ := PumpLSB.consume_ok p1 l k r1 (Nat.le_trans hk a1)
    have e1' : BitPump.peek p n = .ok (natLSB (l.take n), p1) := e1
    have e2' : BitPump.consume p1 k = .ok p2 := e2
    simp only [readOps, fieldsLSB, e1', bind, Except.bind, e2', ih p2 _ r2 (by simpa using hf)]

/-- **C11.** As long as the reads stay inside the data, the LSB-first reader returns the successive fields of the byte
string read as one little-endian bit string. -/
theorem C11_lsb_reader (src : List Nat) (hb : IsBytes src) (ops : List (Nat × Nat)) (hf : Fits (8 * src.length) ops) :
    readOps (PumpLSB.new src) ops = .ok (fieldsLSB (bytesLSB src) ops) := by
  refine fields_lsb_ok ops _ _ (PumpLSB.rep_new src hb) ?_
  rw [show (bytesLSB src).length = 8 * src.length from ?_]
  · exact hf
  · clear hf
    simp only [bytesLSB, List.length_flatMap, length_bitsLSB]
    induction src with
    | nil => rfl
    | cons a r ih =>
      rw [List.map_cons, List.sum_cons, ih (fun x hx => hb x (by simp [hx])), List.length_cons]; omega

example : Fits (8 * 7) [(12, 12), (32, 20), (24, 24)] ∧
    readOps (PumpLSB.new [0x21, 0x43, 0x65, 0x87, 0xa9, 0xcb, 0xed]) [(12, 12), (32, 20), (24, 24)] =
      .ok [0x321, 0xba987654, 0xedcba9] := by decide +kernel

theorem length_swapWords (l : List Nat) : (swapWords l).length = l.length := by
  induction l using swapWords.induct with
  | case1 a b c d r ih => simp [swapWords, ih]
  | case2 l h =>
    rw [swapWords]
    · simp
    · exact h

/-- **C12 (data of whole words).** The reader of little-endian 32 bit words returns the successive fields of the words'
bit string, and afterwards reports as position the number of bytes of which at least one bit was read (rounded up).
Missing: a trailing partial word, for which the property is false (`C12_partial_word_wrong`). -/
theorem C12_msb32_reader_partial (src : List Nat) (hb : IsBytes src) (h4 : src.length % 4 = 0) (ops : List (Nat × Nat))
    (hf : Fits (8 * src.length) ops) :
    ∃ p, runOps (PumpMSB32.new src) ops = .ok (fieldsMSB (bytesMSB (swapWords src)) ops, p) ∧
      p.getPos = .ok ((skipped ops + 7) / 8) := by
  obtain ⟨p, e, r, hpos⟩ := runOps_lawful (PumpMSB32.lawful src.length) ops _ _ ⟨PumpMSB32.rep_new src hb h4, by simp [PumpMSB32.new]⟩
    (by rw [length_bytesMSB, length_swapWords]; exact hf)
  refine ⟨p, e, ?_⟩
  obtain ⟨h64, hlt, hbr, h4', hl⟩ := r
  have hlen := congrArg List.length hl
  rw [List.length_drop, List.length_append, length_bytesMSB, length_bytesMSB, length_swapWords, length_swapWords, length_bitsMSB] at hlen
  have hsk : skipped ops ≤ 8 * src.length := by
    clear e hl hlen hpos
    generalize 8 * src.length = len at hf
    induction ops generalizing len with
    | nil => simp [skipped]
    | cons o ops ih =>
      obtain ⟨n, k⟩ := o
      obtain ⟨hk, h32, hn, hf⟩ := hf
      have := ih _ hf
      simp [skipped] at this ⊢
      omega
  rw [PumpMSB32.getPos, Nat.shiftRight_eq_div_pow, usub, if_pos (by omega)]
  congr 1
  omega

example : Fits (8 * 8) [(12, 12), (32, 20), (32, 32)] ∧
    readOps (PumpMSB32.new [0x78, 0x56, 0x34, 0x12, 0xf0, 0xde, 0xbc, 0x9a]) [(12, 12), (32, 20), (32, 32)] =
      .ok [0x123, 0x456789ab, 0x9abcdef0] := by decide +kernel

/-- Finding: with bits still buffered, a trailing partial word is read wrongly (the buffered bits are always moved up by
32 although only 8, 16 or 24 bits arrive). -/
theorem C12_partial_word_wrong :
    ∃ src ops, IsBytes src ∧ Fits (8 * src.length) ops ∧
      readOps (PumpMSB32.new src) ops ≠ .ok (fieldsMSB (bytesMSB (swapWords src)) ops) :=
  ⟨[0x78, 0x56, 0x34, 0x12, 0x9a], [(12, 12), (28, 28)], by decide, by decide, by decide +kernel⟩

end Verif.Props
