import Verif.Proofs.PumpJpeg
import Verif.Proofs.JpegBitWriter
/-! # C04: entropy-coded segments -/

namespace Verif.Props
open Verif Verif.Ljpeg Verif.Pumps Verif.Spec

/-- Write a sequence of fields `(number of bits, value)`. -/
def writeFields (w : BitWriter) (fs : List (Nat × Nat)) : R BitWriter :=
  fs.foldlM (fun w f => w.write f.1 f.2) w

/-- The bit string a sequence of fields stands for: the low bits of each value, most significant first. -/
def fieldBits (fs : List (Nat × Nat)) : List Bool := fs.flatMap fun f => bitsMSB f.1 f.2

/-- One use of a bit reader: look at `n` bits, then skip `k` of them. -/
def readOps {P : Type} [BitPump P] (p : P) : List (Nat × Nat) → R (List Nat)
  | [] => .ok []
  | (n, k) :: ops => do
    let (v, p) ← BitPump.peek p n
    let p ← BitPump.consume p k
    let vs ← readOps p ops
    .ok (v :: vs)

/-- What these uses should see of a bit string (zero bits after its end). -/
def seen (l : List Bool) : List (Nat × Nat) → List Nat
  | [] => []
  | (n, k) :: ops => natMSB (takeZ n l) :: seen (l.drop k) ops

theorem readOps_lawful {P : Type} [BitPump P] {Rep : P → List Bool → Prop} {avail : P → Nat}
    (h : Lawful P Rep avail (fun _ _ => True)) (ops : List (Nat × Nat)) (hops : ∀ o ∈ ops, o.2 ≤ o.1 ∧ o.1 ≤ 32)
    (p : P) (l : List Bool) (hp : Rep p l) : readOps p ops = .ok (seen l ops) := by
  induction ops generalizing p l with
  | nil => rfl
  | cons o ops ih =>
    obtain ⟨n, k⟩ := o
    have ho := hops (n, k) (by simp)
    obtain ⟨p1, e1, r1, a1⟩ := h.peek_ok p l n hp ho.2 trivial
    obtain ⟨p2, e2, r2, _⟩ := h.consume_ok p1 l k r1 (Nat.le_trans ho.1 a1)
    simp only [readOps, seen, e1, bind, Except.bind, e2, ih (fun o ho => hops o (by simp [ho])) p2 _ r2]

/-- **C04 (reading).** Whatever the sequence of look/skip operations (up to 32 bits each, skipping no more than was
looked at), the JPEG bit reader sees exactly the bits of the segment's data bytes, then zero bits. -/
theorem C04_reader_sees_segment_bits (src : List Nat) (hb : IsBytes src) (he : ProperEnd src) (ops : List (Nat × Nat))
    (hops : ∀ o ∈ ops, o.2 ≤ o.1 ∧ o.1 ≤ 32) :
    readOps (PumpJPEG.new src) ops = .ok (seen (bytesMSB (unstuff src)) ops) :=
  readOps_lawful PumpJPEG.lawful ops hops _ _ (PumpJPEG.rep_new src hb he)

theorem writeFields_ok {w hdr l} (h : BitWriter.Rep w hdr l) (fs : List (Nat × Nat)) :
    ∃ w', writeFields w fs = .ok w' ∧ w'.Rep hdr (l ++ fieldBits fs) := by
  induction fs generalizing w l with
  | nil => exact ⟨w, rfl, by simpa [fieldBits] using h⟩
  | cons f fs ih =>
    obtain ⟨w1, e1, r1⟩ := write_ok h f.1 f.2
    obtain ⟨w2, e2, r2⟩ := ih r1
    refine ⟨w2, ?_, ?_⟩
    · simp only [writeFields, List.foldlM_cons, e1]
      exact e2
    · simpa [fieldBits] using r2

/-- In entropy-coded data every 0xFF is followed by a zero byte, so no marker can appear in it. -/
def NoMarker (l : List Nat) : Prop := ∀ i, l[i]? = some 0xff → l[i + 1]? = some 0

theorem noMarker_stuff (ds : List Nat) : NoMarker (stuff ds) := by
  induction ds with
  | nil => intro i hi; simp [stuff] at hi
  | cons d ds ih =>
    intro i hi
    rw [show d :: ds = [d] ++ ds from rfl, stuff_append] at hi ⊢
    by_cases hd : d = 0xff
    · subst hd
      rw [show stuff [0xff] = [0xff, 0] from rfl] at hi ⊢
      match i with
      | 0 => rfl
      | 1 => simp at hi
      | i + 2 => exact ih i (by simpa using hi)
    · rw [show stuff [d] = [d] by simp [stuff, hd]] at hi ⊢
      match i with
      | 0 => simp at hi; exact absurd hi hd
      | i + 1 => exact ih i (by simpa using hi)

/-- **C04 (writing).** Whatever fields are written, the bytes appended to the output contain no marker. -/
theorem C04_writer_emits_no_marker (hdr : List Nat) (fs : List (Nat × Nat)) :
    ∃ w seg, writeFields (BitWriter.new hdr) fs = .ok w ∧ w.flush.out = hdr ++ seg ∧ IsBytes seg ∧ NoMarker seg := by
  obtain ⟨w, e, r⟩ := writeFields_ok (rep_new hdr) fs
  obtain ⟨ds, pad, h1, h2, _, _⟩ := flush_ok r
  exact ⟨w, stuff ds, e, h2, isBytes_stuff h1, noMarker_stuff ds⟩

theorem seen_append_zeros (l : List Bool) (z : Nat) (ops : List (Nat × Nat)) :
    seen (l ++ List.replicate z false) ops = seen l ops := by
  induction ops generalizing l z with
  | nil => rfl
  | cons o ops ih =>
    obtain ⟨n, k⟩ := o
    simp only [seen, takeZ_append_zeros]
    rcases Nat.le_total k l.length with h | h
    · rw [List.drop_append_of_le_length h, ih]
    · rw [List.drop_append, List.drop_of_length_le h, List.nil_append, List.drop_replicate]
      rw [show ([] : List Bool) = [] ++ List.replicate 0 false by simp]
      have h1 := ih [] (z - (k - l.length))
      have h2 := ih [] 0
      simp only [List.nil_append] at h1 h2 ⊢
      rw [h1, h2]

/-- **C04 (write then read).** The fields written, followed by a marker and anything after it, are read back bit for
bit, then zero bits. -/
theorem C04_segment_round_trip (fs : List (Nat × Nat)) (marker : Nat) (tail : List Nat) (hm : marker ≠ 0)
    (hmb : marker < 256) (ht : IsBytes tail) (ops : List (Nat × Nat)) (hops : ∀ o ∈ ops, o.2 ≤ o.1 ∧ o.1 ≤ 32) :
    ∃ w, writeFields (BitWriter.new []) fs = .ok w ∧
      readOps (PumpJPEG.new (w.flush.out ++ 0xff :: marker :: tail)) ops = .ok (seen (fieldBits fs) ops) := by
  obtain ⟨w, e, r⟩ := writeFields_ok (rep_new []) fs
  obtain ⟨ds, pad, h1, h2, h3, _⟩ := flush_ok r
  refine ⟨w, e, ?_⟩
  simp only [List.nil_append] at h2
  rw [C04_reader_sees_segment_bits _ _ _ ops hops]
  · rw [h2, unstuff_stuff, unstuff_ff_ne _ hm, List.append_nil, h3, List.nil_append, seen_append_zeros]
  · rw [h2]
    intro b hb
    simp only [List.mem_append, List.mem_cons] at hb
    rcases hb with hb | rfl | rfl | hb
    · exact isBytes_stuff h1 b hb
    · omega
    · exact hmb
    · exact ht b hb
  · rw [h2, properEnd_stuff]; exact properEnd_ff_ne hm

/-- a written 0xFF byte is stuffed and read back, then the marker reads as zeros -/
example : (do let w ← writeFields (BitWriter.new []) [(4, 15), (6, 0x3c)]
              readOps (PumpJPEG.new (w.flush.out ++ [0xff, 0xd9])) [(10, 4), (8, 6), (16, 3)])
    = .ok [0x3fc, 0xf0, 0] := by decide +kernel

example : IsBytes [1, 0xff, 0, 7, 0xff, 0xd9] ∧ ProperEnd [1, 0xff, 0, 7, 0xff, 0xd9] := by
  constructor
  · decide
  · simp [ProperEnd]

/-- Finding: a segment cut right after an 0xFF makes the reader panic (index past the end). -/
theorem C04_truncated_stuffing_panics : readOps (PumpJPEG.new [0xff]) [(8, 8)] = panic' := by decide +kernel

end Verif.Props
