import Verif.Model.RafDbp
import Verif.Spec.Image
import Verif.Proofs.Holds
import Verif.Proofs.IiqFlat
import Verif.Proofs.Orf
import Verif.Props.Packed
import Verif.Props.Mos
/-! # C98: Fujifilm DBP for GX680 -/

namespace Verif.Props
open Verif Verif.RafDbp Verif.Spec
open Verif.Orf (ok_bind)

namespace RafDbp

/-- The number for a pixel: eight tiles, one after the other -/
def at' (buf : List Nat) (tw h r c : Nat) : Nat := 256 * buf.getD (2 * ((c / tw * h + r) * tw + c % tw)) 0 + buf.getD (2 * ((c / tw * h + r) * tw + c % tw) + 1) 0

theorem copyLine_ok (buf tile : List Nat) (w h tw t line : Nat) (htw : 8 * tw ≤ w) (ht : t < 8) (hline : line < h) (f : Nat → Nat → Nat) (out : List Nat) (ho : Holds out w h f)
    (htile : ∀ r x, r < h → x < tw → idx tile (r * tw + x) = .ok (at' buf tw h r (t * tw + x))) :
    ∃ out', copyLine tile w tw t line out = .ok out' ∧ Holds out' w h (fun r c => if r = line ∧ t * tw ≤ c ∧ c < t * tw + tw then at' buf tw h r c else f r c) := by
  have hb : t * tw + tw ≤ w := by
    have : (t + 1) * tw ≤ 8 * tw := Nat.mul_le_mul_right _ ht
    rw [Nat.add_mul, Nat.one_mul] at this
    omega
  refine IiqFlat.forN_imp tw _ (fun i o => Holds o w h (fun r c => if r = line ∧ t * tw ≤ c ∧ c < t * tw + i then at' buf tw h r c else f r c)) _ out
    (ho.same fun r c _ _ => by rw [if_neg (by omega)]) (fun _ h => h) ?_
  intro i o hi hh
  obtain ⟨o', e, h'⟩ := hh.write hline (show t * tw + i < w by omega) (at' buf tw h line (t * tw + i)) (i := line * w + t * tw + i) (by omega)
  refine ⟨o', by rw [htile line i hline hi, ok_bind, e], h'.same fun r c _ _ => ?_⟩
  by_cases a : r = line ∧ c = t * tw + i
  · rw [if_pos a, if_pos (by omega), a.1, a.2]
  · rw [if_neg a]
    exact if_congr (by omega) rfl rfl

end RafDbp

/-- **C98, DBP.** The picture is stored as eight tiles, one after the other, each an eighth of the width, line by line, in numbers of 16 bits with the most significant byte
first. Columns that are left over if the width is no multiple of eight are 0. -/
theorem C98_dbp (buf : List Nat) (w h : Nat) (hl : 2 * (8 * (h * (w / 8))) ≤ buf.length) :
    ∃ img, decode buf w h = .ok img ∧ img.length = h * w ∧
      (∀ t r x, t < 8 → r < h → x < w / 8 → img[r * w + (t * (w / 8) + x)]? =
        some (256 * buf.getD (2 * ((t * h + r) * (w / 8) + x)) 0 + buf.getD (2 * ((t * h + r) * (w / 8) + x) + 1) 0)) ∧
      (∀ r c, r < h → c < w → 8 * (w / 8) ≤ c → img[r * w + c]? = some 0) := by
  obtain ⟨tw, htw⟩ : ∃ tw, tw = w / 8 := ⟨_, rfl⟩
  have htw8 : 8 * tw ≤ w := by omega
  rw [← htw] at hl ⊢
  have key : ∃ st : Nat × List Nat, forN 8 (fun t (st : Nat × List Nat) => do
      let tile ← readInto buf st.1 (h * tw)
      let out ← forN h (fun line out => copyLine tile w tw t line out) st.2
      .ok (st.1 + 2 * (h * tw), out)) (0, List.replicate (w * h) 0) = .ok st ∧
      Holds st.2 w h (fun r c => if c < 8 * tw then RafDbp.at' buf tw h r c else 0) := by
    refine IiqFlat.forN_imp 8 _ (fun t st => st.1 = 2 * (t * (h * tw)) ∧ Holds st.2 w h (fun r c => if c < t * tw then RafDbp.at' buf tw h r c else 0)) _ _ ?_ (fun _ h => h.2) ?_
    · refine ⟨by simp, ?_⟩
      refine ⟨by rw [List.length_replicate, Nat.mul_comm], fun r c hr hc => ?_⟩
      rw [List.getElem?_replicate, if_pos (by rw [Nat.mul_comm w h]; exact mul_add_lt hr hc)]
      show some 0 = some (if c < 0 * tw then _ else 0)
      rw [if_neg (by omega)]
    · rintro t ⟨p, out⟩ ht ⟨hp, ho⟩
      simp only at hp ho
      have hsz : (t + 1) * (h * tw) ≤ 8 * (h * tw) := Nat.mul_le_mul_right _ ht
      rw [Nat.add_mul, Nat.one_mul] at hsz
      have hrd : readInto buf p (h * tw) = .ok ((List.range (h * tw)).map fun i => 256 * buf.getD (p + 2 * i) 0 + buf.getD (p + 2 * i + 1) 0) := by
        rw [readInto, if_pos (by omega)]
      have htile : ∀ r x, r < h → x < tw → idx ((List.range (h * tw)).map fun i => 256 * buf.getD (p + 2 * i) 0 + buf.getD (p + 2 * i + 1) 0) (r * tw + x) =
          .ok (RafDbp.at' buf tw h r (t * tw + x)) := by
        intro r x hr hx
        have hlt := mul_add_lt hr hx
        rw [idx, List.getElem?_map, List.getElem?_range hlt]
        have e1 : (t * tw + x) / tw = t := by
          rw [Nat.mul_comm, Nat.mul_add_div (by omega), Nat.div_eq_of_lt hx, Nat.add_zero]
        have e2 : (t * tw + x) % tw = x := by
          rw [Nat.mul_comm, Nat.mul_add_mod, Nat.mod_eq_of_lt hx]
        have e3 : p + 2 * (r * tw + x) = 2 * ((t * h + r) * tw + x) := by
          rw [hp, Nat.add_mul, Nat.mul_assoc]
          omega
        rw [RafDbp.at', e1, e2, ← e3]
        rfl
      have inner : ∃ out', forN h (fun line out => copyLine ((List.range (h * tw)).map fun i => 256 * buf.getD (p + 2 * i) 0 + buf.getD (p + 2 * i + 1) 0) w tw t line out) out =
          .ok out' ∧ Holds out' w h (fun r c => if c < (t + 1) * tw then RafDbp.at' buf tw h r c else 0) := by
        refine IiqFlat.forN_imp h _ (fun n o => Holds o w h (fun r c => if c < t * tw ∨ (r < n ∧ c < t * tw + tw) then RafDbp.at' buf tw h r c else 0)) _ out
          (ho.same fun r c _ _ => if_congr (by omega) rfl rfl)
          (fun o hh => hh.same fun r c hr _ => if_congr (by rw [Nat.add_mul, Nat.one_mul]; omega) rfl rfl) ?_
        intro line o hline hh
        obtain ⟨o', e, h'⟩ := RafDbp.copyLine_ok buf _ w h tw t line htw8 ht hline _ o hh htile
        refine ⟨o', e, h'.same fun r c _ _ => ?_⟩
        by_cases a : r = line ∧ t * tw ≤ c ∧ c < t * tw + tw
        · rw [if_pos a, if_pos (by omega)]
        · rw [if_neg a]
          exact if_congr (by omega) rfl rfl
      obtain ⟨out', e, h'⟩ := inner
      refine ⟨(p + 2 * (h * tw), out'), ?_, ?_, h'⟩
      · show (readInto buf p (h * tw) >>= _) = _
        rw [hrd, ok_bind]
        show (forN h _ out >>= _) = _
        rw [e]
        rfl
      · simp only
        rw [hp, Nat.add_mul, Nat.one_mul]
        omega
  obtain ⟨st, e, hlen, hpx⟩ := key
  refine ⟨st.2, ?_, hlen, fun t r x ht hr hx => ?_, fun r c hr hc h8 => ?_⟩
  · rw [decode, ← htw]
    show (forN 8 _ _ >>= _) = _
    rw [e]
    rfl
  · have hb : t * tw + tw ≤ 8 * tw := by
      have : (t + 1) * tw ≤ 8 * tw := Nat.mul_le_mul_right _ ht
      rwa [Nat.add_mul, Nat.one_mul] at this
    rw [hpx r (t * tw + x) hr (by omega)]
    show some (if t * tw + x < 8 * tw then RafDbp.at' buf tw h r (t * tw + x) else 0) = _
    rw [if_pos (by omega), RafDbp.at']
    rw [show (t * tw + x) / tw = t by rw [Nat.mul_comm, Nat.mul_add_div (by omega), Nat.div_eq_of_lt hx, Nat.add_zero],
      show (t * tw + x) % tw = x by rw [Nat.mul_comm, Nat.mul_add_mod, Nat.mod_eq_of_lt hx]]
  · rw [hpx r c hr hc]
    show some (if c < 8 * tw then _ else 0) = _
    rw [if_neg (by omega)]

/-- **C98, short files.** With fewer bytes than the eight tiles need, there is no picture. -/
theorem C98_short (buf : List Nat) (w h : Nat) (hl : buf.length < 2 * (8 * (h * (w / 8)))) (img : List Nat) : decode buf w h ≠ .ok img := by
  obtain ⟨n, hn⟩ : ∃ n, n = h * (w / 8) := ⟨_, rfl⟩
  rw [← hn] at hl
  intro hd
  rw [decode] at hd
  simp only [← hn] at hd
  have key : ∀ k st, forN k (fun t (st : Nat × List Nat) => do
      let tile ← readInto buf st.1 n
      let out ← forN h (fun line out => copyLine tile w (w / 8) t line out) st.2
      .ok (st.1 + 2 * n, out)) (0, List.replicate (w * h) 0) = .ok st → st.1 = 2 * (k * n) ∧ (0 < k → 2 * (k * n) ≤ buf.length) := by
    intro k
    induction k with
    | zero => intro st e; cases e; exact ⟨by simp, by omega⟩
    | succ k ih =>
      intro st e
      rw [forN_succ] at e
      cases e1 : forN k (fun t (st : Nat × List Nat) => do
          let tile ← readInto buf st.1 n
          let out ← forN h (fun line out => copyLine tile w (w / 8) t line out) st.2
          .ok (st.1 + 2 * n, out)) (0, List.replicate (w * h) 0) with
      | error x => rw [e1] at e; cases e
      | ok s =>
        obtain ⟨h1, -⟩ := ih s e1
        rw [e1] at e
        replace e : (readInto buf s.1 n >>= fun tile => forN h (fun line out => copyLine tile w (w / 8) k line out) s.2 >>= fun out =>
          (.ok (s.1 + 2 * n, out) : R (Nat × List Nat))) = .ok st := e
        rw [Nat.add_mul, Nat.one_mul]
        by_cases hr : s.1 + 2 * n ≤ buf.length
        · rw [readInto, if_pos hr, ok_bind] at e
          cases e2 : forN h (fun line out => copyLine ((List.range n).map fun i => 256 * buf.getD (s.1 + 2 * i) 0 + buf.getD (s.1 + 2 * i + 1) 0) w (w / 8) k line out) s.2 with
          | error x => rw [e2] at e; cases e
          | ok o =>
            rw [e2] at e
            cases e
            refine ⟨?_, fun _ => ?_⟩
            · simp only; omega
            · omega
        · rw [readInto, if_neg hr] at e
          cases e
  cases e : forN 8 (fun t (st : Nat × List Nat) => do
      let tile ← readInto buf st.1 n
      let out ← forN h (fun line out => copyLine tile w (w / 8) t line out) st.2
      .ok (st.1 + 2 * n, out)) (0, List.replicate (w * h) 0) with
  | error x => rw [e] at hd; cases hd
  | ok s =>
    have := (key 8 s e).2 (by omega)
    omega

theorem RafDbp.enough {a b n : Nat} (h : a ≤ 8 * n) (e : a = b) : ¬ n < b / 8 := by omega

/-- **C98, cameras without hints.** Samples of 12 bits are packed, the least significant bit first; those of 14 bits are the lower bits of two bytes each, and those of 16
bits are two bytes each in the byte order of the file. -/
theorem C98_plain (fuji : List Nat → Nat → Nat → Nat → R (List Nat)) (little : Bool) (src : List Nat) (hb : IsBytes src) (w h : Nat) (h0 : 0 < w) :
    (w % 2 = 0 → h * w * 12 ≤ 8 * src.length →
      ∃ img, pixels fuji { little } 12 src w h = .ok img ∧ Holds img w h fun r c => fieldLSB 12 src (r * w + c)) ∧
    (h * w * 2 ≤ src.length →
      ∃ img, pixels fuji { little } 14 src w h = .ok img ∧ Holds img w h fun r c => fieldMSB 16 (swapPairs src) (r * w + c) % 2 ^ 14) ∧
    (h * w * 2 ≤ src.length →
      ∃ img, pixels fuji { little } 16 src w h = .ok img ∧ Holds img w h fun r c => fieldMSB 16 (if little then swapPairs src else src) (r * w + c)) := by
  refine ⟨fun h2 hl => ?_, fun hl => ?_, fun hl => ?_⟩
  · obtain ⟨img, e, hi⟩ := C13_12le src hb w h h0 h2 hl
    refine ⟨img, ?_, hi⟩
    rw [pixels]
    simp only [Bool.false_eq_true, if_false]
    rw [if_neg (RafDbp.enough hl (by rw [Nat.mul_comm (h * w), Nat.mul_comm h, Nat.mul_assoc])), if_pos trivial, e]
  · obtain ⟨img, e, hi⟩ := C13_unpacked_le 14 src hb w h h0 hl
    refine ⟨img, ?_, hi⟩
    rw [pixels]
    simp only [Bool.false_eq_true, if_false]
    rw [if_neg (RafDbp.enough (a := h * w * 14) (by omega) (by rw [Nat.mul_comm (h * w), Nat.mul_comm h, Nat.mul_assoc])), if_neg (by omega), if_pos trivial]
    exact e
  · have hl' : w * h * 2 ≤ src.length := by rw [Nat.mul_comm w h]; exact hl
    have c1 : ¬ src.length < 16 * w * h / 8 := RafDbp.enough (a := h * w * 16) (by omega) (by rw [Nat.mul_comm (h * w), Nat.mul_comm h, Nat.mul_assoc])
    cases little with
    | true =>
      have := C13_16le src hb w h h0
      rw [if_pos hl'] at this
      obtain ⟨img, e, hi⟩ := this
      refine ⟨img, ?_, by simpa using hi⟩
      rw [pixels]
      simp only [Bool.false_eq_true, if_false]
      rw [if_neg c1, if_neg (by omega), if_neg (by omega), if_pos trivial, if_pos trivial, e]
    | false =>
      have := C13_16be src hb w h h0
      rw [if_pos hl'] at this
      obtain ⟨img, e, hi⟩ := this
      refine ⟨img, ?_, by simpa using hi⟩
      rw [pixels]
      simp only [Bool.false_eq_true, if_false]
      rw [if_neg c1, if_neg (by omega), if_neg (by omega), if_pos trivial, e]

/-- **C98, cameras with hints.** With double width, every other line is used; with words of 32 bits, samples of 12 or 14 bits are packed into them, the most significant
bit first; the DBP has its tiles. -/
theorem C98_hints (fuji : List Nat → Nat → Nat → Nat → R (List Nat)) (k : Kind) (src : List Nat) (hb : IsBytes src) (w h : Nat) :
    (k.doubleWidth = true → 0 < w → w * h * 4 ≤ src.length → ∀ bps,
      ∃ img, pixels fuji k bps src w h = .ok img ∧ Holds img w h fun r c => fieldMSB 16 (swapPairs src) (2 * r * w + c)) ∧
    (k.doubleWidth = false → k.jpeg32 = true → w * h % 8 = 0 → h * w * 12 ≤ 8 * src.length →
      ∃ img, pixels fuji k 12 src w h = .ok img ∧ Holds img w h fun r c => fieldMSB 12 (swapWords src) (r * w + c)) ∧
    (k.doubleWidth = false → k.jpeg32 = true → w * h % 16 = 0 → h * w * 14 ≤ 8 * src.length →
      ∃ img, pixels fuji k 14 src w h = .ok img ∧ Holds img w h fun r c => fieldMSB 14 (swapWords src) (r * w + c)) ∧
    (k.doubleWidth = false → k.jpeg32 = false → k.dbp = true → pixels fuji k 16 src w h = decode src w h ∧ ∀ bps, bps ≠ 16 → pixels fuji k bps src w h = panic') := by
  refine ⟨fun a h0 hl bps => ?_, fun a b hm hl => ?_, fun a b hm hl => ?_, fun a b c => ⟨?_, fun bps hn => ?_⟩⟩
  · rw [pixels, if_pos a]
    exact C13_16le_skiplines src hb w h h0 hl
  · rw [pixels, if_neg (by simp [a]), if_pos b, if_pos rfl]
    exact C13_12be_msb32 src hb w h hm hl
  · rw [pixels, if_neg (by simp [a]), if_pos b, if_neg (by omega), if_pos rfl]
    exact C13_14be_msb32 src hb w h hm hl
  · rw [pixels, if_neg (by simp [a]), if_neg (by simp [b]), if_pos c]
    rfl
  · rw [pixels, if_neg (by simp [a]), if_neg (by simp [b]), if_pos c]
    simp only [assert', decide_eq_false hn, Bool.false_eq_true, if_false]
    rfl

/-- **C98, other data.** Fewer bytes than the samples need are taken as compressed data; a depth other than 12, 14 and 16 is an error. -/
theorem C98_other (fuji : List Nat → Nat → Nat → Nat → R (List Nat)) (little : Bool) (src : List Nat) (w h bps : Nat) :
    (src.length < bps * w * h / 8 → pixels fuji { little } bps src w h = fuji src w h bps) ∧
    (bps * w * h / 8 ≤ src.length → bps ≠ 12 → bps ≠ 14 → bps ≠ 16 → pixels fuji { little } bps src w h = fail') ∧
    (bps ≠ 12 → bps ≠ 14 → pixels fuji { jpeg32 := true, little } bps src w h = fail') := by
  refine ⟨fun hl => ?_, fun hl a b c => ?_, fun a b => ?_⟩
  · rw [pixels]
    simp only [Bool.false_eq_true, if_false]
    rw [if_pos hl]
  · rw [pixels]
    simp only [Bool.false_eq_true, if_false]
    rw [if_neg (by omega), if_neg a, if_neg b, if_neg c]
  · rw [pixels]
    simp only [Bool.false_eq_true, if_false, if_true]
    rw [if_neg a, if_neg b]

/-- Two samples of 12 bits, and two of 16 bits in both byte orders -/
example : (pixels (fun _ _ _ _ => fail') {} 12 [0x34, 0x12, 0x56] 2 1).toOption = some [0x234, 0x561] ∧
    (pixels (fun _ _ _ _ => fail') {} 16 [1, 2, 3, 4] 2 1).toOption = some [0x201, 0x403] ∧
    (pixels (fun _ _ _ _ => fail') { little := false } 16 [1, 2, 3, 4] 2 1).toOption = some [0x102, 0x304] := by decide +kernel

/-- A picture of 17 by 1: eight tiles of two columns, and one column that is left over -/
example : (decode (List.replicate 4 0 ++ [1, 2, 3, 4] ++ List.replicate 24 9) 17 1).toOption =
    some [0, 0, 258, 772, 2313, 2313, 2313, 2313, 2313, 2313, 2313, 2313, 2313, 2313, 2313, 2313, 0] := by decide +kernel

end Verif.Props
