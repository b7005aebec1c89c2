import Verif.Model.Pana
import Verif.Spec.Pana
import Verif.Proofs.PackedGeneric
import Verif.Proofs.LjpegScan
import Verif.Proofs.Holds
import Verif.Proofs.BitRun
/-! # Panasonic: pieces of the image, plain packets -/

namespace Verif.Pana
open Verif Verif.Pumps Verif.Packed Verif.Spec Verif.Spec.Pana

/-- The pieces of a list of `N` elements. -/
theorem pieces_cover (c N : Nat) (Q : Nat → Nat → Prop) : ∀ (M : Nat) (os : List (List Nat)), os.length = M →
    (∀ i o, os[i]? = some o → o.length = min c (N - i * c) ∧ ∀ j v, o[j]? = some v → Q (i * c + j) v) →
    os.flatten.length = min N (M * c) ∧ ∀ p v, os.flatten[p]? = some v → Q p v := by
  intro M
  induction M with
  | zero =>
    intro os h0 _
    have := List.length_eq_zero_iff.1 h0
    subst this
    simp
  | succ M ih =>
    intro os h0 h
    obtain ⟨os', o, rfl⟩ : ∃ os' o, os = os' ++ [o] := ⟨os.dropLast, os.getLast (by intro e; simp [e] at h0), (List.dropLast_append_getLast _).symm⟩
    rw [List.length_append] at h0
    have h0' : os'.length = M := by simpa using h0
    obtain ⟨i1, i2⟩ := ih os' h0' fun i o' hi => h i o' (by
      rw [List.getElem?_append_left (by
        have := (List.getElem?_eq_some_iff.1 hi).1; exact this)]; exact hi)
    obtain ⟨o1, o2⟩ := h M o (by rw [List.getElem?_append_right (by omega), h0', Nat.sub_self]; rfl)
    rw [List.flatten_append, List.flatten_cons, List.flatten_nil, List.append_nil]
    refine ⟨?_, ?_⟩
    · rw [List.length_append, i1, o1, Nat.add_mul]; omega
    · intro p v hp
      by_cases hlt : p < os'.flatten.length
      · rw [List.getElem?_append_left hlt] at hp
        exact i2 p v hp
      · rw [List.getElem?_append_right (by omega)] at hp
        have hlen := (List.getElem?_eq_some_iff.1 hp).1
        have hle : M * c ≤ N := by omega
        have := o2 _ v hp
        rw [i1, Nat.min_eq_right hle] at this hlt
        rwa [show M * c + (p - M * c) = p by omega] at this

theorem pieces_ok (N c : Nat) (hc : 0 < c) (closure : List Nat → Nat → R (List Nat)) (Q : Nat → Nat → Prop)
    (h : ∀ i, i * c < N → ∃ o, closure (List.replicate (min c (N - i * c)) 0) i = .ok o ∧ o.length = min c (N - i * c) ∧
      ∀ j v, o[j]? = some v → Q (i * c + j) v) :
    ∃ out, (do
        let pieces ← chunks (List.replicate N 0) c
        let out ← pieces.zipIdx.mapM fun (piece, i) => closure piece i
        .ok out.flatten) = (.ok out : R (List Nat)) ∧ out.length = N ∧ ∀ p v, out[p]? = some v → Q p v := by
  have hM : N ≤ (N + c - 1) / c * c := by
    have := Nat.lt_div_mul_add (a := N + c - 1) (b := c) hc
    omega
  have hM2 : ∀ i, i < (N + c - 1) / c → i * c < N := by
    intro i hi
    have h1 := Nat.div_mul_le_self (N + c - 1) c
    have h2 := Nat.mul_le_mul_right c (show i + 1 ≤ (N + c - 1) / c by omega)
    rw [Nat.add_mul] at h2
    omega
  have hp (i : Nat) : ((List.replicate N 0).drop (i * c)).take c = List.replicate (min c (N - i * c)) 0 := by
    rw [List.drop_replicate, List.take_replicate]
  obtain ⟨os, e, hl, hQ⟩ := Verif.Ljpeg.mapM_exists (fun (x : List Nat × Nat) => closure x.1 x.2)
    (fun x o => o.length = min c (N - x.2 * c) ∧ ∀ j v, o[j]? = some v → Q (x.2 * c + j) v)
    ((List.range ((N + c - 1) / c)).map fun i => (List.replicate (min c (N - i * c)) 0, i)) (by
      intro x hx
      rw [List.mem_map] at hx
      obtain ⟨i, hi, rfl⟩ := hx
      exact h i (hM2 i (List.mem_range.1 hi)))
  rw [List.length_map, List.length_range] at hl
  obtain ⟨c1, c2⟩ := pieces_cover c N Q _ os hl (by
    intro i o hi
    have hlt := (List.getElem?_eq_some_iff.1 hi).1
    exact hQ i (List.replicate (min c (N - i * c)) 0, i) o (by
      rw [List.getElem?_map, List.getElem?_range (by omega)]; rfl) hi)
  refine ⟨os.flatten, ?_, by rw [c1]; omega, c2⟩
  rw [chunks, if_neg (by omega), List.length_replicate]
  simp only [bind, Except.bind, hp]
  rw [Verif.Ljpeg.zipIdx_map_range, e]

theorem chunkedFn_ok (w h c : Nat) (hc : 0 < c) (closure : List Nat → Nat → R (List Nat)) (Q : Nat → Nat → Prop)
    (hcl : ∀ i, i * c < w * h → ∃ o, closure (List.replicate (min c (w * h - i * c)) 0) i = .ok o ∧ o.length = min c (w * h - i * c) ∧
      ∀ j v, o[j]? = some v → Q (i * c + j) v) :
    ∃ out, chunkedFn w h c closure = .ok out ∧ out.length = w * h ∧ ∀ p v, out[p]? = some v → Q p v :=
  pieces_ok (w * h) c hc closure Q hcl

theorem readN_ok (bits : Nat) (hb : bits ≤ 16) : ∀ (n : Nat) (p : PumpLSB) (l : List Bool), p.Rep l → n * bits ≤ l.length →
    readN bits n p = .ok ((List.range n).map fun i => natLSB ((l.drop (i * bits)).take bits)) := by
  intro n
  induction n with
  | zero => intro p l _ _; rfl
  | succ n ih =>
    intro p l hr hl
    rw [Nat.add_mul, Nat.one_mul] at hl
    obtain ⟨p', e, r⟩ := reads_lsb bits hb p l hr (by omega)
    rw [readN, e]
    simp only [bind, Except.bind]
    rw [ih p' _ r (by rw [List.length_drop]; omega), List.range_succ_eq_map]
    simp only [List.map_cons, List.map_map]
    rw [Nat.mod_eq_of_lt (natLSB_16 hb _ (by rw [List.length_take]; omega)), Nat.zero_mul, List.drop_zero]
    congr 2
    apply List.map_congr_left
    intro i _
    simp only [Function.comp, List.drop_drop]
    rw [Nat.succ_mul, Nat.add_comm]

theorem packet_get (split : Bool) (data : List Nat) (g i : Nat) (hi : i < 16) (hl : place split g i < data.length) :
    (packet split data g)[i]? = data[place split g i]? := by
  rw [packet, List.getElem?_map, List.getElem?_range hi, Option.map_some, List.getD_eq_getElem?_getD, List.getElem?_eq_getElem hl]
  rfl

theorem packet_length (split : Bool) (data : List Nat) (g : Nat) : (packet split data g).length = 16 := by simp [packet]

theorem packet_bytes (split : Bool) (data : List Nat) (hb : IsBytes data) (g : Nat) : IsBytes (packet split data g) := by
  intro x hx
  rw [packet, List.mem_map] at hx
  obtain ⟨b, _, rfl⟩ := hx
  rw [List.getD_eq_getElem?_getD]
  cases h : data[place split g b]? with
  | none => simp
  | some y => exact hb _ (List.mem_of_getElem? h)

/-- The packets of a block whose parts have been put in order. -/
theorem packet_split (buf : List Nat) (B k : Nat) (hl : (B + 1) * 0x4000 ≤ buf.length) (hk : k < 1024) :
    (let src := (buf.drop (B * 0x4000)).take 0x4000
     ((src.drop 0x1ff8 ++ src.take 0x1ff8).drop (k * 16)).take 16) = packet true buf (B * 1024 + k) := by
  simp only
  have hs : ((buf.drop (B * 0x4000)).take 0x4000).length = 0x4000 := by rw [List.length_take, List.length_drop]; omega
  apply List.ext_getElem?
  intro i
  by_cases hi : i < 16
  · have hp : place true (B * 1024 + k) i = B * 0x4000 + (k * 16 + i + 0x1ff8) % 0x4000 := by
      rw [place, if_pos rfl]; omega
    rw [packet_get _ _ _ _ hi (by rw [hp]; omega), hp, List.getElem?_take_of_lt hi, List.getElem?_drop]
    by_cases h1 : k * 16 + i < 0x2008
    · rw [List.getElem?_append_left (by rw [List.length_drop, hs]; omega), List.getElem?_drop, List.getElem?_take_of_lt (by omega), List.getElem?_drop]
      exact congrArg (fun x => buf[x]?) (by omega)
    · rw [List.getElem?_append_right (by rw [List.length_drop, hs]; omega), List.length_drop, hs, List.getElem?_take_of_lt (by omega),
        List.getElem?_take_of_lt (by omega), List.getElem?_drop]
      exact congrArg (fun x => buf[x]?) (by omega)
  · rw [List.getElem?_eq_none (by rw [List.length_take]; omega), List.getElem?_eq_none (by rw [packet_length]; omega)]

theorem packet_plain (buf : List Nat) (off n k : Nat) (h16 : off % 16 = 0) (hk : k * 16 + 16 ≤ n) (hl : off + n ≤ buf.length) :
    ((((buf.drop off).take n).drop (k * 16)).take 16) = packet false buf (off / 16 + k) := by
  apply List.ext_getElem?
  intro i
  by_cases hi : i < 16
  · have hp : place false (off / 16 + k) i = off + k * 16 + i := by
      rw [place, if_neg (by simp)]; omega
    rw [packet_get _ _ _ _ hi (by rw [hp]; omega), hp, List.getElem?_take_of_lt hi, List.getElem?_drop, List.getElem?_take_of_lt (by omega),
      List.getElem?_drop]
    exact congrArg (fun x => buf[x]?) (by omega)
  · rw [List.getElem?_eq_none (by rw [List.length_take]; omega), List.getElem?_eq_none (by rw [packet_length]; omega)]

theorem readN_packet (bits n : Nat) (hb : bits ≤ 16) (hn : n * bits ≤ 128) (bytes : List Nat) (h16 : bytes.length = 16) (hby : IsBytes bytes) :
    readN bits n (PumpLSB.new bytes) = .ok ((List.range n).map (plain bits bytes)) :=
  readN_ok bits hb n _ _ (PumpLSB.rep_new bytes hby) (by rw [length_bytesLSB, h16]; exact hn)

theorem rows_flatten (w h : Nat) (f : Nat → Nat → Nat) : Holds ((List.range h).map fun r => (List.range w).map (f r)).flatten w h f := by
  have := holds_flatMap w h f
  rwa [List.flatMap_def] at this

/-- What a version 5 image has at place `p` of `N`. -/
def at5 (buf : List Nat) (bps ppp N p : Nat) : Nat := if p < N / ppp * ppp then plain bps (packet true buf (p / ppp)) (p % ppp) else 0

theorem blockV5_ok (buf : List Nat) (hb : IsBytes buf) (bps ppp N B : Nat) (hbps : bps ≤ 16) (hp : 0 < ppp) (h128 : ppp * bps ≤ 128)
    (hB : B * (1024 * ppp) < N) (hl : (B + 1) * 0x4000 ≤ buf.length) :
    ∃ o, blockV5 buf bps ppp (List.replicate (min (1024 * ppp) (N - B * (1024 * ppp))) 0) B = .ok o ∧ o.length = min (1024 * ppp) (N - B * (1024 * ppp)) ∧
      ∀ j v, o[j]? = some v → v = at5 buf bps ppp N (B * (1024 * ppp) + j) := by
  obtain ⟨n, hn⟩ : ∃ n, n = min (1024 * ppp) (N - B * (1024 * ppp)) := ⟨_, rfl⟩
  rw [← hn]
  obtain ⟨m, hm⟩ : ∃ m, m = n / ppp := ⟨_, rfl⟩
  have hmle : m ≤ 1024 := by
    rw [hm]
    have : n ≤ 1024 * ppp := by omega
    exact Nat.div_le_of_le_mul (by rw [Nat.mul_comm]; exact this)
  have hmn : m * ppp ≤ n := by rw [hm]; exact Nat.div_mul_le_self _ _
  have hmn2 : n < m * ppp + ppp := by rw [hm]; exact Nat.lt_div_mul_add hp
  have hs : slice buf (B * 0x4000) (B * 0x4000 + 0x4000) = .ok ((buf.drop (B * 0x4000)).take 0x4000) := by
    rw [slice_ok _ _ _ (Nat.le_add_right _ _) (by omega), Nat.add_sub_cancel_left]
  have hlen : ((buf.drop (B * 0x4000)).take 0x4000).length = 0x4000 := by rw [List.length_take, List.length_drop]; omega
  generalize hsrc : (buf.drop (B * 0x4000)).take 0x4000 = src at hs hlen
  have hsw : (src.drop 0x1ff8 ++ src.take 0x1ff8).length = 0x4000 := by
    rw [List.length_append, List.length_drop, List.length_take, hlen]; omega
  have hzip : ((List.range m).map fun i => ((List.replicate n 0).drop (i * ppp)).take ppp).zip
      ((List.range 1024).map fun k => packet true buf (B * 1024 + k)) =
      (List.range m).map fun k => (((List.replicate n 0).drop (k * ppp)).take ppp, packet true buf (B * 1024 + k)) := by
    apply List.ext_getElem
    · simp; omega
    · intro i h1 h2
      simp
  have hmap : ((List.range m).map fun k => (((List.replicate n 0).drop (k * ppp)).take ppp, packet true buf (B * 1024 + k))).mapM
      (fun (x : List Nat × List Nat) => readN bps ppp (PumpLSB.new x.2)) =
      .ok (((List.range m).map fun k => (((List.replicate n 0).drop (k * ppp)).take ppp, packet true buf (B * 1024 + k))).map fun x =>
        (List.range ppp).map (plain bps x.2)) := by
    refine mapM_ok_of _ _ _ fun x hx => ?_
    rw [List.mem_map] at hx
    obtain ⟨k, _, rfl⟩ := hx
    exact readN_packet _ _ hbps h128 _ (packet_length _ _ _) (packet_bytes _ _ hb _)
  rw [List.map_map] at hmap
  have hF := rows_flatten ppp m fun k => plain bps (packet true buf (B * 1024 + k))
  refine ⟨((List.range m).map fun k => (List.range ppp).map (plain bps (packet true buf (B * 1024 + k)))).flatten ++
    (List.replicate n 0).drop (m * ppp), ?_, ?_, ?_⟩
  · rw [blockV5, hs]
    simp only [bind, Except.bind]
    rw [chunksExact, if_neg (by omega), List.length_replicate, ← hm]
    simp only
    rw [chunksExact, if_neg (by omega), hsw]
    simp only
    have hpk : (List.range (0x4000 / 16)).map (fun i => ((src.drop 0x1ff8 ++ src.take 0x1ff8).drop (i * 16)).take 16) =
        (List.range 1024).map fun k => packet true buf (B * 1024 + k) := by
      apply List.map_congr_left
      intro k hk
      rw [List.mem_range] at hk
      rw [← hsrc]
      exact packet_split buf B k hl hk
    rw [hpk, hzip, hmap]
    simp only [List.length_map, List.length_range]
    rfl
  · rw [List.length_append, hF.1, List.length_drop, List.length_replicate]; omega
  · intro j v hj
    have hat : j < m * ppp ↔ B * (1024 * ppp) + j < N / ppp * ppp := by
      constructor
      · intro h
        have h1 : (B * 1024 + m) * ppp ≤ N := by rw [Nat.add_mul, Nat.mul_assoc]; omega
        have h2 : B * 1024 + m ≤ N / ppp := (Nat.le_div_iff_mul_le hp).2 h1
        have h3 := Nat.mul_le_mul_right ppp h2
        rw [Nat.add_mul, Nat.mul_assoc] at h3
        omega
      · intro h
        by_contra hge
        have hjn : j < n := by
          have := (List.getElem?_eq_some_iff.1 hj).1
          rw [List.length_append, hF.1, List.length_drop, List.length_replicate] at this; omega
        have h0 : n < 1024 * ppp := by
          by_contra hc
          have : n = 1024 * ppp := by omega
          have : m = 1024 := by rw [hm, this, Nat.mul_div_cancel _ hp]
          subst this
          omega
        have h1 : N < (B * 1024 + m + 1) * ppp := by
          rw [Nat.add_mul, Nat.add_mul, Nat.mul_assoc]; omega
        have h2 : N / ppp < B * 1024 + m + 1 := (Nat.div_lt_iff_lt_mul hp).2 h1
        have h3 := Nat.mul_le_mul_right ppp (show N / ppp ≤ B * 1024 + m by omega)
        rw [Nat.add_mul, Nat.mul_assoc] at h3
        omega
    unfold at5
    by_cases hlt : j < m * ppp
    · rw [if_pos (hat.1 hlt)]
      rw [List.getElem?_append_left (by rw [hF.1]; exact hlt)] at hj
      have h1 : j / ppp < m := (Nat.div_lt_iff_lt_mul hp).2 hlt
      have h2 : j / ppp * ppp + j % ppp = j := Nat.div_add_mod' j ppp
      have := hF.2 (j / ppp) (j % ppp) h1 (Nat.mod_lt _ hp)
      rw [h2, hj] at this
      have h3 : (B * (1024 * ppp) + j) / ppp = B * 1024 + j / ppp := by
        rw [← Nat.mul_assoc, Nat.add_comm, Nat.add_mul_div_right _ _ hp, Nat.add_comm]
      have h4 : (B * (1024 * ppp) + j) % ppp = j % ppp := by
        rw [← Nat.mul_assoc, Nat.add_comm, Nat.add_mul_mod_self_right]
      rw [h3, h4]
      exact Option.some.inj this
    · rw [if_neg (fun h => hlt (hat.2 h))]
      rw [List.getElem?_append_right (by rw [hF.1]; omega), List.drop_replicate, List.getElem?_replicate] at hj
      split at hj
      · exact (Option.some.inj hj).symm
      · cases hj

theorem lineV7_ok (buf : List Nat) (hb : IsBytes buf) (w r : Nat) (hw : w % 9 = 0) (hl : (r + 1) * (16 * (w / 9)) ≤ buf.length) :
    lineV7 buf w 9 (List.replicate w 0) r = .ok ((List.range w).map fun c => plain 14 (packet false buf (r * (w / 9) + c / 9)) (c % 9)) := by
  obtain ⟨m, rfl⟩ : ∃ m, w = m * 9 := ⟨w / 9, by omega⟩
  rw [Nat.mul_div_cancel _ (by omega)] at *
  rw [Nat.add_mul, Nat.one_mul] at hl
  have hF := rows_flatten 9 m fun k => plain 14 (packet false buf (r * m + k))
  have hmap : ((List.range m).map fun k => packet false buf (r * m + k)).mapM (fun block => readN 14 9 (PumpLSB.new block)) =
      .ok (((List.range m).map fun k => packet false buf (r * m + k)).map fun x => (List.range 9).map (plain 14 x)) := by
    refine mapM_ok_of _ _ _ fun x hx => ?_
    rw [List.mem_map] at hx
    obtain ⟨k, _, rfl⟩ := hx
    exact readN_packet _ _ (by omega) (by omega) _ (packet_length _ _ _) (packet_bytes _ _ hb _)
  rw [List.map_map] at hmap
  have hpk : (List.range m).map (fun i => ((((buf.drop (r * (16 * m))).take (16 * m)).drop (i * 16)).take 16)) =
      (List.range m).map fun k => packet false buf (r * m + k) := by
    apply List.map_congr_left
    intro k hk
    rw [List.mem_range] at hk
    rw [packet_plain buf _ _ k (by rw [show r * (16 * m) = r * m * 16 by rw [Nat.mul_comm 16, Nat.mul_assoc]]; omega) (by omega) (by omega),
      show r * (16 * m) = r * m * 16 by rw [Nat.mul_comm 16, Nat.mul_assoc], Nat.mul_div_cancel _ (by omega)]
  rw [lineV7]
  rw [Nat.mul_div_cancel _ (show 0 < 9 by omega), slice, if_pos ⟨by omega, by omega⟩]
  simp only [bind, Except.bind, Nat.add_sub_cancel_left]
  rw [chunksExact, if_neg (by omega)]
  simp only
  rw [List.length_take, List.length_drop, Nat.min_eq_left (by omega), Nat.mul_div_cancel_left _ (by omega), hpk, hmap]
  simp only [List.length_map, List.length_range, List.drop_replicate, Nat.sub_self, List.replicate_zero, List.append_nil]
  congr 1
  apply List.ext_getElem?
  intro i
  by_cases hi : i < m * 9
  · have h2 : i / 9 * 9 + i % 9 = i := Nat.div_add_mod' i 9
    have := hF.2 (i / 9) (i % 9) (by omega) (by omega)
    rw [h2] at this
    rw [List.getElem?_map, List.getElem?_range hi]
    exact this
  · rw [List.getElem?_eq_none (by have := hF.1; simp only [Function.comp_def] ; omega), List.getElem?_eq_none (by simp; omega)]

end Verif.Pana
