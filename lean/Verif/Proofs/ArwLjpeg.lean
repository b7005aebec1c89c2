import Verif.Model.ArwLjpeg
import Verif.Proofs.Cr2
/-! # ARW tiles -/

namespace Verif.ArwLjpeg
open Verif Verif.Spec

theorem unpackLine_ok {W n x line : Nat} {f g : Nat → Nat → Nat} {px : Nat → Nat → Nat} {data lines : List Nat}
    (hd : Holds data 1024 256 px) (hl : Holds lines W n g) (hx : x + 512 ≤ W) (hline : line < 256) (hn : 2 * line + 1 < n)
    (hf : ∀ e i k, e < 2 → i < 256 → k < 2 → f (2 * line + e) (x + (2 * i + k)) = px line (4 * i + (2 * e + k))) :
    ∃ lines', unpackLine W x (line * (2 * W)) data line lines = .ok lines' ∧
      Holds lines' W n fun r c => if r / 2 = line ∧ x ≤ c ∧ c < x + 512 then f r c else g r c := by
  have hbase : line * (2 * W) = 2 * line * W := by ring
  have main : ∃ l', unpackLine W x (line * (2 * W)) data line lines = .ok l' ∧ Holds l' W n fun r c => if r / 2 = line ∧ x ≤ c ∧ c < x + 2 * 256 then f r c else g r c := by
    unfold unpackLine
    refine forN_inv 256 _ (fun i lines => Holds lines W n fun r c => if r / 2 = line ∧ x ≤ c ∧ c < x + 2 * i then f r c else g r c) lines
      (hl.same fun r c _ _ => by rw [if_neg (by omega)]) ?_
    intro i lines hi hh
    obtain ⟨l1, e1, h1⟩ := hh.write (r := 2 * line) (c := x + i * 2) (by omega) (by omega) (px line (4 * i)) (i := line * (2 * W) + (x + i * 2)) (by omega)
    obtain ⟨l2, e2, h2⟩ := h1.write (r := 2 * line) (c := x + i * 2 + 1) (by omega) (by omega) (px line (4 * i + 1)) (i := line * (2 * W) + (x + i * 2 + 1)) (by omega)
    obtain ⟨l3, e3, h3⟩ := h2.write (r := 2 * line + 1) (c := x + i * 2) (by omega) (by omega) (px line (4 * i + 2)) (i := line * (2 * W) + (W + x + i * 2)) (by
      rw [hbase, Nat.add_mul, Nat.one_mul]; omega)
    obtain ⟨l4, e4, h4⟩ := h3.write (r := 2 * line + 1) (c := x + i * 2 + 1) (by omega) (by omega) (px line (4 * i + 3)) (i := line * (2 * W) + (W + x + i * 2 + 1)) (by
      rw [hbase, Nat.add_mul, Nat.one_mul]; omega)
    refine ⟨l4, ?_, h4.same ?_⟩
    · rw [hd.read hline (c := 4 * i) (by omega) rfl, hd.read hline (c := 4 * i + 1) (i := line * 1024 + 4 * i + 1) (by omega) (by omega), hd.read hline (c := 4 * i + 2) (i := line * 1024 + 4 * i + 2) (by omega) (by omega),
        hd.read hline (c := 4 * i + 3) (i := line * 1024 + 4 * i + 3) (by omega) (by omega)]
      simp only [bind, Except.bind, e1, e2, e3, e4]
    · intro r c hr hc
      have f0 := hf 0 i 0 (by omega) hi (by omega)
      have f1 := hf 0 i 1 (by omega) hi (by omega)
      have f2 := hf 1 i 0 (by omega) hi (by omega)
      have f3 := hf 1 i 1 (by omega) hi (by omega)
      by_cases c3 : r = 2 * line + 1 ∧ c = x + i * 2 + 1
      · obtain ⟨rfl, rfl⟩ := c3
        rw [if_pos ⟨rfl, rfl⟩, if_pos (by omega), show x + i * 2 + 1 = x + (2 * i + 1) by omega, f3]
      · rw [if_neg c3]
        by_cases c2 : r = 2 * line + 1 ∧ c = x + i * 2
        · obtain ⟨rfl, rfl⟩ := c2
          rw [if_pos ⟨rfl, rfl⟩, if_pos (by omega), show x + i * 2 = x + (2 * i + 0) by omega, f2]
        · rw [if_neg c2]
          by_cases c1 : r = 2 * line ∧ c = x + i * 2 + 1
          · obtain ⟨rfl, rfl⟩ := c1
            rw [if_pos ⟨rfl, rfl⟩, if_pos (by omega), show x + i * 2 + 1 = x + (2 * i + 1) by omega]
            exact f1.symm
          · rw [if_neg c1]
            by_cases c0 : r = 2 * line ∧ c = x + i * 2
            · obtain ⟨rfl, rfl⟩ := c0
              rw [if_pos ⟨rfl, rfl⟩, if_pos (by omega), show x + i * 2 = x + (2 * i + 0) by omega]
              exact f0.symm
            · rw [if_neg c0]
              by_cases h : r / 2 = line ∧ x ≤ c ∧ c < x + 2 * i
              · rw [if_pos h, if_pos (by omega)]
              · rw [if_neg h, if_neg (by omega)]
  obtain ⟨l', e, h⟩ := main
  refine ⟨l', e, h.same ?_⟩
  intro r c _ _
  rfl

theorem unpackTile_ok {W x : Nat} {f g : Nat → Nat → Nat} {px : Nat → Nat → Nat} {data lines : List Nat}
    (hd : Holds data 1024 256 px) (hl : Holds lines W 512 g) (hx : x + 512 ≤ W)
    (hf : ∀ line e i k, line < 256 → e < 2 → i < 256 → k < 2 → f (2 * line + e) (x + (2 * i + k)) = px line (4 * i + (2 * e + k))) :
    ∃ lines', unpackTile W x data lines = .ok lines' ∧
      Holds lines' W 512 fun r c => if x ≤ c ∧ c < x + 512 then f r c else g r c := by
  have main : ∃ l', unpackTile W x data lines = .ok l' ∧ Holds l' W 512 fun r c => if r / 2 < 256 ∧ x ≤ c ∧ c < x + 512 then f r c else g r c := by
    unfold unpackTile
    refine forN_inv 256 _ (fun line lines => Holds lines W 512 fun r c => if r / 2 < line ∧ x ≤ c ∧ c < x + 512 then f r c else g r c) lines
      (hl.same fun r c _ _ => by rw [if_neg (by omega)]) ?_
    intro line lines hline hh
    obtain ⟨l1, e1, h1⟩ := unpackLine_ok (f := f) hd hh hx hline (by omega) (fun e i k => hf line e i k hline)
    refine ⟨l1, ?_, h1.same ?_⟩
    · simp only [bind, Except.bind, e1]
      rw [assert', if_pos (decide_eq_true ?_)]
      rw [h1.1, show (line + 1) * (2 * W) = (2 * (line + 1)) * W by ring]
      exact Nat.mul_le_mul_right _ (by omega)
    · intro r c _ _
      by_cases c1 : r / 2 = line ∧ x ≤ c ∧ c < x + 512
      · rw [if_pos c1, if_pos (by omega)]
      · rw [if_neg c1]
        by_cases c2 : r / 2 < line ∧ x ≤ c ∧ c < x + 512
        · rw [if_pos c2, if_pos (by omega)]
        · rw [if_neg c2, if_neg (by omega)]
  obtain ⟨l', e, h⟩ := main
  refine ⟨l', e, h.same ?_⟩
  intro r c hr _
  by_cases c1 : x ≤ c ∧ c < x + 512
  · rw [if_pos c1, if_pos (by omega)]
  · rw [if_neg c1, if_neg (by omega)]

theorem copyTile_ok {w x : Nat} {f g : Nat → Nat → Nat} {px : Nat → Nat → Nat} {data lines : List Nat}
    (hd : Holds data 1536 512 px) (hl : Holds lines (w * 3) 512 g) (hx : x + 1536 ≤ w * 3)
    (hf : ∀ r c, r < 512 → c < 1536 → f r (x + c) = px r c) :
    ∃ lines', copyTile w x data lines = .ok lines' ∧
      Holds lines' (w * 3) 512 fun r c => if x ≤ c ∧ c < x + 1536 then f r c else g r c := by
  have main : ∃ l', copyTile w x data lines = .ok l' ∧ Holds l' (w * 3) 512 fun r c => if r < 512 ∧ x ≤ c ∧ c < x + 1536 then f r c else g r c := by
    unfold copyTile
    refine forN_inv 512 _ (fun line lines => Holds lines (w * 3) 512 fun r c => if r < line ∧ x ≤ c ∧ c < x + 1536 then f r c else g r c) lines
      (hl.same fun r c _ _ => by rw [if_neg (by omega)]) ?_
    intro line lines hline hh
    have hp := Verif.Pix.Holds.piece hd (r := line) (x := 0) (n := 1536) hline (by omega)
    rw [Nat.add_zero] at hp
    obtain ⟨l1, e1, h1⟩ := Cr2.copyIn_ok hh hline hx (by omega) hp rfl
    refine ⟨l1, ?_, h1.same ?_⟩
    · simp only [bind, Except.bind, e1]
      rw [assert', if_pos (decide_eq_true ?_)]
      rw [h1.1]
      exact Nat.mul_le_mul_right _ (by omega)
    · intro r c _ _
      by_cases c1 : r = line ∧ x ≤ c ∧ c < x + 1536
      · rw [if_pos c1, if_pos (by omega), Nat.zero_add, ← c1.1, ← hf r (c - x) (by omega) (by omega), show x + (c - x) = c by omega]
      · rw [if_neg c1]
        by_cases c2 : r < line ∧ x ≤ c ∧ c < x + 1536
        · rw [if_pos c2, if_pos (by omega)]
        · rw [if_neg c2, if_neg (by omega)]
  obtain ⟨l', e, h⟩ := main
  refine ⟨l', e, h.same ?_⟩
  intro r c hr _
  by_cases c1 : x ≤ c ∧ c < x + 1536
  · rw [if_pos c1, if_pos (by omega)]
  · rw [if_neg c1, if_neg (by omega)]

/-- A strip filled tile by tile. -/
theorem tiles_ok {W n tw : Nat} {f : Nat → Nat → Nat} (step : Nat → List Nat → R (List Nat)) (ct : Nat) (hW : W = ct * tw)
    (hstep : ∀ col lines g, col < ct → Holds lines W n g → ∃ lines', step col lines = .ok lines' ∧
      Holds lines' W n fun r c => if col * tw ≤ c ∧ c < col * tw + tw then f r c else g r c)
    {lines : List Nat} {g : Nat → Nat → Nat} (hl : Holds lines W n g) :
    ∃ lines', forN ct step lines = .ok lines' ∧ Holds lines' W n f := by
  obtain ⟨l', e, h⟩ := forN_inv ct step (fun col lines => Holds lines W n fun r c => if c < col * tw then f r c else g r c) lines
    (hl.same fun r c _ _ => by rw [if_neg (by omega)]) (by
      intro col lines hcol hh
      obtain ⟨l1, e1, h1⟩ := hstep col lines _ hcol hh
      refine ⟨l1, e1, h1.same ?_⟩
      intro r c _ _
      rw [Nat.add_mul, Nat.one_mul]
      by_cases c1 : col * tw ≤ c ∧ c < col * tw + tw
      · rw [if_pos c1, if_pos c1.2]
      · rw [if_neg c1]
        by_cases c2 : c < col * tw
        · rw [if_pos c2, if_pos (by omega)]
        · rw [if_neg c2, if_neg (by omega)])
  exact ⟨l', e, h.same fun r c _ hc => if_pos (by rw [← hW]; exact hc)⟩

/-- An image filled strip by strip. -/
theorem stripsFn_ok {W n rt : Nat} {f : Nat → Nat → Nat} (closure : Nat → List Nat → R (List Nat)) (hW : 0 < W) (hn : 0 < n)
    (hclosure : ∀ i lines, i < rt → (Holds lines W n fun _ _ => 0) → ∃ lines', closure i lines = .ok lines' ∧
      Holds lines' W n fun r c => f (i * n + r) c) :
    ∃ out, stripsFn W (rt * n) n closure = .ok out ∧ Holds out W (rt * n) f := by
  have hcount : (W * (rt * n) + W * n - 1) / (W * n) = rt := by
    have hp : 0 < W * n := Nat.mul_pos hW hn
    rw [show W * (rt * n) = rt * (W * n) by ring]
    refine Nat.div_eq_of_lt_le (by omega) ?_
    rw [Nat.add_mul]; omega
  have hrep := holds_replicate W (rt * n) 0
  let cs := (List.range rt).map fun i => ((List.replicate (W * (rt * n)) 0).drop (i * (W * n))).take (W * n)
  have hcs : chunks (List.replicate (W * (rt * n)) 0) (W * n) = .ok cs := by
    rw [chunks, if_neg (by have := Nat.mul_pos hW hn; omega), List.length_replicate, hcount]
  have hlen : cs.length = rt := by simp [cs]
  have hget (i : Nat) (hi : i < rt) : idx cs i = .ok (((List.replicate (W * (rt * n)) 0).drop (i * (W * n))).take (W * n)) := by
    rw [idx_lt _ _ (by omega)]
    simp [cs]
  have key (k : Nat) (hk : k ≤ rt) : ∃ os, (List.range k).mapM (fun i => do
      let c ← idx cs i
      closure i c) = .ok os ∧ Holds os.flatten W (k * n) f := by
    induction k with
    | zero => exact ⟨[], rfl, by rw [Nat.zero_mul]; exact ⟨by simp, by intro r c hr; omega⟩⟩
    | succ k ih =>
      obtain ⟨os, e, ho⟩ := ih (by omega)
      have hle : (k + 1) * n ≤ rt * n := Nat.mul_le_mul_right _ hk
      rw [Nat.add_mul, Nat.one_mul] at hle
      have hp := hrep.part (k * n) n n (by omega)
      rw [show k * n * W = k * (W * n) by ring, Nat.mul_comm n W] at hp
      obtain ⟨o, e', ho'⟩ := hclosure k _ (by omega) hp
      refine ⟨os ++ [o], ?_, ?_⟩
      · rw [List.range_succ, List.mapM_append, e, List.mapM_cons, List.mapM_nil, hget k (by omega)]
        simp only [bind, Except.bind, e']
        rfl
      · rw [List.flatten_append, List.flatten_singleton, Nat.add_mul, Nat.one_mul]
        exact ho.append ho'
  obtain ⟨os, e, ho⟩ := key rt (Nat.le_refl _)
  refine ⟨os.flatten, ?_, ho⟩
  rw [stripsFn, hcs]
  simp only [bind, Except.bind, hlen]
  simp only [bind, Except.bind] at e
  rw [e]

end Verif.ArwLjpeg
