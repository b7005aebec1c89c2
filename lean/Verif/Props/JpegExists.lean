import Verif.Proofs.CrxBytes
import Verif.Proofs.JpegBitWriter
import Verif.Props.Jpeg
import Verif.Props.JpegSub
/-!
# C59 and C60: every picture has a file

The hypotheses `StoredAs` and `StoredSub` of C59, C60 and of the properties built on them can be met by every picture.
-/

namespace Verif.Props
open Verif Verif.Ljpeg Verif.Spec Verif.Spec.Jpeg Verif.CrxSpec

/-- A table with a word for each number of digits. -/
def allTab : Table := ⟨[0, 0, 0, 14, 3] ++ List.replicate 11 0, List.range 17⟩

/-- Some bits as the data of a scan: bytes, stuffed, then the end marker and what follows. -/
def scanOf (bits : List Bool) (tail : List Nat) : List Nat := stuff (toBytes bits) ++ 0xff :: 0xd9 :: tail

theorem scanOf_ok (bits : List Bool) (tail : List Nat) (ht : IsBytes tail) :
    IsBytes (scanOf bits tail) ∧ ProperEnd (scanOf bits tail) ∧ ∃ rest, bitsOf (scanOf bits tail) = bits ++ rest := by
  obtain ⟨pad, e, hb, _⟩ := toBytes_spec bits.length bits (Nat.le_refl _)
  refine ⟨?_, (properEnd_stuff _ _).2 (by simp [ProperEnd]), pad, ?_⟩
  · intro b hm
    rw [scanOf, List.mem_append] at hm
    rcases hm with hm | hm
    · rw [stuff, List.mem_flatMap] at hm
      obtain ⟨x, hx, hm⟩ := hm
      have := hb x hx
      split at hm
      · simp at hm; omega
      · simp at hm; omega
    · simp only [List.mem_cons] at hm
      rcases hm with rfl | rfl | hm
      · omega
      · omega
      · exact ht b hm
  · rw [bitsOf, scanOf, unstuff_stuff, bytesMSB_append, e]
    simp [unstuff]

theorem scanOf_split (bits : List Bool) (tail : List Nat) : scanOf bits tail = scanOf bits [] ++ tail := by simp [scanOf]

theorem all_tables (cs : List Comp) (h : ∀ c ∈ cs, c.tbl = 0) (k : Nat) (c : Comp) (hk : cs[k]? = some c) :
    tableFor ([Segment.tables [(0, allTab)]] ++ []) c.tbl = some allTab := by
  rw [h c (List.mem_of_getElem? hk)]
  decide +kernel

theorem all_cats {d : Int} (h : -32768 ≤ d ∧ d ≤ 32767) : catOf d ∈ allTab.vals := by
  have := (catOf_le h.1 h.2).1
  simp only [allTab, List.mem_range]
  omega

/-- **C59.** Every picture of 16 bit samples can be stored with every predictor, so that `StoredAs` holds, whatever follows. -/
theorem C59_every_picture (F : Frame) (hF : F.Ok) (first : ∀ c, F.comps[0]? = some c → c.h = 1 ∧ c.v = 1) (htab : ∀ c ∈ F.comps, c.tbl = 0)
    (pred : Nat) (hp : 1 ≤ pred ∧ pred ≤ 7) (bug : Bool) (px : Nat → Nat → Nat → Nat)
    (hpx : ∀ r c k, r < F.height → c < F.width → k < F.comps.length → px r c k < 65536) (tail : List Nat) (ht : IsBytes tail) :
    ∃ data, IsBytes data ∧ StoredAs F [.tables [(0, allTab)]] [] (F.comps.map (·.id)) false bug pred 0 (data ++ tail) (fun _ => allTab) F.height px := by
  obtain ⟨h1, h2, h3⟩ := scanOf_ok (scan (fun _ => allTab) bug F.comps.length F.width F.height pred (2 ^ (F.prec - 0 - 1) : Nat) px) tail ht
  rw [scanOf_split] at h1 h2 h3
  exact ⟨_, fun b hb => h1 b (List.mem_append_left _ hb),
   {frame := hF, first := first, before := (by decide +kernel), after := (by simp), selects := ⟨by simp, by simp⟩, predictor := hp,
    transform := ⟨by have := hF.prec; omega, by omega⟩, tables := all_tables F.comps htab, samples := hpx,
    coded := fun r c k _ _ _ => all_cats (diff16_range _), bytes := h1, ending := h2, bits := h3 }⟩

/-- **C60.** So can every subsampled picture whose differences fit. -/
theorem C60_every_picture (s : Sub) (F : Frame) (hF : F.Ok) (three : F.comps.length = 3) (first : ∀ c, F.comps[0]? = some c → c.h = 2 ∧ c.v = s.rows)
    (htab : ∀ c ∈ F.comps, c.tbl = 0) (bw bh : Nat) (hw : F.width = 2 * bw) (hh : F.height = s.rows * bh)
    (bug : Bool) (p : SubPic)
    (hpx : ∀ R C, R < bh → C < bw → ∀ t ∈ s.samples (2 ^ (F.prec - 0 - 1)) p R C,
      t.2.1 < 65536 ∧ -32768 ≤ (t.2.1 : Int) - t.2.2 ∧ (t.2.1 : Int) - t.2.2 ≤ 32767) (tail : List Nat) (ht : IsBytes tail) :
    ∃ data, IsBytes data ∧ StoredSub s F [.tables [(0, allTab)]] [] (F.comps.map (·.id)) false bug 1 0 (data ++ tail) (fun _ => allTab) bw bh p := by
  obtain ⟨h1, h2, h3⟩ := scanOf_ok (s.scan (fun _ => allTab) bug bw bh (2 ^ (F.prec - 0 - 1)) p) tail ht
  rw [scanOf_split] at h1 h2 h3
  exact ⟨_, fun b hb => h1 b (List.mem_append_left _ hb),
   {frame := hF, three := three, first := first, width := hw, height := hh, before := (by decide +kernel), after := (by simp),
    selects := ⟨by simp, by simp⟩, transform := ⟨by have := hF.prec; omega, by omega⟩, tables := all_tables F.comps htab,
    coded := fun R C hR hC t ht => ⟨(hpx R C hR hC t ht).1, (hpx R C hR hC t ht).2.1, (hpx R C hR hC t ht).2.2, all_cats (hpx R C hR hC t ht).2⟩,
    bytes := h1, ending := h2, bits := h3 }⟩

end Verif.Props
