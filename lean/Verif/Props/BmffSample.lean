import Verif.Proofs.BmffSample
import Verif.Props.Bmff
/-!
# C69: the bytes of every frame of a CR3 track
-/

namespace Verif.Props
open Verif.Bmff Verif.BmffSpec

private theorem quads_numbered (l : List (Nat × Nat × Nat × Nat)) :
    quads (l.flatMap (fun r => [r.1, r.2.1, r.2.2.1, r.2.2.2])) = l.map quad := by
  induction l with
  | nil => rfl
  | cons x l ih =>
    rw [List.flatMap_cons]
    exact congrArg ((⟨x.1, x.2.1, x.2.2.1, x.2.2.2⟩ : Run) :: ·) ih

/-- **C69 (table lookup).** For every sample-to-chunk table with rising chunk numbers and no empty chunks, every list of
sample sizes and of chunk offsets and every sample: given the runs with their right first sample numbers, the lookup
finds the sample at the offset of its chunk plus the sizes of the samples before it in the chunk, with its own size. -/
theorem C69_lookup {runs : List (Nat × Nat × Nat)} (h1 : ∀ r ∈ runs.head?, r.1 = 1) (hr : Rising 1 runs)
    (hpos : ∀ r ∈ runs, 0 < r.2.1) {sizes co : List Nat} {s c w : Nat} (hs : InChunk runs s c w) (hc : c ≤ co.length)
    (hc32 : c < 2 ^ 32) (hss : s ≤ sizes.length)
    (hb : ((sizes.drop (s - 1 - w)).take w).sum < 2 ^ 32) (hb64 : offsetIn sizes (co.getD (c - 1) 0) s w < 2 ^ 64) :
    sampleOffset ((numbered 1 runs).map (fun r => ⟨r.1, r.2.1, r.2.2.1, r.2.2.2⟩)) 0 sizes co s
      = .ok (offsetIn sizes (co.getD (c - 1) 0) s w, sizes.getD (s - 1) 0) := by
  refine sampleOffset_ok h1 hr hpos ?_ hs hc hc32 hss hb hb64
  intro i hi
  unfold sampleSize idx usub
  rw [if_neg (by omega), if_pos (by omega)]
  simp only [bind, Except.bind]
  rw [show i + 1 - 1 = i from by omega, List.getElem?_eq_getElem hi, List.getD_eq_getElem?_getD, List.getElem?_eq_getElem hi]
  rfl

example : sampleOffset ((numbered 1 [(1, 2, 1), (3, 3, 1), (5, 1, 1)]).map (fun r => ⟨r.1, r.2.1, r.2.2.1, r.2.2.2⟩)) 0
    [10, 11, 12, 13, 14, 15, 16, 17, 18, 19, 20] [100, 200, 300, 400, 500] 9 = .ok (417, 18) := by decide +kernel
example : InChunk [(1, 2, 1), (3, 3, 1), (5, 1, 1)] 9 4 1 := ⟨by decide, by decide, by decide⟩

/-- Every sample stands in exactly one place of one chunk. -/
theorem C69_place (runs : List (Nat × Nat × Nat)) (n s : Nat) (h1 : 1 ≤ s) (hs : s ≤ held runs 1 n) :
    ∃ c w, c ≤ n ∧ InChunk runs s c w := by
  induction n with
  | zero => exact absurd hs (by show ¬ s ≤ 0; omega)
  | succ n ih =>
    rw [held_succ] at hs
    rcases Nat.lt_or_ge (held runs 1 n) s with h | h
    · exact ⟨n + 1, s - 1 - held runs 1 n, Nat.le_refl _, by omega, by rw [Nat.add_comm n 1]; omega, by
        rw [Nat.add_sub_cancel]; omega⟩
    · obtain ⟨c, w, hc, hi⟩ := ih h
      exact ⟨c, w, by omega, hi⟩

/-- **C69 (frames of a file, partial).** For every well-formed container, track and frame number: the frame is looked up at
the offset of its chunk plus the sizes of the frames before it in that chunk, and with its own size. Missing: tables
in which a run other than the last two has more than one sample per chunk (`RunsOk` inside `GoodFile`), for which the
claim is false (`C69_three_runs_wrong`). -/
theorem C69_frames_partial {tiff : List Nat → R Unit} {tOk : List Nat → Prop} (hT : ∀ l, tOk l → tiff l = .ok ())
    {ts : List Tree} (h : GoodFile tOk ts) {n : Nat} (hn : (bytesAll ts).length < n)
    {i : Nat} {t : Tree} (ht : (tracks ts)[i]? = some t)
    {tc tz to_ : Tree} (hc : follow [.mdia, .minf, .stbl, .stsc] t.kids = some tc)
    (hz : follow [.mdia, .minf, .stbl, .stsz] t.kids = some tz) (ho : follow [.mdia, .minf, .stbl, .co64] t.kids = some to_)
    {v f v' f' : Nat} {runs : List (Nat × Nat × Nat)} {co : List Nat} (ec : tc.content = .stsc v f runs)
    (ez : (∃ v f l, tz.content = .sizes v f l) ∨ (∃ v f s k, s ≠ 0 ∧ tz.content = .sizeOne v f s k))
    (eo : to_.content = .co64 v' f' co) (hro : RunsOk runs) (hpos : ∀ r ∈ runs, 0 < r.2.1)
    {s c w : Nat} (hs : InChunk runs s c w) (hco : c ≤ co.length) (hc32 : c < 2 ^ 32) (hs32 : s < 2 ^ 32)
    (hss : s ≤ tz.content.sampleSizes.length)
    (hb : ((tz.content.sampleSizes.drop (s - 1 - w)).take w).sum < 2 ^ 32)
    (hb64 : offsetIn tz.content.sampleSizes (co.getD (c - 1) 0) s w < 2 ^ 64) :
    ∃ fb, parseFile tiff n (bytesAll ts) = some (.ok fb) ∧
      trackSample fb i (s - 1)
        = .ok (offsetIn tz.content.sampleSizes (co.getD (c - 1) 0) s w, tz.content.sampleSizes.getD (s - 1) 0) := by
  refine ⟨_, C68_container hT h hn, ?_⟩
  obtain ⟨b, hb', hsb⟩ := rel_get (traks_rel ts 0) i t ht
  have hget : (traks (seenAll 0 ts))[i]? = some b := by
    unfold idx at hb'
    cases hx : (traks (seenAll 0 ts))[i]? with
    | none => rw [hx] at hb'; cases hb'
    | some y => rw [hx] at hb'; cases hb'; rfl
  obtain ⟨o, hkids⟩ := sees_kids hsb
  have hst : Option.Rel Sees (stblOf b) (((lastOf .mdia t.kids).bind fun t => lastOf .minf t.kids).bind fun t => lastOf .stbl t.kids) := by
    have := bind_rel (bind_rel (slot_rel .mdia t.kids o) .minf) .stbl
    rw [← hkids] at this
    exact this
  have path : ∀ k, follow [.mdia, .minf, .stbl, k] t.kids
      = (((lastOf .mdia t.kids).bind fun t => lastOf .minf t.kids).bind fun t => lastOf .stbl t.kids).bind
          fun t => lastOf k t.kids := by
    intro k
    simp only [follow, Option.bind_assoc]
  rw [path] at hc hz ho
  unfold trackSample
  rw [hget]
  simp only
  cases hb2 : stblOf b with
  | none =>
    rw [hb2] at hst
    cases hx : ((lastOf .mdia t.kids).bind fun t => lastOf .minf t.kids).bind fun t => lastOf .stbl t.kids with
    | none => rw [hx] at hc; cases hc
    | some y => rw [hx] at hst; cases hst
  | some sb =>
    rw [hb2] at hst
    cases hx : ((lastOf .mdia t.kids).bind fun t => lastOf .minf t.kids).bind fun t => lastOf .stbl t.kids with
    | none => rw [hx] at hc; cases hc
    | some y =>
      rw [hx] at hst hc hz ho
      cases hst with
      | some hst =>
        obtain ⟨o2, hk2⟩ := sees_kids hst
        have rc := slot_rel .stsc y.kids o2
        have rz := slot_rel .stsz y.kids o2
        have ro := slot_rel .co64 y.kids o2
        rw [← hk2] at rc rz ro
        rw [Option.bind_some] at hc hz ho
        rw [hc] at rc
        rw [hz] at rz
        rw [ho] at ro
        cases qc : slot .stsc sb.kids with
        | none => rw [qc] at rc; cases rc
        | some bc => cases qz : slot .stsz sb.kids with
          | none => rw [qz] at rz; cases rz
          | some bz => cases qo : slot .co64 sb.kids with
            | none => rw [qo] at ro; cases ro
            | some bo =>
              rw [qc] at rc
              rw [qz] at rz
              rw [qo] at ro
              cases rc with
              | some rc => cases rz with
                | some rz => cases ro with
                  | some ro =>
                    have hs1 : 1 ≤ s := by obtain ⟨-, -, hs⟩ := hs; omega
                    have hchk : chkU32 ((s - 1) % 2 ^ 32 + 1) = .ok s := by
                      rw [Nat.mod_eq_of_lt (by omega), chkU32, Nat.sub_add_cancel hs1, if_pos hs32]
                    simp only [qc, qz, qo, sees_vals rc, sees_vals rz, sees_vals ro, ec, eo, Content.vals, List.drop_succ_cons, List.drop_zero,
                      hchk, bind, Except.bind, quads_numbered]
                    refine sampleOffset_ok hro.1 hro.2.1 hpos ?_ hs hco hc32 hss hb hb64
                    intro j hj
                    rcases ez with ⟨a, b, l, ez⟩ | ⟨a, b, z, k, hz0, ez⟩
                    · rw [ez] at hj ⊢
                      have hj' : j < l.length := hj
                      show sampleSize 0 l (j + 1) = .ok (l.getD j 0)
                      unfold sampleSize idx usub
                      rw [if_neg (by omega), if_pos (by omega)]
                      simp only [bind, Except.bind]
                      rw [show j + 1 - 1 = j from by omega, List.getElem?_eq_getElem hj', List.getD_eq_getElem?_getD,
                        List.getElem?_eq_getElem hj']
                      rfl
                    · rw [ez] at hj ⊢
                      have hj' : j < k := by
                        have : j < (List.replicate k z).length := hj
                        rwa [List.length_replicate] at this
                      show sampleSize z [z] (j + 1) = .ok ((List.replicate k z).getD j 0)
                      unfold sampleSize
                      rw [if_pos (by omega), List.getD_eq_getElem?_getD, List.getElem?_replicate, if_pos hj']
                      rfl

/-- The second frame of `exFile` is the first of its second chunk, the third the second of that chunk. -/
example : trackSample (seenAll 0 exFile) 0 0 = .ok (1000, 100) ∧ trackSample (seenAll 0 exFile) 0 1 = .ok (5000000000, 200) ∧
    trackSample (seenAll 0 exFile) 0 2 = .ok (5000000200, 300) := by decide +kernel

/-- The numbers of a sample-to-chunk table with three runs: two samples in chunks 1 and 2, one
from chunk 3 on. -/
def threeRuns : List (Nat × Nat × Nat) := [(1, 2, 1), (2, 2, 2), (3, 1, 1)]

/-- **C69 fails for tables with three runs.** Read from its bytes, this table gets a wrong first sample number for its
third run (the reader subtracts a sample number from a chunk number), and the fourth sample, the second of chunk 2, is
looked up in chunk 4. -/
theorem C69_three_runs_wrong :
    InChunk threeRuns 4 2 1 ∧
    ∃ es p, stscEntries (beAll (threeRuns.flatMap fun r => [(4, r.1), (4, r.2.1), (4, r.2.2)])) 3 0 = .ok (es, p) ∧
      sampleOffset es 0 [10, 10, 10, 10, 10, 10] [100, 200, 300, 400] 4 = .ok (400, 10) ∧
      offsetIn [10, 10, 10, 10, 10, 10] 200 4 1 = 210 := by
  refine ⟨⟨by decide, by decide, by decide⟩, ?_⟩
  refine ⟨[⟨1, 2, 1, 1⟩, ⟨2, 2, 2, 3⟩, ⟨3, 1, 1, 3⟩], 36, by decide +kernel, by decide +kernel, by decide⟩

/-- **C69 fails: the table may panic.** With three samples in the first chunk and a third run the subtraction underflows. -/
theorem C69_three_runs_panic :
    stscEntries (beAll ([(1, 3, 1), (2, 3, 1), (3, 1, 1)].flatMap fun r : Nat × Nat × Nat => [(4, r.1), (4, r.2.1), (4, r.2.2)])) 3 0
      = panic' := by decide +kernel

end Verif.Props
