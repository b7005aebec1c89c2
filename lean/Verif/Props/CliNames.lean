import Verif.Props.CliPlan
import Verif.Proofs.Grid
/-! # Names and frames planned by `dnglab convert` and `dnglab process-raw` (C32, C37) -/

namespace Verif.Props
open Verif Verif.Path Verif.Cli

/-- What stands before the last dot of a file name; a dot at its beginning does not count. -/
def IsStem (n b : Name) : Prop := (∃ e, n = b ++ '.' :: e ∧ b ≠ [] ∧ '.' ∉ e) ∨ (n = b ∧ ('.' ∉ n ∨ ∃ m, n = '.' :: m ∧ '.' ∉ m))

theorem dropWhile_dot (a b : Name) (h : '.' ∉ a) : (a ++ '.' :: b).dropWhile (· ≠ '.') = '.' :: b ∧ (a ++ '.' :: b).takeWhile (· ≠ '.') = a := by
  induction a with
  | nil => simp
  | cons x a ih =>
    have hx : x ≠ '.' := fun hx => h (by simp [hx])
    obtain ⟨h1, h2⟩ := ih fun hm => h (by simp [hm])
    refine ⟨?_, ?_⟩
    · rw [List.cons_append, List.dropWhile_cons, if_pos (by simpa using hx), h1]
    · rw [List.cons_append, List.takeWhile_cons, if_pos (by simpa using hx), h2]

theorem dropWhile_nodot (a : Name) (h : '.' ∉ a) : a.dropWhile (· ≠ '.') = [] := by
  induction a with
  | nil => rfl
  | cons x a ih =>
    have hx : x ≠ '.' := fun hx => h (by simp [hx])
    rw [List.dropWhile_cons, if_pos (by simpa using hx), ih fun hm => h (by simp [hm])]

theorem splitDot_ext (b e : Name) (hb : b ≠ []) (he : '.' ∉ e) : splitDot (b ++ '.' :: e) = some (b, e) := by
  have hr : (b ++ '.' :: e).reverse = e.reverse ++ '.' :: b.reverse := by simp
  obtain ⟨h1, h2⟩ := dropWhile_dot e.reverse b.reverse (by simpa using he)
  rw [splitDot, hr, h1, h2]
  simp [hb]

theorem splitDot_none (n : Name) (h : '.' ∉ n ∨ ∃ m, n = '.' :: m ∧ '.' ∉ m) : splitDot n = none := by
  rcases h with h | ⟨m, rfl, hm⟩
  · rw [splitDot, dropWhile_nodot _ (by simpa using h)]
  · have hr : ('.' :: m).reverse = m.reverse ++ '.' :: [] := by simp
    rw [splitDot, hr, (dropWhile_dot m.reverse [] (by simpa using hm)).1]
    rfl

theorem stem_of {n b : Name} (h : IsStem n b) : stem n = b := by
  rcases h with ⟨e, rfl, hb, he⟩ | ⟨rfl, h⟩
  · rw [stem, splitDot_ext b e hb he]
  · rw [stem, splitDot_none _ h]

theorem stem_ne_nil {n b : Name} (h : IsStem n b) (hn : n ≠ []) : b ≠ [] := by
  rcases h with ⟨_, _, h, _⟩ | ⟨rfl, _⟩
  · exact h
  · exact hn

/-- Every name has exactly one stem. -/
theorem IsStem.exists (n : Name) : IsStem n (stem n) := by
  by_cases hd : '.' ∈ n
  · obtain ⟨b, e, rfl, he⟩ : ∃ b e, n = b ++ '.' :: e ∧ '.' ∉ e := by
      have : ∀ n : Name, '.' ∈ n → ∃ b e, n = b ++ '.' :: e ∧ '.' ∉ e := by
        intro n
        induction n with
        | nil => intro h; cases h
        | cons x n ih =>
          intro h
          by_cases hn : '.' ∈ n
          · obtain ⟨b, e, rfl, he⟩ := ih hn
            exact ⟨x :: b, e, rfl, he⟩
          · rcases List.mem_cons.mp h with rfl | h
            · exact ⟨[], n, rfl, hn⟩
            · exact absurd h hn
      exact this n hd
    by_cases hb : b = []
    · subst hb
      have h := splitDot_none ('.' :: e) (Or.inr ⟨e, rfl, he⟩)
      refine Or.inr ⟨?_, Or.inr ⟨e, rfl, he⟩⟩
      rw [List.nil_append, stem, h]
    · refine Or.inl ⟨e, ?_, ?_, he⟩ <;> rw [stem, splitDot_ext b e hb he]
      exact hb
  · have h := splitDot_none n (Or.inl hd)
    exact Or.inr ⟨by rw [stem, h], Or.inl hd⟩

/-- **C32 (names).** A source whose destination is the file `n` in directory `d`, with stem `b`, is written to `b.dng` in that directory, unless another
job of the run writes there. -/
theorem C32_output_name (index : Nat) (s : Source) (claimed : List Path) (d : Path) (hd : d ≠ []) (n b : Name) (hn : n ≠ []) (hdir : s.destIsDir = false)
    (hdest : s.map.dest = d ++ [.normal n]) (hb : IsStem n b) (hfree : d ++ [.normal (b ++ ".dng".toList)] ∉ claimed) :
    planConvert false index [s] claimed = .ok [{ input := s.map.src, output := d ++ [.normal (b ++ ".dng".toList)], index := index }] := by
  have hb0 := stem_ne_nil hb hn
  have hout : ∃ m, dngOutput s = .ok (d ++ [.normal m]) ∧ stem m = b := by
    rw [dngOutput, destFile, hdir, hdest]
    simp only [bind, Except.bind, Bool.false_eq_true, if_false]
    have hf : fileName (d ++ [.normal n]) = some n := by simp [fileName]
    have hset : ∃ m, (match setExt (d ++ [.normal n]) "dng".toList with
        | none => (fail' : R Path)
        | some p => .ok p) = .ok (d ++ [.normal m]) ∧ stem m = b := by
      refine ⟨b ++ '.' :: "dng".toList, ?_, stem_of (Or.inl ⟨"dng".toList, rfl, hb0, by decide⟩)⟩
      rw [setExt, hf]; simp [stem_of hb]
    rw [hf]
    split
    · split
      · exact ⟨n, rfl, stem_of hb⟩
      · exact hset
    · exact hset
  obtain ⟨m, h1, h2⟩ := hout
  have hf : fileName (d ++ [.normal m]) = some m := by simp [fileName]
  have hc : candidates (d ++ [.normal m]) b false 1 0 = [d ++ [.normal (b ++ ".dng".toList)]] := by
    simp [candidates, frameName, withFileName, hf, push, isAbs, hd]
  have hs : findSuffix (d ++ [.normal m]) b false 1 claimed (claimed.length + 2) 0 = some [d ++ [.normal (b ++ ".dng".toList)]] := by
    rw [findSuffix]
    simp only [hc]
    rw [if_neg (by simpa using hfree)]
  rw [planConvert, generateJob, batchCount, h1]
  simp only [bind, Except.bind, hf, h2, Bool.false_and, Bool.false_eq_true, if_false, hs]
  simp [planConvert]

/-- `/in/x/IMG.1.NEF` and the hidden file `.raw` -/
example : IsStem "IMG.1.NEF".toList "IMG.1".toList ∧ IsStem ".raw".toList ".raw".toList :=
  ⟨Or.inl ⟨"NEF".toList, by decide, by decide, by decide⟩, Or.inr ⟨rfl, Or.inr ⟨"raw".toList, by decide, by decide⟩⟩⟩
example : planConvert false 3 [{ map := { src := parse "/in/x/.raw".toList, dest := parse "/out/x/.raw".toList }, destIsDir := false, count := .ok 7 }] [] =
    .ok [{ input := parse "/in/x/.raw".toList, output := parse "/out/x/.raw.dng".toList, index := 3 }] := by decide +kernel

theorem tifOutput_ok (s : Source) (batch : Bool) (count i : Nat) (hs : (fileName s.map.src).isSome) (hd : s.destIsDir = false → (fileName s.map.dest).isSome) :
    ∃ p, tifOutput s batch count i = .ok p := by
  obtain ⟨a, ha⟩ := Option.isSome_iff_exists.mp hs
  have key : ∀ q n, fileName q = some n → ∃ p, (if batch = true ∧ 1 < count then
      match fileName ((setExt q "tif".toList).getD q) with
      | none => (fail' : R Path)
      | some n => .ok (withFileName ((setExt q "tif".toList).getD q) [.normal (stem n ++ '_' :: pad4 i ++ ".tif".toList)])
      else .ok ((setExt q "tif".toList).getD q)) = .ok p := by
    intro q n hq
    have he : (setExt q "tif".toList).getD q = q.dropLast ++ [.normal (stem n ++ '.' :: "tif".toList)] := by simp [setExt, hq]
    have hf : fileName ((setExt q "tif".toList).getD q) = some (stem n ++ '.' :: "tif".toList) := by rw [he]; simp [fileName]
    rw [hf]
    split <;> exact ⟨_, rfl⟩
  unfold tifOutput destFile
  cases hdir : s.destIsDir
  · obtain ⟨n, hn⟩ := Option.isSome_iff_exists.mp (hd hdir)
    exact key s.map.dest n hn
  · rw [ha]
    exact key (push s.map.dest [.normal a]) a (fileName_push _ _)

/-- **C37 (nothing is lost in planning).** If every source has a file name and a known number of frames, developing plans exactly the wanted frames of the
sources, in order. -/
theorem C37_plan_complete (batch : Bool) (index : Nat) (frames : Source → Nat) (ss : List Source)
    (hf : ∀ s ∈ ss, s.count = .ok (frames s)) (hs : ∀ s ∈ ss, (fileName s.map.src).isSome)
    (hd : ∀ s ∈ ss, s.destIsDir = false → (fileName s.map.dest).isSome) :
    ∃ jobs, planTif batch index ss = .ok jobs ∧ jobs.map (fun j => (j.input, j.index)) = wanted batch index frames ss := by
  have one : ∀ s ∈ ss, ∃ js, generateTif batch index s = .ok js ∧ js.map (fun j => (j.input, j.index)) = wanted batch index frames [s] := by
    intro s hm
    have hcount : batchCount batch s = (Except.ok (if batch then frames s else 1) : R Nat) := by
      rw [batchCount, hf s hm]; cases batch <;> rfl
    obtain ⟨out, ho⟩ : ∃ out : Nat → Path, ∀ i, tifOutput s batch (if batch then frames s else 1) i = .ok (out i) :=
      ⟨fun i => (tifOutput_ok s batch _ i (hs s hm) (hd s hm)).choose, fun i => (tifOutput_ok s batch _ i (hs s hm) (hd s hm)).choose_spec⟩
    refine ⟨(List.range (if batch then frames s else 1)).map fun i => { input := s.map.src, output := out i, index := if batch then i else index }, ?_, ?_⟩
    · rw [generateTif, hcount]
      exact mapM_ok_of _ _ _ fun i _ => by rw [ho]; rfl
    · rw [List.map_map]
      cases batch <;> simp [wanted, Function.comp_def]
  have all : ∃ ls, ss.mapM (generateTif batch index) = .ok ls ∧ ls.flatten.map (fun j => (j.input, j.index)) = wanted batch index frames ss := by
    clear hf hs hd
    induction ss with
    | nil => exact ⟨[], rfl, rfl⟩
    | cons s ss ih =>
      obtain ⟨js, h1, h2⟩ := one s (by simp)
      obtain ⟨ls, h3, h4⟩ := ih fun s' hs' => one s' (by simp [hs'])
      refine ⟨js :: ls, by rw [List.mapM_cons, h1, h3]; rfl, ?_⟩
      rw [List.flatten_cons, List.map_append, h2, h4]
      simp [wanted]
  obtain ⟨ls, h1, h2⟩ := all
  exact ⟨ls.flatten, by rw [planTif, h1]; rfl, h2⟩

/-- frame 2 of one file, and all frames of another -/
example : (planTif false 2 [{ map := { src := parse "/d/a.CR3".toList, dest := parse "/o/a.CR3".toList }, destIsDir := false, count := .ok 9 }]) =
      .ok [{ input := parse "/d/a.CR3".toList, output := parse "/o/a.tif".toList, index := 2 }] ∧
    (planTif true 0 [{ map := { src := parse "/d/a.CR3".toList, dest := parse "/o/a.CR3".toList }, destIsDir := false, count := .ok 2 }]) =
      .ok [{ input := parse "/d/a.CR3".toList, output := parse "/o/a_0000.tif".toList, index := 0 },
           { input := parse "/d/a.CR3".toList, output := parse "/o/a_0001.tif".toList, index := 1 }] := by decide +kernel

end Verif.Props
