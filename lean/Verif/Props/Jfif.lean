import Verif.Proofs.Jfif
/-! # C76: JPEG files with EXIF data -/

namespace Verif.Props
open Verif Verif.Jfif Verif.Spec.Jfif

/-- Every well-formed JPEG file, with anything behind it, is read: all its parts are reported, in order, with their positions and
contents. (Missing from the full claim: thumbnails of more than 85 pixels and EXIF parts whose directory cannot be read, see below.) -/
theorem C76_parts_partial {D : Type} (tiff : Nat → Option D) (parts : List Part) (rest : List Nat) (h : Good tiff 2 parts) :
    ∃ l n, ReportedAll tiff 2 parts l ∧ parse tiff (file parts rest) n = some (.ok (.soi 0 :: l)) := by
  obtain ⟨l, h1, h2⟩ := parse_file tiff parts rest h
  exact ⟨l, _, h1, h2⟩

theorem xpacket_all {D : Type} (tiff : Nat → Option D) (o : Nat) (ps : List Part) (l : List (Segment D)) (h : ReportedAll tiff o ps l) :
    xpacket l = ps.findSome? xmpOf ∧ exifIfd l = exifOf tiff o ps := by
  induction ps generalizing o l with
  | nil => rw [ReportedAll] at h; subst h; exact ⟨rfl, rfl⟩
  | cons p ps ih =>
    cases l with
    | nil => exact h.elim
    | cons s l =>
      obtain ⟨h1, h2⟩ := h
      have ih := ih _ _ h2
      cases p with
      | exif d =>
        obtain ⟨x, hx, rfl⟩ := h1
        exact ⟨ih.1, hx.symm⟩
      | _ =>
        rw [Reported] at h1; subst h1
        first
        | exact ih
        | exact ⟨rfl, ih.2⟩

/-- The EXIF directory is that of the first EXIF part and the XMP packet is that of the first XMP part. -/
theorem C76_metadata_partial {D : Type} (tiff : Nat → Option D) (parts : List Part) (rest : List Nat) (h : Good tiff 2 parts) :
    ∃ l n, parse tiff (file parts rest) n = some (.ok l) ∧ exifIfd l = exifOf tiff 2 parts ∧ xpacket l = parts.findSome? xmpOf := by
  obtain ⟨l, h1, h2⟩ := parse_file tiff parts rest h
  have h3 := xpacket_all tiff 2 parts l h1
  exact ⟨_, _, h2, h3.2, h3.1⟩

/-- Reading a file ends, after at most one turn for every two bytes of it and one more, unless at some point an `APP1` segment is to be
read where the file has no two bytes left. -/
theorem C76_ends_partial {D : Type} (tiff : Nat → Option D) (file : List Nat)
    (h : ∀ x y s, file[0]? = some x → file[1]? = some y → Reach tiff file ⟨0, 256 * x + y, 2, []⟩ s → s.sym = 0xFFE1 → s.cur + 2 ≤ file.length) :
    ∃ r, parse tiff file (file.length / 2 + 1) = some r := by
  rw [parse]
  rcases file with _ | ⟨x, _ | ⟨y, l⟩⟩
  · exact ⟨_, rfl⟩
  · exact ⟨_, rfl⟩
  · have hr : Jfif.read (x :: y :: l) 0 2 = some [x, y] := Here.read2 (b := l) ⟨Nat.zero_le _, rfl⟩
    rw [hr]
    have hb : be [x, y] = 256 * x + y := by simp only [be, List.foldl]; omega
    simp only [hb]
    refine ends tiff _ _ _ (h x y · rfl rfl) ?_
    simp only []
    omega

/-- ... and in that case it does not end: the reader tries the same thing again and again. -/
theorem C76_at_end_hangs {D : Type} (tiff : Nat → Option D) (file : List Nat) (st : St D) (hs : st.sym = 0xFFE1)
    (hc : file.length < st.cur + 2) (n : Nat) : run tiff file n st = none := stuck tiff file st hs hc n

theorem first_app1 {D : Type} (tiff : Nat → Option D) (rest : List Nat) (n : Nat) :
    parse tiff ([0xFF, 0xD8, 0xFF, 0xE1] ++ rest) (n + 1) = run tiff ([0xFF, 0xD8, 0xFF, 0xE1] ++ rest) n ⟨2, 0xFFE1, 4, [.soi 0]⟩ := by
  have h0 : Here ([0xFF, 0xD8, 0xFF, 0xE1] ++ rest) 0 (255 :: 0xD8 :: 255 :: 0xE1 :: rest) := ⟨Nat.zero_le _, rfl⟩
  rw [parse, h0.read2]
  simp only [be_ff]
  have h2 : Here ([0xFF, 0xD8, 0xFF, 0xE1] ++ rest) 2 (255 :: 0xE1 :: rest) := h0.cons2
  have : step tiff ([0xFF, 0xD8, 0xFF, 0xE1] ++ rest) ⟨0, 0xFF00 + 0xD8, 2, []⟩ = .next ⟨2, 0xFFE1, 4, [.soi 0]⟩ := by
    rw [step, if_pos rfl, push, if_neg (by simp), if_neg (by simp), h2.read2]
    rfl
  rw [run, this]

theorem hang_of_first {D : Type} (tiff : Nat → Option D) (rest : List Nat)
    (h : ∀ n, run tiff ([0xFF, 0xD8, 0xFF, 0xE1] ++ rest) n ⟨2, 0xFFE1, 4, [.soi 0]⟩ = none) (n : Nat) :
    parse tiff ([0xFF, 0xD8, 0xFF, 0xE1] ++ rest) n = none := by
  cases n with
  | zero =>
    have h0 : Here ([0xFF, 0xD8, 0xFF, 0xE1] ++ rest) 0 (255 :: 0xD8 :: 255 :: 0xE1 :: rest) := ⟨Nat.zero_le _, rfl⟩
    rw [parse, h0.read2]; rfl
  | succ n => rw [first_app1, h]

/-- The claim that reading always ends is false: opening a file of the four bytes FF D8 FF E1 (or five) never ends. -/
theorem C76_four_bytes_hang {D : Type} (tiff : Nat → Option D) (rest : List Nat) (hr : rest.length ≤ 1) :
    ¬opens tiff ([0xFF, 0xD8, 0xFF, 0xE1] ++ rest) := by
  intro h
  obtain ⟨n, r, e⟩ := h rfl
  rw [hang_of_first tiff rest (fun n => stuck tiff _ _ rfl (by simp; omega) n) n] at e
  cases e

/-- Nor does opening an EXIF file that is cut off in or just behind its EXIF part, if the directory there cannot be read. -/
theorem C76_cut_exif_hangs {D : Type} (tiff : Nat → Option D) (len : Nat) (data : List Nat) (h8 : 8 ≤ len)
    (hd : data.length ≤ len - 8 + 1) (ht : tiff 12 = none) :
    ¬opens tiff ([0xFF, 0xD8, 0xFF, 0xE1] ++ (w16 len ++ exifMark ++ data)) := by
  intro h
  obtain ⟨n, r, e⟩ := h rfl
  rw [hang_of_first tiff _ ?_ n] at e
  · cases e
  · intro n
    cases n with
    | zero => rfl
    | succ n =>
      have h4 : Here ([0xFF, 0xD8, 0xFF, 0xE1] ++ (w16 len ++ exifMark ++ data)) 4 (w16 len ++ exifMark ++ data) := ⟨by simp, rfl⟩
      have hs : step tiff ([0xFF, 0xD8, 0xFF, 0xE1] ++ (w16 len ++ exifMark ++ data)) ⟨2, 0xFFE1, 4, [.soi 0]⟩ =
          .next ⟨2, 0xFFE1, 4 + len, [.soi 0]⟩ := by
        have ha : readApp1 tiff ([0xFF, 0xD8, 0xFF, 0xE1] ++ (w16 len ++ exifMark ++ data)) 4 = (fail', 4 + len) := by
          have hr : Jfif.read ([0xFF, 0xD8, 0xFF, 0xE1] ++ (w16 len ++ exifMark ++ data)) 4 2 = some [len / 256, len % 256] :=
            Here.read (a := w16 len) (b := exifMark ++ data) (by simpa only [List.append_assoc] using h4) rfl
          have hm : Jfif.read ([0xFF, 0xD8, 0xFF, 0xE1] ++ (w16 len ++ exifMark ++ data)) (4 + 2) 6 = some exifMark := by
            have : Here ([0xFF, 0xD8, 0xFF, 0xE1] ++ (w16 len ++ exifMark ++ data)) (4 + 2) (exifMark ++ data) :=
              Here.next (a := w16 len) (by simpa only [List.append_assoc] using h4)
            exact this.read rfl
          rw [readApp1, hr]
          simp only [be_w16]
          rw [if_pos (by omega), hm]
          simp only []
          rw [if_pos trivial, ht]
        rw [step, if_neg (by simp), if_neg (by simp), if_neg (by simp), if_pos rfl]
        simp only [ha]
      rw [run, hs]
      exact stuck tiff _ _ rfl (by simp [w16, exifMark]; omega) n

/-- A JFIF thumbnail with more than 85 pixels stops the program (their number is computed in eight bits; without overflow checks too few
bytes are read, and the rest of the thumbnail is taken for further parts). -/
theorem C76_thumbnail_panics {D : Type} (tiff : Nat → Option D) (v u xd yd w h : Nat) (thumb : List Nat) (parts : List Part) (rest : List Nat)
    (hw : (Part.app0 v u xd yd w h thumb).Ok) (hb : 256 ≤ 3 * w * h) :
    ∃ n, parse tiff (file (.app0 v u xd yd w h thumb :: parts) rest) n = some panic' := by
  refine ⟨2, ?_⟩
  have h0 : Here (file (.app0 v u xd yd w h thumb :: parts) rest) 0 (255 :: 0xD8 :: 255 :: 0xE0 ::
      (w16 (16 + thumb.length) ++ jfifMark ++ w16 v ++ [u] ++ w16 xd ++ w16 yd ++ [w, h] ++ (thumb ++ (bytes parts ++ [0xFF, 0xD9] ++ rest)))) := by
    refine ⟨Nat.zero_le _, ?_⟩
    simp [file, bytes, Part.bytes, List.append_assoc]
  generalize (file (.app0 v u xd yd w h thumb :: parts) rest) = f at h0
  have h2 : Here f 2 _ := h0.cons2
  have h4 : Here f 4 _ := h2.cons2
  rw [parse, h0.read2]
  simp only [be_ff]
  have s1 : step tiff f ⟨0, 0xFF00 + 0xD8, 2, []⟩ = .next ⟨2, 0xFFE0, 4, [.soi 0]⟩ := by
    rw [step, if_pos rfl, push, if_neg (by simp), if_neg (by simp), h2.read2]
    rfl
  have s2 : readApp0 f 4 = panic' := by
    simp only [w16, jfifMark, List.append_assoc, List.cons_append, List.nil_append] at h4
    have a1r : Jfif.read f (4 + 2) 5 = some [74, 70, 73, 70, 0] := Here.read (a := [74, 70, 73, 70, 0]) h4.cons2 rfl
    have a2 : Here f (4 + 7) _ := Here.next (a := [74, 70, 73, 70, 0]) h4.cons2
    have a3 : Here f (4 + 9) _ := a2.cons2
    have a4 : Here f (4 + 10) _ := a3.cons
    have a5 : Here f (4 + 12) _ := a4.cons2
    have a6 : Here f (4 + 14) _ := a5.cons2
    have a7 : Here f (4 + 15) _ := a6.cons
    rw [readApp0, h4.read2]
    simp only [must, bind, Except.bind, be_w16]
    rw [if_neg (by omega), a1r]
    simp only []
    rw [if_neg (by simp [jfifMark]), a2.read2]
    simp only [be_w16, a3.read1, a4.read2, a5.read2, a6.read1, a7.read1, be_one, assert', decide_eq_true_eq]
    have e : 3 * w * h = 3 * (w * h) := Nat.mul_assoc 3 w h
    by_cases hwh : w * h < 256
    · rw [if_pos hwh]
      simp only []
      rw [if_pos (by omega), if_neg (by omega)]
    · rw [if_neg hwh]
  rw [run, s1]
  simp only [run]
  rw [step, if_neg (by simp), if_neg (by simp), if_pos rfl, s2]

/-- An `APP1` part with the XMP identifier but a length that does not even cover it stops the program. -/
theorem C76_xmp_length_panics {D : Type} (tiff : Nat → Option D) (len : Nat) (rest : List Nat) (h1 : 29 ≤ len) (h2 : len < 31) :
    ∃ n, parse tiff ([0xFF, 0xD8, 0xFF, 0xE1] ++ (w16 len ++ xmpMark ++ rest)) n = some panic' := by
  refine ⟨2, ?_⟩
  rw [first_app1]
  have h4 : Here ([0xFF, 0xD8, 0xFF, 0xE1] ++ (w16 len ++ xmpMark ++ rest)) 4 (w16 len ++ (xmpMark ++ rest)) := by
    refine ⟨by simp, ?_⟩
    rw [← List.append_assoc]; rfl
  generalize ([0xFF, 0xD8, 0xFF, 0xE1] ++ (w16 len ++ xmpMark ++ rest)) = f at h4
  have h6 : Here f (4 + 2) (xmpMark ++ rest) := h4.next
  have e : (readApp1 tiff f 4).1 = panic' := by
    rw [readApp1, h4.read (a := w16 len) (n := 2) rfl]
    simp only [w16, be_w16]
    rw [if_pos (by omega), h6.readTake (by simp [xmpMark])]
    simp only []
    rw [if_neg (by simp [xmpMark, exifMark]), readXmp, if_pos h1, h6.read (a := xmpMark) (n := 29) rfl]
    simp only []
    rw [if_pos trivial, if_pos h2]
  rw [run, step, if_neg (by simp), if_neg (by simp), if_neg (by simp), if_pos rfl]
  rcases hh : readApp1 tiff f 4 with ⟨r, c⟩
  rw [hh] at e
  simp only at e
  subst e
  simp only

/-- An `APP0` part whose length does not cover its identifier is refused, even if the identifier is there. -/
theorem C76_short_app0 {D : Type} (tiff : Nat → Option D) (len : Nat) (rest : List Nat) (h : len < 5) :
    parse tiff ([0xFF, 0xD8, 0xFF, 0xE0] ++ (w16 len ++ rest)) 2 = some fail' := by
  have h0 : Here ([0xFF, 0xD8, 0xFF, 0xE0] ++ (w16 len ++ rest)) 0 (255 :: 0xD8 :: 255 :: 0xE0 :: (w16 len ++ rest)) := ⟨Nat.zero_le _, rfl⟩
  generalize ([0xFF, 0xD8, 0xFF, 0xE0] ++ (w16 len ++ rest)) = f at h0
  have h2 : Here f 2 _ := h0.cons2
  have h4 : Here f 4 _ := h2.cons2
  have s1 : step tiff f ⟨0, 0xFF00 + 0xD8, 2, []⟩ = .next ⟨2, 0xFFE0, 4, [.soi 0]⟩ := by
    rw [step, if_pos rfl, push, if_neg (by simp), if_neg (by simp), h2.read2]
    rfl
  have s2 : readApp0 f 4 = fail' := by
    rw [readApp0, h4.read (a := w16 len) (n := 2) rfl]
    simp only [must, bind, Except.bind, w16, be_w16]
    rw [if_pos h]
  rw [parse, h0.read2]
  simp only [be_ff]
  rw [run, s1]
  simp only [run]
  rw [step, if_neg (by simp), if_neg (by simp), if_pos rfl, s2]

/-- A file that ends behind one of its parts, without the end marker, is read like a whole one. -/
theorem C76_no_end {D : Type} (tiff : Nat → Option D) (m : Nat) (data : List Nat) (h : m ∉ [0xD8, 0xD9, 0xE0, 0xE1, 0xDA]) :
    parse tiff ([0xFF, 0xD8, 0xFF, m] ++ (w16 (2 + data.length) ++ data)) 2 = some (.ok [.soi 0, .unknown 2 (0xFF00 + m)]) := by
  have hl : ([0xFF, 0xD8, 0xFF, m] ++ (w16 (2 + data.length) ++ data)).length = 6 + data.length := by simp [w16]; omega
  have h0 : Here ([0xFF, 0xD8, 0xFF, m] ++ (w16 (2 + data.length) ++ data)) 0 (255 :: 0xD8 :: 255 :: m :: (w16 (2 + data.length) ++ data)) :=
    ⟨Nat.zero_le _, rfl⟩
  generalize ([0xFF, 0xD8, 0xFF, m] ++ (w16 (2 + data.length) ++ data)) = f at h0 hl
  have h2 : Here f 2 _ := h0.cons2
  have h4 : Here f 4 _ := h2.cons2
  have s1 : step tiff f ⟨0, 0xFF00 + 0xD8, 2, []⟩ = .next ⟨2, 0xFF00 + m, 4, [.soi 0]⟩ := by
    rw [step, if_pos rfl, push, if_neg (by simp), if_neg (by simp), h2.read2]
    simp [be_ff]
  simp only [List.mem_cons, List.not_mem_nil, or_false, not_or] at h
  rw [parse, h0.read2]
  simp only [be_ff]
  rw [run, s1]
  simp only [run]
  rw [step, if_neg (by simp; omega), if_neg (by simp; omega), if_neg (by simp; omega), if_neg (by simp; omega), if_neg (by simp; omega),
    h4.read (a := w16 (2 + data.length)) (n := 2) rfl]
  simp only [w16, be_w16, push]
  rw [if_neg (by simp), if_neg (by omega), Jfif.read, if_neg (by omega)]
  rfl

/-- Bytes of a scan before the first 0xFF are passed over. -/
theorem scan_plain (a l : List Nat) (ha : ∀ x ∈ a, x ≠ 0xFF) (prev p : Nat) (hp : prev ≠ 0xFF) :
    ∃ prev', prev' ≠ 0xFF ∧ scan (a ++ l) prev p = scan l prev' (p + a.length) := by
  induction a generalizing prev p with
  | nil => exact ⟨prev, hp, rfl⟩
  | cons x a ih =>
    obtain ⟨q, hq, e⟩ := ih (fun y hy => ha y (by simp [hy])) x (p + 1) (ha x (by simp))
    refine ⟨q, hq, ?_⟩
    rw [List.cons_append, scan, if_neg (fun h => hp h.1), if_neg (fun h => hp h.1), if_neg (fun h => hp h.1), if_neg hp, e]
    congr 1; simp; omega

/-- A fill byte before the end marker, which JPEG allows: the marker is missed and the file refused. -/
theorem C76_fill_byte {D : Type} (tiff : Nat → Option D) (a : List Nat) (ha : ∀ x ∈ a, x ≠ 0xFF) :
    parse tiff ([0xFF, 0xD8, 0xFF, 0xDA] ++ (a ++ [0xFF, 0xFF, 0xD9])) 2 = some fail' := by
  have h0 : Here ([0xFF, 0xD8, 0xFF, 0xDA] ++ (a ++ [0xFF, 0xFF, 0xD9])) 0 (255 :: 0xD8 :: 255 :: 0xDA :: (a ++ [0xFF, 0xFF, 0xD9])) := ⟨Nat.zero_le _, rfl⟩
  generalize ([0xFF, 0xD8, 0xFF, 0xDA] ++ (a ++ [0xFF, 0xFF, 0xD9])) = f at h0
  have h2 : Here f 2 _ := h0.cons2
  have h4 : Here f 4 _ := h2.cons2
  have s1 : step tiff f ⟨0, 0xFF00 + 0xD8, 2, []⟩ = .next ⟨2, 0xFFDA, 4, [.soi 0]⟩ := by
    rw [step, if_pos rfl, push, if_neg (by simp), if_neg (by simp), h2.read2]
    rfl
  have hs : scan (f.drop 4) 0 4 = none := by
    rw [h4.2]
    obtain ⟨q, hq, e⟩ := scan_plain a [0xFF, 0xFF, 0xD9] ha 0 4 (by simp)
    rw [e]
    simp [scan, hq]
  rw [parse, h0.read2]
  simp only [be_ff]
  rw [run, s1]
  simp only [run]
  rw [step, if_neg (by simp), if_neg (by simp), if_neg (by simp), if_neg (by simp), if_pos rfl, hs]

/-! ## Not vacuous -/

/-- A file with a JFIF part with a thumbnail, an EXIF part, another APP1 part, tables and a scan. -/
example : Good (fun n => if n = 36 then some () else none) 2
    [.app0 0x0101 1 72 72 2 1 [1, 2, 3, 4, 5, 6], .exif [1, 2], .app1 [9, 9, 9, 9], .other 0xDB [0, 1], .scan [.byte 3, .stuffed, .restart 2],
      .xmp [60, 120]] := by
  refine ⟨by simp [Part.Ok], by simp [Small], trivial, by simp [Part.Ok], trivial, by simp [Readable, Part.bytes, w16, jfifMark], ?_, trivial, trivial,
    by simp [Part.Ok], trivial, trivial, ?_, trivial, trivial, by simp [Part.Ok], trivial, trivial, trivial⟩
  · refine ⟨by simp, by decide, by decide, by decide⟩
  · intro p hp; simp at hp; rcases hp with rfl | rfl | rfl <;> decide

/-- A file to which `C76_ends_partial` applies although it is cut off behind the length of its APP1 part. -/
example : ∀ x y s, [0xFF, 0xD8, 0xFF, 0xE1, 0, 2][0]? = some x → [0xFF, 0xD8, 0xFF, 0xE1, 0, 2][1]? = some y →
    Reach (D := Unit) (fun _ => none) [0xFF, 0xD8, 0xFF, 0xE1, 0, 2] ⟨0, 256 * x + y, 2, []⟩ s → s.sym = 0xFFE1 → s.cur + 2 ≤ 6 := by
  intro x y s hx hy hr
  simp at hx hy
  subst hx; subst hy
  suffices h : s = ⟨0, 0xFFD8, 2, []⟩ ∨ s = ⟨2, 0xFFE1, 4, [.soi 0]⟩ by
    rcases h with rfl | rfl <;> simp
  induction hr with
  | refl => exact .inl rfl
  | tail _ h ih =>
    rcases ih with rfl | rfl
    · exact .inr (by cases h; rfl)
    · cases h

end Verif.Props
