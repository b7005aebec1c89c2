import Verif.Spec.Jfif
/-! Lemmas on the JPEG reader. -/

namespace Verif.Jfif
open Verif Verif.Spec.Jfif

variable {D : Type}

/-- `l` lies at position `pos`, and after it comes `t`. -/
def Here (file : List Nat) (pos : Nat) (l : List Nat) : Prop := pos ≤ file.length ∧ file.drop pos = l

theorem Here.next {file a b : List Nat} {pos : Nat} (h : Here file pos (a ++ b)) : Here file (pos + a.length) b := by
  obtain ⟨h1, h2⟩ := h
  have hl : (file.drop pos).length = (a ++ b).length := by rw [h2]
  rw [List.length_drop, List.length_append] at hl
  refine ⟨by omega, ?_⟩
  rw [← List.drop_drop, h2, List.drop_left]

theorem Here.read {file a b : List Nat} {pos n : Nat} (h : Here file pos (a ++ b)) (hn : n = a.length) : read file pos n = some a := by
  obtain ⟨h1, h2⟩ := h
  have hl : (file.drop pos).length = (a ++ b).length := by rw [h2]
  rw [List.length_drop, List.length_append] at hl
  subst hn
  rw [Jfif.read, if_pos (by omega), h2, List.take_left]

theorem Here.cons {file b : List Nat} {pos x : Nat} (h : Here file pos (x :: b)) : Here file (pos + 1) b :=
  Here.next (a := [x]) h

theorem Here.read1 {file b : List Nat} {pos x : Nat} (h : Here file pos (x :: b)) : Jfif.read file pos 1 = some [x] :=
  Here.read (a := [x]) h rfl

theorem Here.cons2 {file b : List Nat} {pos x y : Nat} (h : Here file pos (x :: y :: b)) : Here file (pos + 2) b :=
  Here.next (a := [x, y]) h

theorem Here.read2 {file b : List Nat} {pos x y : Nat} (h : Here file pos (x :: y :: b)) : Jfif.read file pos 2 = some [x, y] :=
  Here.read (a := [x, y]) h rfl

theorem be_w16 (n : Nat) : be [n / 256, n % 256] = n := by simp only [be, List.foldl]; omega

theorem be_one (n : Nat) : be [n] = n := by simp only [be, List.foldl]; omega

theorem be_ff (m : Nat) : be [255, m] = 0xFF00 + m := by simp only [be, List.foldl]

/-- What follows a part: a marker. -/
def Mark (t : List Nat) : Prop := ∃ m r, t = 255 :: m :: r ∧ 1 < m ∧ m < 255 ∧ ¬(0xD0 ≤ m ∧ m < 0xD8)

theorem bytes_mark (ps : List Part) (h : ∀ p ∈ ps, p.Ok) (rest : List Nat) : Mark (bytes ps ++ [0xFF, 0xD9] ++ rest) := by
  cases ps with
  | nil => exact ⟨_, rest, rfl, by omega, by omega, by omega⟩
  | cons p ps =>
    have hp := h p (by simp)
    simp only [bytes, List.flatMap_cons]
    cases p <;> simp only [Part.bytes, List.append_assoc, List.cons_append, List.nil_append]
    case other m d =>
      simp only [Part.Ok] at hp
      exact ⟨_, _, rfl, by omega, by omega, by omega⟩
    all_goals exact ⟨_, _, rfl, by omega, by omega, by omega⟩

theorem scan_byte (b : Nat) (hb : b < 255) (l : List Nat) (prev pos : Nat) (hp : prev ≠ 255) :
    scan (b :: l) prev pos = scan l b (pos + 1) := by
  rw [scan, if_neg (by omega), if_neg (by omega), if_neg (by omega), if_neg (by omega)]

theorem scan_pieces (l : List Piece) (t : List Nat) (h : ∀ p ∈ l, p.Ok) (prev pos : Nat) (hp : prev ≠ 255) :
    ∃ prev', prev' ≠ 255 ∧ scan (l.flatMap Piece.bytes ++ t) prev pos = scan t prev' (pos + (l.flatMap Piece.bytes).length) := by
  induction l generalizing prev pos with
  | nil => exact ⟨prev, hp, rfl⟩
  | cons p ps ih =>
    have ih := ih (fun q hq => h q (by simp [hq]))
    have hk := h p (by simp)
    cases p with
    | byte b =>
      simp only [Piece.Ok] at hk
      obtain ⟨q, hq, e⟩ := ih b (pos + 1) (by omega)
      refine ⟨q, hq, ?_⟩
      simp only [List.flatMap_cons, Piece.bytes, List.cons_append, List.nil_append, List.length_cons]
      rw [scan_byte b hk _ _ _ hp, e]; congr 1; omega
    | stuffed =>
      obtain ⟨q, hq, e⟩ := ih 0 (pos + 2) (by omega)
      refine ⟨q, hq, ?_⟩
      simp only [List.flatMap_cons, Piece.bytes, List.cons_append, List.nil_append, List.length_cons]
      rw [scan, if_neg (by omega), if_neg (by omega), if_neg (by omega), if_neg hp, scan, if_neg (by omega), if_neg (by decide),
        if_pos ⟨rfl, rfl⟩, e]; congr 1; omega
    | restart k =>
      simp only [Piece.Ok] at hk
      obtain ⟨q, hq, e⟩ := ih 0 (pos + 2) (by omega)
      refine ⟨q, hq, ?_⟩
      simp only [List.flatMap_cons, Piece.bytes, List.cons_append, List.nil_append, List.length_cons]
      have hm : (0xD0 + k) &&& 0xF8 = 0xD0 := by
        have : ∀ k : Fin 8, (0xD0 + k.val) &&& 0xF8 = 0xD0 := by decide
        exact this ⟨k, hk⟩
      rw [scan, if_neg (by omega), if_neg (by omega), if_neg (by omega), if_neg hp, scan, if_neg (by omega), if_pos ⟨rfl, hm⟩, e]
      congr 1; omega

theorem and_f8 (m : Nat) (h : m < 256) (hm : ¬(0xD0 ≤ m ∧ m < 0xD8)) : m &&& 0xF8 ≠ 0xD0 := by
  have : ∀ m : Fin 256, ¬(0xD0 ≤ m.val ∧ m.val < 0xD8) → m.val &&& 0xF8 ≠ 0xD0 := by decide +kernel
  exact this ⟨m, h⟩ hm

theorem scan_mark (t : List Nat) (h : Mark t) (prev pos : Nat) (hp : prev ≠ 255) : scan t prev pos = some pos := by
  obtain ⟨m, r, rfl, h1, h2, h3⟩ := h
  rw [scan, if_neg (by omega), if_neg (by omega), if_neg (by omega), if_neg hp, scan, if_neg (by omega),
    if_neg (fun h => and_f8 m (by omega) h3 h.2), if_neg (by omega), if_pos rfl]
  congr 1

theorem push_next (file : List Nat) (st : St D) (seg : Segment D) (cur m : Nat) (r : List Nat) (h : Here file cur (255 :: m :: r))
    (hs : st.segs ≠ []) (hm : st.sym ≠ 0xFFD9) : push file st seg cur = .next ⟨cur, 0xFF00 + m, cur + 2, st.segs ++ [seg]⟩ := by
  rw [push, if_neg (by simp [hs]), if_neg hm, h.read2]
  simp only [be_ff]

theorem readApp0_ok (file : List Nat) (pos v u xd yd w h : Nat) (t tail : List Nat)
    (hw : (Part.app0 v u xd yd w h t).Ok) (hs : 3 * w * h < 256)
    (hh : Here file pos (w16 (16 + t.length) ++ jfifMark ++ w16 v ++ [u] ++ w16 xd ++ w16 yd ++ [w, h] ++ t ++ tail)) :
    readApp0 file pos = .ok (⟨16 + t.length, v, u, xd, yd, w, h, if t = [] then none else some t⟩, pos + 16 + t.length) := by
  obtain ⟨h1, h2, h3, h4, h5, h6, h7, h8⟩ := hw
  simp only [w16, jfifMark, List.append_assoc, List.cons_append, List.nil_append] at hh
  have a0 := hh.read2
  have a1 := hh.cons2
  have a1r : Jfif.read file (pos + 2) 5 = some [74, 70, 73, 70, 0] := Here.read (a := [74, 70, 73, 70, 0]) a1 rfl
  have a2 : Here file (pos + 7) _ := Here.next (a := [74, 70, 73, 70, 0]) a1
  have a2r := a2.read2
  have a3 : Here file (pos + 9) _ := a2.cons2
  have a3r := a3.read1
  have a4 : Here file (pos + 10) _ := a3.cons
  have a4r := a4.read2
  have a5 : Here file (pos + 12) _ := a4.cons2
  have a5r := a5.read2
  have a6 : Here file (pos + 14) _ := a5.cons2
  have a6r := a6.read1
  have a7 : Here file (pos + 15) _ := a6.cons
  have a7r := a7.read1
  have a8 : Here file (pos + 16) _ := a7.cons
  have hwh : w * h < 256 := by
    have : 3 * w * h = 3 * (w * h) := Nat.mul_assoc 3 w h
    omega
  rw [readApp0, a0]
  simp only [must, bind, Except.bind, be_w16]
  rw [if_neg (by omega), a1r]
  simp only []
  rw [if_neg (by simp [jfifMark]), a2r]
  simp only [be_w16, a3r, a4r, a5r, a6r, a7r, be_one, assert', decide_eq_true_eq, if_pos hwh]
  by_cases h0 : 0 < w * h
  · have ht : t ≠ [] := by
      intro e; subst e
      have : 3 * w * h = 3 * (w * h) := Nat.mul_assoc 3 w h
      simp at h7; omega
    rw [if_pos h0, if_pos (by simpa using hs), a8.read (a := t) (b := tail) h7.symm]
    simp only []
    rw [if_neg ht, h7]
  · have ht : t = [] := by
      apply List.length_eq_zero_iff.mp
      have : 3 * w * h = 3 * (w * h) := Nat.mul_assoc 3 w h
      omega
    rw [if_neg h0, if_pos ht, ht]
    rfl

theorem prefix_of_take (l d t : List Nat) (h : (d ++ t).take l.length = l) (hd : l.length ≤ d.length) : l <+: d := by
  rw [List.take_append_of_le_length hd] at h
  have e := List.take_append_drop l.length d
  rw [h] at e
  exact ⟨_, e⟩

/-- Fewer bytes than the mark, then 255: not the mark. -/
theorem not_mark (l d r : List Nat) (hl : ∀ x ∈ l, x ≠ 255) (hd : ¬l <+: d) : (d ++ 255 :: r).take l.length ≠ l := by
  intro e
  by_cases h : l.length ≤ d.length
  · exact hd (prefix_of_take l d _ e h)
  · have : (255 : Nat) ∈ (d ++ 255 :: r).take l.length := by
      rw [List.take_append]
      apply List.mem_append_right
      obtain ⟨k, hk⟩ : ∃ k, l.length - d.length = k + 1 := ⟨l.length - d.length - 1, by omega⟩
      rw [hk, List.take_succ_cons]; simp
    rw [e] at this
    exact hl 255 this rfl

theorem Here.readTake {file l : List Nat} {pos n : Nat} (h : Here file pos l) (hn : n ≤ l.length) : Jfif.read file pos n = some (l.take n) := by
  have : Here file pos (l.take n ++ l.drop n) := by rw [List.take_append_drop]; exact h
  exact this.read (by simp; omega)

theorem readXmp_unknown (file : List Nat) (pos : Nat) (d t : List Nat) (hd : ¬xmpMark <+: d) (ht : Mark t)
    (hh : Here file (pos + 2) (d ++ t)) : readXmp (D := D) file pos (2 + d.length) = (.ok ⟨2 + d.length, .unknown⟩, pos + (2 + d.length)) := by
  obtain ⟨m, r, rfl, _⟩ := ht
  rw [readXmp]
  by_cases h : 29 ≤ 2 + d.length
  · rw [if_pos h, hh.readTake (by simp; omega)]
    simp only []
    rw [if_neg (show (d ++ 255 :: m :: r).take 29 ≠ xmpMark from not_mark xmpMark d (m :: r) (by decide) hd)]
  · rw [if_neg h]

theorem readApp1_unknown (tiff : Nat → Option D) (file : List Nat) (pos : Nat) (d t : List Nat) (hl : d.length < 65534)
    (hd : ¬xmpMark <+: d) (he : ¬exifMark <+: d) (ht : Mark t) (hh : Here file pos (w16 (2 + d.length) ++ d ++ t)) :
    readApp1 tiff file pos = (.ok ⟨2 + d.length, .unknown⟩, pos + (2 + d.length)) := by
  simp only [w16, List.append_assoc, List.cons_append, List.nil_append] at hh
  have h2 := hh.cons2
  have hx := readXmp_unknown (D := D) file pos d t hd ht h2
  rw [readApp1, hh.read2]
  simp only [be_w16]
  by_cases h : 6 ≤ 2 + d.length
  · obtain ⟨m, r, rfl, _⟩ := ht
    rw [if_pos h, h2.readTake (by simp; omega)]
    simp only []
    rw [if_neg (show (d ++ 255 :: m :: r).take 6 ≠ exifMark from not_mark exifMark d (m :: r) (by decide) he), hx]
  · rw [if_neg h, hx]

theorem readApp1_exif (tiff : Nat → Option D) (file : List Nat) (pos : Nat) (d t : List Nat)
    (hh : Here file pos (w16 (8 + d.length) ++ exifMark ++ d ++ t)) :
    readApp1 tiff file pos = ((match tiff (pos + 8) with
      | some ifd => .ok ⟨8 + d.length, .exif ifd⟩
      | none => fail'), pos + (8 + d.length)) := by
  simp only [w16, List.append_assoc, List.cons_append, List.nil_append] at hh
  rw [readApp1, hh.read2]
  simp only [be_w16]
  rw [if_pos (by omega), hh.cons2.read (a := exifMark) (n := 6) rfl]
  simp only []
  rw [if_pos trivial]
  cases tiff (pos + 8) <;> rfl

theorem readApp1_xmp (tiff : Nat → Option D) (file : List Nat) (pos : Nat) (d t : List Nat)
    (hh : Here file pos (w16 (31 + d.length) ++ xmpMark ++ d ++ t)) :
    readApp1 tiff file pos = (.ok ⟨31 + d.length, .xpacket d⟩, pos + (31 + d.length)) := by
  simp only [w16, List.append_assoc, List.cons_append, List.nil_append] at hh
  have h2 := hh.cons2
  have h3 : Here file (pos + 31) (d ++ t) := h2.next
  rw [readApp1, hh.read2]
  simp only [be_w16]
  rw [if_pos (by omega), h2.readTake (by simp [xmpMark])]
  simp only []
  rw [if_neg (by simp [xmpMark, exifMark]), readXmp, if_pos (by omega), h2.read (a := xmpMark) (n := 29) rfl]
  simp only []
  rw [if_pos trivial, if_neg (by omega)]
  by_cases h : 31 + d.length = 31
  · have : d = [] := List.length_eq_zero_iff.mp (by omega)
    rw [if_pos h, this]
  · rw [if_neg h, h3.read (a := d) (by omega)]

/-- A part is read and reported, and the reader is at the next marker. -/
theorem step_part (tiff : Nat → Option D) (file : List Nat) (o : Nat) (p : Part) (t : List Nat) (segs : List (Segment D)) (hs : segs ≠ [])
    (hp : p.Ok) (hsm : Small p) (hr : Readable tiff o p) (m : Nat) (r : List Nat) (ht : t = 255 :: m :: r) (hk : Mark t)
    (hh : Here file o (p.bytes ++ t)) (sym : Nat) (r' : List Nat) (hsym : p.bytes = 255 :: sym :: r') :
    ∃ s, Reported tiff o p s ∧ step tiff file ⟨o, 0xFF00 + sym, o + 2, segs⟩ =
      .next ⟨o + p.bytes.length, 0xFF00 + m, o + p.bytes.length + 2, segs ++ [s]⟩ := by
  have hn : Here file (o + p.bytes.length) (255 :: m :: r) := by rw [← ht]; exact hh.next
  have h2 : Here file (o + 2) (r' ++ t) := by rw [hsym] at hh; exact hh.cons2
  cases p with
  | app0 v u xd yd w h th =>
    simp only [Part.bytes, List.append_assoc, List.cons_append, List.nil_append, List.cons.injEq, true_and] at hsym
    obtain ⟨rfl, rfl⟩ := hsym
    have e := readApp0_ok file (o + 2) v u xd yd w h th t hp hsm
      (by simpa only [List.append_assoc, List.cons_append, List.nil_append] using h2)
    refine ⟨_, rfl, ?_⟩
    rw [step, if_neg (by simp), if_neg (by simp), if_pos (by simp)]
    simp only [e]
    have el : (Part.app0 v u xd yd w h th).bytes.length = 2 + 16 + th.length := by simp [Part.bytes, w16, jfifMark]; omega
    rw [el] at hn ⊢
    have ep : o + 2 + 16 + th.length = o + (2 + 16 + th.length) := by omega
    rw [ep]
    exact push_next file _ _ _ m r hn hs (by simp)
  | exif d =>
    simp only [Part.bytes, List.append_assoc, List.cons_append, List.nil_append, List.cons.injEq, true_and] at hsym
    obtain ⟨rfl, rfl⟩ := hsym
    have e := readApp1_exif tiff file (o + 2) d t (by simpa only [List.append_assoc] using h2)
    simp only [Readable] at hr
    obtain ⟨x, hx⟩ := Option.isSome_iff_exists.mp hr
    have hx' : tiff (o + 2 + 8) = some x := hx
    rw [hx'] at e
    refine ⟨_, ⟨x, hx, rfl⟩, ?_⟩
    rw [step, if_neg (by simp), if_neg (by simp), if_neg (by simp), if_pos (by simp)]
    simp only [e]
    have el : (Part.exif d).bytes.length = 2 + (8 + d.length) := by simp [Part.bytes, w16, exifMark]; omega
    rw [el] at hn ⊢
    have ep : o + 2 + (8 + d.length) = o + (2 + (8 + d.length)) := by omega
    rw [ep]
    exact push_next file _ _ _ m r hn hs (by simp)
  | xmp d =>
    simp only [Part.bytes, List.append_assoc, List.cons_append, List.nil_append, List.cons.injEq, true_and] at hsym
    obtain ⟨rfl, rfl⟩ := hsym
    have e := readApp1_xmp tiff file (o + 2) d t (by simpa only [List.append_assoc] using h2)
    refine ⟨_, rfl, ?_⟩
    rw [step, if_neg (by simp), if_neg (by simp), if_neg (by simp), if_pos (by simp)]
    simp only [e]
    have el : (Part.xmp d).bytes.length = 2 + (31 + d.length) := by simp [Part.bytes, w16, xmpMark]; omega
    rw [el] at hn ⊢
    have ep : o + 2 + (31 + d.length) = o + (2 + (31 + d.length)) := by omega
    rw [ep]
    exact push_next file _ _ _ m r hn hs (by simp)
  | app1 d =>
    simp only [Part.bytes, List.append_assoc, List.cons_append, List.nil_append, List.cons.injEq, true_and] at hsym
    obtain ⟨rfl, rfl⟩ := hsym
    obtain ⟨q1, q2, q3, _⟩ := hp
    have e := readApp1_unknown tiff file (o + 2) d t q1 q3 q2 hk (by simpa only [List.append_assoc] using h2)
    refine ⟨_, rfl, ?_⟩
    rw [step, if_neg (by simp), if_neg (by simp), if_neg (by simp), if_pos (by simp)]
    simp only [e]
    have el : (Part.app1 d).bytes.length = 2 + (2 + d.length) := by simp [Part.bytes, w16]; omega
    rw [el] at hn ⊢
    have ep : o + 2 + (2 + d.length) = o + (2 + (2 + d.length)) := by omega
    rw [ep]
    exact push_next file _ _ _ m r hn hs (by simp)
  | scan l =>
    simp only [Part.bytes, List.cons_append, List.nil_append, List.cons.injEq, true_and] at hsym
    obtain ⟨rfl, rfl⟩ := hsym
    obtain ⟨q, hq, e⟩ := scan_pieces l t hp 0 (o + 2) (by omega)
    rw [scan_mark t hk q _ hq] at e
    refine ⟨_, rfl, ?_⟩
    rw [step, if_neg (by simp), if_neg (by simp), if_neg (by simp), if_neg (by simp), if_pos (by simp)]
    simp only [h2.2, e]
    have el : (Part.scan l).bytes.length = 2 + (l.flatMap Piece.bytes).length := by simp [Part.bytes]; omega
    rw [el] at hn ⊢
    have ep : o + 2 + (l.flatMap Piece.bytes).length = o + (2 + (l.flatMap Piece.bytes).length) := by omega
    have ed : o + (2 + (l.flatMap Piece.bytes).length) - (o + 2) = (l.flatMap Piece.bytes).length := by omega
    rw [ep, ed]
    exact push_next file _ _ _ m r hn hs (by simp)
  | other k d =>
    simp only [Part.bytes, List.cons_append, List.nil_append, List.cons.injEq, true_and] at hsym
    obtain ⟨rfl, rfl⟩ := hsym
    simp only [Part.Ok] at hp
    simp only [w16, List.append_assoc, List.cons_append, List.nil_append] at h2
    refine ⟨_, rfl, ?_⟩
    rw [step, if_neg (by simp; omega), if_neg (by simp; omega), if_neg (by simp; omega), if_neg (by simp; omega), if_neg (by simp; omega)]
    simp only [h2.read2, be_w16]
    have el : (Part.other k d).bytes.length = 2 + (2 + d.length) := by simp [Part.bytes, w16]; omega
    rw [el] at hn ⊢
    have ep : o + 2 + 2 + (2 + d.length) - 2 = o + (2 + (2 + d.length)) := by omega
    rw [ep]
    exact push_next file _ _ _ m r hn hs (by simp; omega)

theorem good_ok (tiff : Nat → Option D) (o : Nat) (ps : List Part) (h : Good tiff o ps) : ∀ p ∈ ps, p.Ok := by
  induction ps generalizing o with
  | nil => intro p hp; cases hp
  | cons q qs ih =>
    intro p hp
    rcases List.mem_cons.mp hp with rfl | hp
    · exact h.1
    · exact ih _ h.2.2.2 p hp

theorem bytes_head (p : Part) : ∃ s r, p.bytes = 255 :: s :: r := by
  cases p <;> simp only [Part.bytes, List.append_assoc, List.cons_append, List.nil_append] <;> exact ⟨_, _, rfl⟩

theorem run_parts (tiff : Nat → Option D) (file : List Nat) (ps : List Part) (rest : List Nat) (o : Nat) (segs : List (Segment D))
    (hs : segs ≠ []) (hg : Good tiff o ps) (m : Nat) (r : List Nat) (hm : bytes ps ++ [0xFF, 0xD9] ++ rest = 255 :: m :: r)
    (hh : Here file o (bytes ps ++ [0xFF, 0xD9] ++ rest)) :
    ∃ l, ReportedAll tiff o ps l ∧ run tiff file (ps.length + 1) ⟨o, 0xFF00 + m, o + 2, segs⟩ = some (.ok (segs ++ l)) := by
  induction ps generalizing o segs m r with
  | nil =>
    simp only [bytes, List.flatMap_nil, List.nil_append, List.cons_append, List.cons.injEq, true_and] at hm
    obtain ⟨rfl, rfl⟩ := hm
    refine ⟨[.eoi], rfl, ?_⟩
    simp [run, step, push, hs]
  | cons p ps ih =>
    obtain ⟨g1, g2, g3, g4⟩ := hg
    have hok := good_ok tiff _ ps g4
    have hk := bytes_mark ps hok rest
    obtain ⟨m', r', e', -⟩ := id hk
    obtain ⟨s, r'', es⟩ := bytes_head p
    have eb : bytes (p :: ps) ++ [0xFF, 0xD9] ++ rest = p.bytes ++ (bytes ps ++ [0xFF, 0xD9] ++ rest) := by
      simp [bytes, List.append_assoc]
    rw [eb] at hm hh
    have hsm : s = m := by
      rw [es] at hm
      simp only [List.cons_append, List.cons.injEq, true_and] at hm
      exact hm.1
    obtain ⟨seg, hseg, hstep⟩ := step_part tiff file o p _ segs hs g1 g2 g3 m' r' e' hk hh s r'' es
    obtain ⟨l, hl, hrun⟩ := ih (o + p.bytes.length) (segs ++ [seg]) (by simp) g4 m' r' e' hh.next
    refine ⟨seg :: l, ⟨hseg, hl⟩, ?_⟩
    rw [← hsm]
    show (match step tiff file _ with | .next s => run tiff file (ps.length + 1) s | .done r => some r) = _
    rw [hstep]
    simp only [hrun, List.append_assoc, List.cons_append, List.nil_append]

theorem parse_file (tiff : Nat → Option D) (ps : List Part) (rest : List Nat) (hg : Good tiff 2 ps) :
    ∃ l, ReportedAll tiff 2 ps l ∧ parse tiff (Spec.Jfif.file ps rest) (ps.length + 2) = some (.ok (.soi 0 :: l)) := by
  have h0 : Here (Spec.Jfif.file ps rest) 0 (255 :: 0xD8 :: (bytes ps ++ [0xFF, 0xD9] ++ rest)) := by
    refine ⟨Nat.zero_le _, ?_⟩
    simp [Spec.Jfif.file, List.append_assoc]
  have h2 : Here (Spec.Jfif.file ps rest) 2 _ := h0.cons2
  obtain ⟨m, r, e, -⟩ := bytes_mark ps (good_ok tiff 2 ps hg) rest
  obtain ⟨l, hl, hrun⟩ := run_parts tiff _ ps rest 2 [.soi 0] (by simp) hg m r e h2
  refine ⟨l, hl, ?_⟩
  rw [parse, h0.read2]
  simp only [be_ff]
  show (match step tiff _ _ with | .next s => run tiff _ (ps.length + 1) s | .done r => some r) = _
  have hst : step tiff (Spec.Jfif.file ps rest) ⟨0, 0xFF00 + 0xD8, 2, []⟩ = .next ⟨2, 0xFF00 + m, 4, [.soi 0]⟩ := by
    rw [e] at h2
    simp [step, push, h2.read2, be_ff]
  rw [hst]
  exact hrun

/-! ## Ending -/

/-- Stuck: an `APP1` segment is to be read at the end of the file. -/
theorem stuck (tiff : Nat → Option D) (file : List Nat) (st : St D) (hs : st.sym = 0xFFE1) (hc : file.length < st.cur + 2) (n : Nat) :
    run tiff file n st = none := by
  induction n generalizing st with
  | zero => rfl
  | succ n ih =>
    have hr : Jfif.read file st.cur 2 = none := by rw [Jfif.read, if_neg (by omega)]
    have : step tiff file st = .next { st with cur := file.length } := by
      rw [step, if_neg (by omega), if_neg (by omega), if_neg (by omega), if_pos hs, readApp1, hr]
    rw [run, this]
    exact ih _ hs (by simp)

theorem read_some {file l : List Nat} {pos n : Nat} (h : Jfif.read file pos n = some l) : pos + n ≤ file.length := by
  rw [Jfif.read] at h
  split at h
  · assumption
  · cases h

theorem scan_ge (l : List Nat) (prev p q : Nat) (h : scan l prev p = some q) : p ≤ q + 1 ∧ (prev ≠ 255 → p ≤ q) := by
  induction l generalizing prev p with
  | nil => simp [scan] at h
  | cons v l ih =>
    rw [scan] at h
    split at h
    · have := ih _ _ h; omega
    · split at h
      · have := ih _ _ h; omega
      · split at h
        · have := ih _ _ h; omega
        · split at h
          · cases h; omega
          · have := ih _ _ h; omega

theorem push_cases (file : List Nat) (st : St D) (seg : Segment D) (cur : Nat) (s : St D) (h : push file st seg cur = .next s) :
    s.cur = cur + 2 ∧ cur + 2 ≤ file.length := by
  rw [push] at h
  split at h
  · cases h
  · split at h
    · cases h
    · split at h
      · rename_i hr
        cases h
        exact ⟨rfl, read_some hr⟩
      · cases h

theorem readApp0_ge (file : List Nat) (pos : Nat) (a : App0) (c : Nat) (h : readApp0 file pos = .ok (a, c)) : pos ≤ c := by
  simp only [readApp0, must, bind, Except.bind, assert'] at h
  repeat' split at h
  all_goals first | (cases h; done) | (cases h; omega)

theorem readXmp_ge (file : List Nat) (pos len : Nat) (r : R (App1 D)) (c : Nat) (h : readXmp file pos len = (r, c))
    (hp : pos + 2 ≤ file.length) : pos ≤ c ∧ ((∀ a, r ≠ .ok a) → pos + 2 ≤ c) := by
  simp only [readXmp] at h
  repeat' split at h
  all_goals (cases h; refine ⟨by omega, fun hr => ?_⟩; first | omega | exact absurd rfl (hr _))

theorem readApp1_ge (tiff : Nat → Option D) (file : List Nat) (pos : Nat) (r : R (App1 D)) (c : Nat) (h : readApp1 tiff file pos = (r, c))
    (hp : pos + 2 ≤ file.length) : pos ≤ c ∧ ((∀ a, r ≠ .ok a) → pos + 2 ≤ c) := by
  have hr : Jfif.read file pos 2 = some ((file.drop pos).take 2) := by rw [Jfif.read, if_pos hp]
  rw [readApp1, hr] at h
  simp only [] at h
  split at h
  · split at h
    · cases h; exact ⟨by omega, fun _ => by omega⟩
    · split at h
      · split at h
        · cases h; exact ⟨by omega, fun hr => absurd rfl (hr _)⟩
        · cases h; exact ⟨by omega, fun _ => by omega⟩
      · exact readXmp_ge _ _ _ _ _ h hp
  · exact readXmp_ge _ _ _ _ _ h hp

/-- Every turn that does not end moves the reader ahead by two bytes, unless an `APP1` segment is to be read at the end of the file. -/
theorem step_moves (tiff : Nat → Option D) (file : List Nat) (st s : St D) (h : step tiff file st = .next s)
    (hc : st.sym = 0xFFE1 → st.cur + 2 ≤ file.length) : st.cur + 2 ≤ s.cur := by
  rw [step] at h
  split at h
  · have := push_cases _ _ _ _ _ h; omega
  · split at h
    · have := push_cases _ _ _ _ _ h; omega
    · split at h
      · split at h
        · rename_i e
          have := push_cases _ _ _ _ _ h
          have := readApp0_ge _ _ _ _ e
          omega
        · cases h
      · split at h
        · rename_i hs
          split at h
          · rename_i e
            have := push_cases _ _ _ _ _ h
            have := readApp1_ge _ _ _ _ _ e (hc hs)
            omega
          · rename_i e
            have := (readApp1_ge _ _ _ _ _ e (hc hs)).2 (fun a h => by cases h)
            cases h
            exact this
          · cases h
        · split at h
          · split at h
            · rename_i e
              have := push_cases _ _ _ _ _ h
              have := (scan_ge _ _ _ _ e).2 (by omega)
              omega
            · cases h
          · split at h
            · have := push_cases _ _ _ _ _ h
              omega
            · cases h

/-- States the loop reaches. -/
inductive Reach (tiff : Nat → Option D) (file : List Nat) (st : St D) : St D → Prop where
  | refl : Reach tiff file st st
  | tail {a b : St D} : Reach tiff file st a → step tiff file a = .next b → Reach tiff file st b

theorem step_end (tiff : Nat → Option D) (file : List Nat) (st : St D) (hc : file.length < st.cur) (hs : st.sym ≠ 0xFFE1) :
    ∃ r, step tiff file st = .done r := by
  have hp : ∀ seg c, file.length < c + 2 → ∃ r, push file st seg c = .done r := by
    intro seg c h
    rw [push]
    split
    · exact ⟨_, rfl⟩
    · split
      · exact ⟨_, rfl⟩
      · rw [Jfif.read, if_neg (by omega)]; exact ⟨_, rfl⟩
  rw [step]
  split
  · exact hp _ _ (by omega)
  · split
    · exact hp _ _ (by omega)
    · split
      · split
        · rename_i e
          exact hp _ _ (by have := readApp0_ge _ _ _ _ e; omega)
        · exact ⟨_, rfl⟩
      · split
        · split
          · rename_i e
            exact hp _ _ (by have := (scan_ge _ _ _ _ e).2 (by omega); omega)
          · exact ⟨_, rfl⟩
        · split
          · exact hp _ _ (by omega)
          · exact ⟨_, rfl⟩

theorem ends (tiff : Nat → Option D) (file : List Nat) (n : Nat) (st : St D)
    (hst : ∀ s, Reach tiff file st s → s.sym = 0xFFE1 → s.cur + 2 ≤ file.length) (hn : file.length < st.cur + 2 * n) :
    ∃ r, run tiff file (n + 1) st = some r := by
  induction n generalizing st with
  | zero =>
    have hs : st.sym ≠ 0xFFE1 := fun h => by have := hst st .refl h; omega
    obtain ⟨r, hr⟩ := step_end tiff file st (by omega) hs
    exact ⟨r, by rw [run, hr]⟩
  | succ n ih =>
    rw [run]
    cases he : step tiff file st with
    | done r => exact ⟨r, rfl⟩
    | next s =>
      have hm := step_moves tiff file st s he (hst st .refl)
      refine ih s (fun q hq => hst q ?_) (by omega)
      clear ih hn hm
      induction hq with
      | refl => exact .tail .refl he
      | tail _ h2 ih => exact .tail ih h2

end Verif.Jfif
