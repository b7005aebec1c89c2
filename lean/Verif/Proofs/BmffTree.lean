import Verif.Proofs.BmffBox
/-! # Helper lemmas for C68: box trees -/

namespace Verif.Bmff
open Verif.BmffSpec

theorem known_inside (c : Kind) : known c = (inside c).map (fun k => (code k, k)) := by
  cases c <;> decide

theorem lookup_code (c : Kind) : ∀ k ∈ inside c, (known c).lookup (code k) = some k := by
  cases c <;> decide

theorem parent_container (k : Kind) : container k = parent k := by cases k <;> rfl
theorem needed_required (k : Kind) : required k = needed k := by cases k <;> rfl
theorem inside_kinds (c : Kind) : ∀ k ∈ inside c, k ≠ .vendor ∧ k ≠ .xpacket ∧ k ≠ .cr3desc := by cases c <;> decide

theorem lookup_none {l : List Kind} {t : Nat} (h : t ∉ l.map code) : (l.map (fun k => (code k, k))).lookup t = none := by
  induction l with
  | nil => rfl
  | cons x l ih =>
    rw [List.map_cons, List.mem_cons] at h
    rw [List.map_cons, List.lookup_cons]
    have : (t == code x) = false := by
      rw [beq_eq_false_iff_ne]; exact fun e => h (Or.inl e)
    rw [this]
    exact ih (fun h' => h (Or.inr h'))

theorem act_place {c k : Kind} {typ : Nat} {uuid : Option Nat} {wide : Bool} {ct : Content} {kids : List Tree}
    {tail : List Nat} (h : Place c (.mk k typ uuid wide ct kids tail)) (n off hl : Nat) :
    act c ⟨n, typ, uuid, off, hl⟩ = .read k := by
  obtain ⟨-, hu, -, h⟩ := h
  have gen : k ∈ inside c → typ = code k → act c ⟨n, typ, uuid, off, hl⟩ = .read k := by
    intro h1 h2
    subst h2
    unfold act
    simp only [lookup_code c k h1]
  by_cases hv : k = .vendor
  · subst hv
    obtain ⟨h1, h2, h3, h4⟩ := h
    have hn : (known c).lookup typ = none := by rw [known_inside]; exact lookup_none h2
    unfold act
    simp only [hn]
    cases c <;> first | (exact absurd h1 (by decide)) | skip
    · exact if_neg (h3 rfl)
    · simp only [h4 rfl]
    all_goals rfl
  by_cases hx : k = .xpacket
  · subst hx
    obtain ⟨rfl, rfl⟩ := h
    have ht : typ = four 'u' 'u' 'i' 'd' := hu.1 rfl
    subst ht
    have hn : (known .file).lookup (four 'u' 'u' 'i' 'd') = none := by decide
    unfold act
    simp only [hn]
    exact if_pos (by decide)
  by_cases hd : k = .cr3desc
  · subst hd
    obtain ⟨rfl, rfl⟩ := h
    have ht : typ = four 'u' 'u' 'i' 'd' := hu.1 rfl
    subst ht
    have hn : (known .moov).lookup (four 'u' 'u' 'i' 'd') = none := by decide
    unfold act
    simp only [hn]
    exact if_pos (by decide)
  · cases k <;> first | exact gen h.1 h.2 | exact absurd rfl hv | exact absurd rfl hx | exact absurd rfl hd

theorem seen_kind (t : Tree) (off : Nat) : (t.seen off).kind = t.kind := by cases t; rfl

theorem has_seen {r : Kind} {ts : List Tree} (h : ∃ t ∈ ts, t.kind = r) : ∀ off, has r (seenAll off ts) = true := by
  induction ts with
  | nil => obtain ⟨t, ht, -⟩ := h; cases ht
  | cons x ts ih =>
    intro off
    rw [seenAll, has, List.any_cons, Bool.or_eq_true]
    obtain ⟨t, ht, hk⟩ := h
    rcases List.mem_cons.1 ht with rfl | ht
    · left; rw [seen_kind, decide_eq_true_eq]; exact hk
    · right; exact ih ⟨t, ht, hk⟩ _

theorem has_false {k : Kind} {acc : List PBox} (h : (acc.filter (fun b => b.kind = k)).length = 0) : has k acc = false := by
  rw [has, Bool.eq_false_iff, ne_eq, List.any_eq_true]
  rintro ⟨b, hb, hk⟩
  have : b ∈ acc.filter (fun b => b.kind = k) := List.mem_filter.2 ⟨hb, hk⟩
  rw [List.length_eq_zero_iff.1 h] at this
  cases this

theorem length_bytes (k : Kind) (typ : Nat) (uuid : Option Nat) (wide : Bool) (c : Content) (kids : List Tree)
    (tail : List Nat) : (Tree.mk k typ uuid wide c kids tail).bytes.length
      = headLen uuid wide + (beAll c.nums).length + ((bytesAll kids).length + tail.length) := by
  rw [Tree.bytes]
  simp only [List.length_append, length_headBytes]
  omega

theorem headLen_ge (uuid : Option Nat) (wide : Bool) : 8 ≤ headLen uuid wide := by unfold headLen; omega

theorem length_bytes_ge (t : Tree) : 8 ≤ t.bytes.length := by
  cases t
  rw [length_bytes]
  have := headLen_ge (by assumption) (by assumption)
  rename_i k typ uuid wide c kids tail
  have := headLen_ge uuid wide
  omega

mutual
/-- Reading a well-formed box where it stands. -/
theorem read_tree {tiff : List Nat → R Unit} {tOk : List Nat → Prop} (hT : ∀ l, tOk l → tiff l = .ok ()) {buf : List Nat} :
    (t : Tree) → (c : Kind) → (pos n : Nat) → Good tOk c t → At buf pos t.bytes → pos + t.bytes.length < 2 ^ 64 →
    t.bytes.length ≤ n →
    ∃ p, parseHdr buf pos = .ok ((t.seen pos).hdr, p) ∧ act c (t.seen pos).hdr = .read t.kind ∧
      readWith buf tiff (fun c e q => scan buf tiff n c e q []) t.kind (t.seen pos).hdr p
        = some (.ok (t.seen pos, pos + t.bytes.length))
  | .mk k typ uuid wide ct kids tail, c, pos, n, hg, hat, hb, hn => by
    obtain ⟨hpl, hsu, hfit, htl, hneed, hsing, htiff, hw, hkids⟩ := hg
    have hpl' := hpl
    obtain ⟨ht, hu, hu', -⟩ := hpl'
    have hlen := length_bytes k typ uuid wide ct kids tail
    have h8 := headLen_ge uuid wide
    have hat' := hat
    rw [Tree.bytes] at hat'
    have hl2 : headLen uuid wide + (beAll ct.nums ++ (bytesAll kids ++ tail)).length
        = (Tree.mk k typ uuid wide ct kids tail).bytes.length := by
      rw [hlen]; simp only [List.length_append]; omega
    simp only [hl2] at hat'
    have a1 := hat'.left
    have a2 := hat'.right
    rw [length_headBytes] at a2
    refine ⟨pos + headLen uuid wide, ?_, ?_, ?_⟩
    · exact parseHdr_at a1 ht hu hu' (by omega) hw (by omega)
    · exact act_place hpl _ _ _
    · have hfields := fields_at (buf := buf) (k := k) (rest := (bytesAll kids).length + tail.length)
        (h := ⟨(Tree.mk k typ uuid wide ct kids tail).bytes.length, typ, uuid, pos, headLen uuid wide⟩) ct hsu hfit
        a2.left hlen (by
          intro hc hta
          rw [parent_container] at hc
          rw [hc] at htl
          have hk0 : kids = [] := htl
          rw [hk0, hta]; rfl) hb
      have hend := endOff_ok
        (h := ⟨(Tree.mk k typ uuid wide ct kids tail).bytes.length, typ, uuid, pos, headLen uuid wide⟩) hb
      show readWith buf tiff _ k ⟨(Tree.mk k typ uuid wide ct kids tail).bytes.length, typ, uuid, pos, headLen uuid wide⟩
        (pos + headLen uuid wide) = _
      have hloop : (if container k then scan buf tiff n k (pos + (Tree.mk k typ uuid wide ct kids tail).bytes.length)
          (pos + headLen uuid wide + (beAll ct.nums).length) []
          else some (.ok ([], pos + headLen uuid wide + (beAll ct.nums).length)))
          = some (.ok (seenAll (pos + headLen uuid wide + (beAll ct.nums).length) kids,
            if container k then pos + (Tree.mk k typ uuid wide ct kids tail).bytes.length
              else pos + headLen uuid wide + (beAll ct.nums).length)) := by
        rw [parent_container]
        cases hp : parent k with
        | false =>
          rw [hp] at htl
          have hk0 : kids = [] := htl
          rw [hk0]; rfl
        | true =>
          rw [hp] at htl
          have ht0 : tail = [] := htl
          rw [if_pos rfl, if_pos rfl]
          have hl3 : pos + (Tree.mk k typ uuid wide ct kids tail).bytes.length
              = pos + headLen uuid wide + (beAll ct.nums).length + (bytesAll kids).length := by
            rw [hlen, ht0, List.length_nil]; omega
          have := scan_all hT kids k (pos + headLen uuid wide + (beAll ct.nums).length) n [] hkids
            (a2.right.left) (by omega) (by omega) (by
              intro hk j hj
              have := hsing hk j hj
              rw [List.filter_nil, List.length_nil]; omega)
          rw [← hl3] at this
          exact this
      unfold readWith
      rw [hfields]
      simp only [hend]
      simp only [hloop]
      have hreq : (required k).all (fun r => has r (seenAll (pos + headLen uuid wide + (beAll ct.nums).length) kids)) = true := by
        rw [List.all_eq_true, needed_required]
        intro r hr
        exact has_seen (hneed r hr) _
      rw [if_pos hreq]
      have hcmt : (if isCmt k then tiff ct.vals else .ok ()) = .ok () := by
        by_cases hk : isCmt k = true
        · rw [if_pos hk]
          refine hT _ (htiff ?_)
          cases k <;> first | (exact absurd hk (by decide)) | decide
        · rw [if_neg hk]
      rw [hcmt]
      rfl
/-- Reading well-formed boxes in a row. -/
theorem scan_all {tiff : List Nat → R Unit} {tOk : List Nat → Prop} (hT : ∀ l, tOk l → tiff l = .ok ()) {buf : List Nat} :
    (ts : List Tree) → (c : Kind) → (pos n : Nat) → (acc : List PBox) → GoodAll tOk c ts → At buf pos (bytesAll ts) →
    pos + (bytesAll ts).length < 2 ^ 64 → (bytesAll ts).length < n →
    (c = .stsd → ∀ j, j = .craw ∨ j = .ctmd →
      (acc.filter (fun b => b.kind = j)).length + (ts.filter (fun t => t.kind = j)).length ≤ 1) →
    scan buf tiff n c (pos + (bytesAll ts).length) pos acc = some (.ok (acc ++ seenAll pos ts, pos + (bytesAll ts).length))
  | [], c, pos, n, acc, _, _, _, hn, _ => by
    cases n with
    | zero => exact absurd hn (Nat.not_lt_zero _)
    | succ n =>
      rw [scan, if_neg (by show ¬ pos < pos + 0; omega), seenAll, List.append_nil]
      rfl
  | t :: ts, c, pos, n, acc, hg, hat, hb, hn, hs => by
    cases n with
    | zero => exact absurd hn (Nat.not_lt_zero _)
    | succ n =>
      obtain ⟨hg1, hg2⟩ := hg
      have h8 := length_bytes_ge t
      have hl : (bytesAll (t :: ts)).length = t.bytes.length + (bytesAll ts).length := by
        rw [bytesAll, List.length_append]
      rw [bytesAll] at hat
      rw [hl] at hb hn ⊢
      obtain ⟨p, e1, e2, e3⟩ := read_tree hT t c pos n hg1 hat.left (by omega) (by omega)
      have e4 := scan_all hT ts c (pos + t.bytes.length) n (acc ++ [t.seen pos]) hg2 hat.right (by omega) (by omega) (by
        intro hc j hj
        have := hs hc j hj
        rw [List.filter_append, List.length_append]
        by_cases hk : t.kind = j
        · rw [List.filter_cons_of_pos (by rw [decide_eq_true_eq]; exact hk), List.length_cons] at this
          rw [List.filter_cons_of_pos (by rw [decide_eq_true_eq, seen_kind]; exact hk), List.filter_nil, List.length_singleton]
          omega
        · rw [List.filter_cons_of_neg (by rw [decide_eq_true_eq]; exact hk)] at this
          rw [List.filter_cons_of_neg (by rw [decide_eq_true_eq, seen_kind]; exact hk), List.filter_nil, List.length_nil]
          omega)
      rw [scan, if_pos (by omega)]
      simp only [e1, e2]
      have hno : ¬ (c = .stsd ∧ t.kind ≠ .vendor ∧ has t.kind acc = true) := by
        rintro ⟨rfl, hv, hh⟩
        have hj : t.kind = .craw ∨ t.kind = .ctmd := by
          cases t with
          | mk k typ uuid wide ct kids tail =>
            obtain ⟨⟨-, -, -, h⟩, -⟩ := hg1
            show k = _ ∨ k = _
            have hv' : k ≠ .vendor := hv
            clear hs hh e1 e2 e3 e4
            cases k <;> first
              | exact Or.inl rfl
              | exact Or.inr rfl
              | exact absurd rfl hv'
              | exact absurd h.1 (by decide)
        have := hs rfl _ hj
        rw [List.filter_cons_of_pos (by rw [decide_eq_true_eq]), List.length_cons] at this
        rw [has_false (by omega)] at hh
        cases hh
      rw [if_neg hno]
      simp only [e3]
      rw [if_neg (by rintro ⟨-, h⟩; omega), Nat.add_assoc pos] at *
      rw [e4, seenAll]
      simp
end

end Verif.Bmff
