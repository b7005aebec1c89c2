import Verif.Spec.Ftp
/-! # Lemmas for the FTP server -/

namespace Verif.Ftp
open Verif Verif.Path

/-! ## Framing -/

theorem findCrlf_cons (c : Nat) (r : List Nat) (h : ∀ t, ¬ (c = 13 ∧ r = 10 :: t)) : findCrlf (c :: r) = (findCrlf r).map (· + 1) := by
  rw [findCrlf]
  intro t e1 e2
  exact h t ⟨e1, e2⟩

theorem findCrlf_spec {a : List Nat} {i : Nat} (h : findCrlf a = some i) : ∃ t, a.drop i = 13 :: 10 :: t := by
  induction a generalizing i with
  | nil => simp [findCrlf] at h
  | cons c r ih =>
    by_cases hc : ∃ t, c = 13 ∧ r = 10 :: t
    · obtain ⟨t, rfl, rfl⟩ := hc
      simp only [findCrlf, Option.some.injEq] at h
      subst h
      exact ⟨t, rfl⟩
    · rw [findCrlf_cons c r fun t ht => hc ⟨t, ht⟩] at h
      cases hr : findCrlf r with
      | none => rw [hr] at h; cases h
      | some j =>
        rw [hr] at h
        simp only [Option.map_some, Option.some.injEq] at h
        subst h
        exact ih hr

theorem findCrlf_append {a : List Nat} {i : Nat} (h : findCrlf a = some i) (b : List Nat) : findCrlf (a ++ b) = some i := by
  induction a generalizing i with
  | nil => simp [findCrlf] at h
  | cons c r ih =>
    by_cases hc : ∃ t, c = 13 ∧ r = 10 :: t
    · obtain ⟨t, rfl, rfl⟩ := hc
      simpa [findCrlf] using h
    · rw [findCrlf_cons c r fun t ht => hc ⟨t, ht⟩] at h
      cases hr : findCrlf r with
      | none => rw [hr] at h; cases h
      | some j =>
        rw [List.cons_append, findCrlf_cons c (r ++ b), ih hr, ← hr]
        · exact h
        · rintro t ⟨rfl, ht⟩
          cases r with
          | nil => simp [findCrlf] at hr
          | cons x r =>
            simp only [List.cons_append, List.cons.injEq] at ht
            exact hc ⟨r, rfl, by rw [ht.1]⟩

theorem crlf_len {a : List Nat} {i : Nat} (h : findCrlf a = some i) : i + 2 ≤ a.length := by
  obtain ⟨t, ht⟩ := findCrlf_spec h
  have := congrArg List.length ht
  simp only [List.length_drop, List.length_cons] at this
  omega

theorem decode_append {a : List Nat} {r : R Cmd} {rest : List Nat} (h : decode a = some (r, rest)) (b : List Nat) : decode (a ++ b) = some (r, rest ++ b) := by
  unfold decode at h ⊢
  cases hf : findCrlf a with
  | none => rw [hf] at h; cases h
  | some i =>
    rw [hf] at h
    rw [findCrlf_append hf b]
    have := crlf_len hf
    simp only [Option.some.injEq, Prod.mk.injEq] at h ⊢
    exact ⟨by rw [← h.1, List.take_append_of_le_length (by omega)], by rw [← h.2, List.drop_append_of_le_length (by omega)]⟩

theorem decode_len {a : List Nat} {r : R Cmd} {rest : List Nat} (h : decode a = some (r, rest)) : rest.length + 2 ≤ a.length := by
  unfold decode at h
  cases hf : findCrlf a with
  | none => rw [hf] at h; cases h
  | some i =>
    rw [hf] at h
    have := crlf_len hf
    simp only [Option.some.injEq, Prod.mk.injEq] at h
    rw [← h.2, List.length_drop]
    omega

theorem drain_fuel {f g : Nat} {a : List Nat} (hf : a.length ≤ f) (hg : a.length ≤ g) : drain f a = drain g a := by
  induction f generalizing g a with
  | zero =>
    have : a = [] := List.eq_nil_of_length_eq_zero (by omega)
    subst this
    cases g <;> rfl
  | succ f ih =>
    cases g with
    | zero =>
      have : a = [] := List.eq_nil_of_length_eq_zero (by omega)
      subst this
      rfl
    | succ g =>
      unfold drain
      cases hd : decode a with
      | none => rfl
      | some p =>
        obtain ⟨r, rest⟩ := p
        have := decode_len hd
        cases r with
        | error e => rfl
        | ok c => simp only [ih (g := g) (a := rest) (by omega) (by omega)]

/-- Draining without a bound -/
def drainAll (a : List Nat) : List Cmd × List Nat × Bool := drain a.length a

theorem drainAll_none {a : List Nat} (h : decode a = none) : drainAll a = ([], a, false) := by
  unfold drainAll
  cases a with
  | nil => rfl
  | cons c r => rw [List.length_cons, drain, h]

theorem drainAll_error {a rest : List Nat} {e : Err} (h : decode a = some (.error e, rest)) : drainAll a = ([], rest, true) := by
  have := decode_len h
  unfold drainAll
  obtain ⟨n, hn⟩ : ∃ n, a.length = n + 1 := ⟨a.length - 1, by omega⟩
  rw [hn, drain, h]

theorem drainAll_ok {a rest : List Nat} {c : Cmd} (h : decode a = some (.ok c, rest)) :
    drainAll a = (c :: (drainAll rest).1, (drainAll rest).2) := by
  have := decode_len h
  unfold drainAll
  obtain ⟨n, hn⟩ : ∃ n, a.length = n + 1 := ⟨a.length - 1, by omega⟩
  rw [hn, drain, h]
  simp only [drain_fuel (f := n) (g := rest.length) (a := rest) (by omega) (Nat.le_refl _)]

theorem drainAll_append (a b : List Nat) :
    drainAll (a ++ b) = if (drainAll a).2.2 then ((drainAll a).1, (drainAll a).2.1 ++ b, true)
      else ((drainAll a).1 ++ (drainAll ((drainAll a).2.1 ++ b)).1, (drainAll ((drainAll a).2.1 ++ b)).2) := by
  induction hn : a.length using Nat.strongRecOn generalizing a with
  | _ n ih =>
    cases hd : decode a with
    | none => rw [drainAll_none hd]; simp
    | some p =>
      obtain ⟨r, rest⟩ := p
      have hl := decode_len hd
      cases r with
      | error e => rw [drainAll_error hd, drainAll_error (decode_append hd b)]; simp
      | ok c =>
        rw [drainAll_ok hd, drainAll_ok (decode_append hd b), ih rest.length (by omega) rest rfl]
        by_cases h : (drainAll rest).2.2 = true
        · simp [h]
        · simp [h]

theorem receive_eq (pieces : List (List Nat)) (buf : List Nat) (hb : decode buf = none) :
    (receive pieces buf).1 = (drainAll (buf ++ pieces.flatten)).1 ∧ (receive pieces buf).2.2 = (drainAll (buf ++ pieces.flatten)).2.2 ∧
    ((receive pieces buf).2.2 = false → (receive pieces buf).2.1 = (drainAll (buf ++ pieces.flatten)).2.1) := by
  induction pieces generalizing buf with
  | nil => rw [List.flatten_nil, List.append_nil, drainAll_none hb]; exact ⟨rfl, rfl, fun _ => rfl⟩
  | cons p ps ih =>
    have key := drainAll_append (buf ++ p) ps.flatten
    rw [List.flatten_cons, ← List.append_assoc, key]
    unfold receive
    have hd : drain (buf ++ p).length (buf ++ p) = drainAll (buf ++ p) := rfl
    simp only [hd]
    by_cases h : (drainAll (buf ++ p)).2.2 = true
    · rw [if_pos h, if_pos h]
      exact ⟨rfl, h, fun h' => by rw [h] at h'; cases h'⟩
    · rw [if_neg h, if_neg h]
      have hnone : decode (drainAll (buf ++ p)).2.1 = none := by
        generalize buf ++ p = a at h ⊢
        induction hn : a.length using Nat.strongRecOn generalizing a with
        | _ n ih' =>
          cases hd : decode a with
          | none => rw [drainAll_none hd]; exact hd
          | some q =>
            obtain ⟨r, rest⟩ := q
            have hl := decode_len hd
            cases r with
            | error e => rw [drainAll_error hd] at h; simp at h
            | ok c =>
              rw [drainAll_ok hd] at h ⊢
              exact ih' rest.length (by omega) rest h rfl
      obtain ⟨h1, h2, h3⟩ := ih _ hnone
      exact ⟨by simp only [h1], h2, h3⟩

/-! ## Lines -/

theorem NoCrlf.tail {c : Nat} {m : List Nat} (h : NoCrlf (c :: m)) : NoCrlf m := fun x y e => h (c :: x) y (by rw [e]; rfl)

theorem findCrlf_line {l : List Nat} (h : NoCrlf l) (rest : List Nat) : findCrlf (l ++ 13 :: 10 :: rest) = some l.length := by
  induction l with
  | nil => rfl
  | cons c l ih =>
    rw [List.cons_append, findCrlf_cons, ih h.tail]
    · rfl
    · rintro t ⟨rfl, ht⟩
      cases l with
      | nil => simp at ht
      | cons x l =>
        simp only [List.cons_append, List.cons.injEq] at ht
        exact h [] l (by rw [ht.1]; rfl)

theorem findCrlf_none {l : List Nat} (h : NoCrlf l) : findCrlf l = none := by
  induction l with
  | nil => rfl
  | cons c l ih =>
    rw [findCrlf_cons, ih h.tail]
    · rfl
    · rintro t ⟨rfl, rfl⟩
      exact h [] t rfl

theorem decode_line {l : List Nat} (h : NoCrlf l) (rest : List Nat) : decode (l ++ 13 :: 10 :: rest) = some (parseCmd l, rest) := by
  unfold decode
  rw [findCrlf_line h]
  simp only [List.take_left', Option.some.injEq, Prod.mk.injEq, true_and]
  rw [← List.drop_drop, List.drop_left]
  rfl

theorem drain_lines (ls : List (List Nat)) (hl : ∀ l ∈ ls, NoCrlf l) (rest : List Nat) (hr : NoCrlf rest) :
    (drainAll (ls.flatMap (· ++ crlf) ++ rest)).1 = (commands ls).1 ∧ (drainAll (ls.flatMap (· ++ crlf) ++ rest)).2.2 = (commands ls).2 := by
  induction ls with
  | nil =>
    have : decode rest = none := by rw [decode, findCrlf_none hr]
    rw [List.flatMap_nil, List.nil_append, drainAll_none this]
    exact ⟨rfl, rfl⟩
  | cons l ls ih =>
    obtain ⟨h1, h2⟩ := ih fun x hx => hl x (by simp [hx])
    have he : (l :: ls).flatMap (· ++ crlf) ++ rest = l ++ 13 :: 10 :: (ls.flatMap (· ++ crlf) ++ rest) := by simp [crlf]
    have hd := decode_line (hl l (by simp)) (ls.flatMap (· ++ crlf) ++ rest)
    rw [he]
    unfold commands
    cases hp : parseCmd l with
    | error e => rw [hp] at hd; rw [drainAll_error hd]; exact ⟨rfl, rfl⟩
    | ok c => rw [hp] at hd; rw [drainAll_ok hd]; exact ⟨by simp only [h1], h2⟩

theorem takeLine_line {l : List Nat} (h : NoCrlf l) (rest : List Nat) : takeLine (l ++ 13 :: 10 :: rest) = some (l, rest) := by
  induction l with
  | nil => rfl
  | cons c l ih =>
    cases l with
    | nil =>
      show takeLine (c :: 13 :: 10 :: rest) = _
      rw [takeLine, if_neg (by omega)]
      rfl
    | cons x l =>
      show takeLine (c :: x :: (l ++ 13 :: 10 :: rest)) = _
      rw [takeLine, if_neg]
      · rw [show x :: (l ++ 13 :: 10 :: rest) = (x :: l) ++ 13 :: 10 :: rest from rfl, ih h.tail]
        rfl
      · rintro ⟨rfl, rfl⟩
        exact h [] l rfl

/-! ## Replies -/

theorem digit_of {n : Nat} (h : n ≤ 9) : digit? (48 + n) = some n := by
  unfold digit?
  rw [if_pos (by omega)]
  simp

theorem lineCode_code3 {n : Nat} (h : n < 1000) (r : List Nat) : lineCode (code3 n ++ r) = some (n, r) := by
  unfold code3 lineCode
  simp only [List.cons_append, List.nil_append]
  rw [digit_of (by omega), digit_of (by omega), digit_of (by omega)]
  simp only [Option.bind_eq_bind, Option.bind_some, Option.some.injEq, Prod.mk.injEq, and_true]
  omega

theorem NoCrlf.append {a b : List Nat} (ha : NoCrlf a) (hb : NoCrlf b) (h : a.getLast? ≠ some 13 ∨ b.head? ≠ some 10) : NoCrlf (a ++ b) := by
  intro x y e
  rcases List.append_eq_append_iff.mp e with ⟨t, h1, h2⟩ | ⟨t, h1, h2⟩
  · cases t with
    | nil => rw [List.nil_append] at h2; exact hb [] y (by simpa using h2)
    | cons c t =>
      rw [h2] at hb
      exact hb (c :: t) y rfl
  · cases t with
    | nil => rw [List.nil_append] at h2; exact hb [] y (by rw [← h2]; rfl)
    | cons c t =>
      injection h2 with h3 h4
      cases t with
      | nil =>
        replace h4 : 10 :: y = b := h4
        rcases h with h | h
        · exact h (by rw [h1, h3]; simp)
        · exact h (by rw [← h4]; rfl)
      | cons d t =>
        injection h4 with h5 h6
        exact ha x t (by rw [h1, h3, h5])

theorem NoCrlf.cons {c : Nat} {m : List Nat} (hm : NoCrlf m) (h : c ≠ 13) : NoCrlf (c :: m) := by
  have : NoCrlf [c] := by
    intro x y e
    have := congrArg List.length e
    simp at this
    omega
  exact NoCrlf.append this hm (.inl (by simpa using h))

theorem noCrlf_nil : NoCrlf [] := by
  intro x y e
  have := congrArg List.length e
  simp at this

theorem code3_ne (n : Nat) : ∀ c ∈ code3 n, c ≠ 13 := by
  intro c hc
  simp only [code3, List.mem_cons, List.not_mem_nil, or_false] at hc
  omega

theorem noCrlf_lit {a m : List Nat} (ha : ∀ c ∈ a, c ≠ 13) (hm : NoCrlf m) : NoCrlf (a ++ m) := by
  induction a with
  | nil => exact hm
  | cons c a ih => exact (ih fun x hx => ha x (by simp [hx])).cons (ha c (by simp))

theorem noCrlf_lit' {a : List Nat} (ha : ∀ c ∈ a, c ≠ 13) : NoCrlf a := by
  have := noCrlf_lit ha noCrlf_nil
  rwa [List.append_nil] at this

/-- What a body line is without its end -/
def bodyText (l : List Nat) : List Nat :=
  match l with
  | c :: _ => if 48 ≤ c ∧ c ≤ 57 then 32 :: l else l
  | [] => l

theorem bodyLine_eq (l : List Nat) : bodyLine l = bodyText l ++ crlf := rfl

theorem bodyText_noCrlf {l : List Nat} (h : NoCrlf l) : NoCrlf (bodyText l) := by
  unfold bodyText
  split
  · split
    · exact h.cons (by omega)
    · exact h
  · exact h

theorem bodyText_code (l : List Nat) : lineCode (bodyText l) = none := by
  unfold bodyText
  split
  · rename_i c r
    split
    · unfold lineCode
      split
      · rename_i h
        injection h with h1 h2
        subst h1
        simp [digit?]
      · rfl
    · rename_i hd
      unfold lineCode
      split
      · rename_i h
        injection h with h1 h2
        subst h1
        simp [digit?, hd]
      · rfl
  · rfl

theorem skipBody_lines {code : Nat} (hc : code < 1000) (ls : List (List Nat)) (hl : ∀ l ∈ ls, NoCrlf l) (rest : List Nat) (fuel : Nat) (hf : ls.length < fuel) :
    skipBody code fuel (ls.flatMap bodyLine ++ (code3 code ++ str " end" ++ crlf ++ rest)) = some rest := by
  induction ls generalizing fuel with
  | nil =>
    obtain ⟨f, rfl⟩ : ∃ f, fuel = f + 1 := ⟨fuel - 1, by simp at hf; omega⟩
    rw [skipBody, List.flatMap_nil, List.nil_append]
    have he : code3 code ++ str " end" ++ crlf ++ rest = (code3 code ++ str " end") ++ 13 :: 10 :: rest := by simp [crlf]
    rw [he, takeLine_line (noCrlf_lit (code3_ne code) (noCrlf_lit' (by decide)))]
    simp only [Option.bind_eq_bind, Option.bind_some, lineCode_code3 hc]
    rw [show str " end" = 32 :: [101, 110, 100] from by decide]
    simp
  | cons l ls ih =>
    obtain ⟨f, rfl⟩ : ∃ f, fuel = f + 1 := ⟨fuel - 1, by simp at hf; omega⟩
    have he : (l :: ls).flatMap bodyLine ++ (code3 code ++ str " end" ++ crlf ++ rest)
        = bodyText l ++ 13 :: 10 :: (ls.flatMap bodyLine ++ (code3 code ++ str " end" ++ crlf ++ rest)) := by
      rw [List.flatMap_cons, bodyLine_eq]
      simp [crlf]
    rw [skipBody, he, takeLine_line (bodyText_noCrlf (hl l (by simp)))]
    simp only [Option.bind_eq_bind, Option.bind_some, bodyText_code]
    exact ih (fun x hx => hl x (by simp [hx])) f (by simp at hf; omega)

theorem flatMap_len (ls : List (List Nat)) : ls.length ≤ (ls.flatMap bodyLine).length := by
  induction ls with
  | nil => simp
  | cons l ls ih =>
    rw [List.flatMap_cons, bodyLine_eq]
    simp only [List.length_append, List.length_cons, crlf, List.length_nil]
    omega

theorem parseReply_encode {a : Answer} (hc : a.code < 1000) (hm : NoCrlf a.message) (hl : ∀ l ∈ a.lines, NoCrlf l) (rest : List Nat) :
    parseReply (encode a ++ rest) = some (a.code, rest) := by
  unfold encode
  split
  · have he : code3 a.code ++ str "- " ++ a.message ++ crlf ++ a.lines.flatMap bodyLine ++ code3 a.code ++ str " end" ++ crlf ++ rest
        = (code3 a.code ++ (str "- " ++ a.message)) ++ 13 :: 10 :: (a.lines.flatMap bodyLine ++ (code3 a.code ++ str " end" ++ crlf ++ rest)) := by
      simp [crlf]
    rw [he]
    unfold parseReply
    rw [takeLine_line (noCrlf_lit (code3_ne _) (noCrlf_lit (by decide) hm))]
    simp only [Option.bind_eq_bind, Option.bind_some, lineCode_code3 hc]
    rw [show str "- " = [45, 32] from by decide]
    simp only [List.cons_append]
    rw [skipBody_lines hc _ hl]
    · rfl
    · have := flatMap_len a.lines
      simp only [List.length_append, List.length_cons]
      omega
  · split
    · have he : code3 a.code ++ crlf ++ rest = (code3 a.code ++ []) ++ 13 :: 10 :: rest := by simp [crlf]
      rw [he]
      unfold parseReply
      rw [takeLine_line (noCrlf_lit (code3_ne _) noCrlf_nil)]
      simp only [Option.bind_eq_bind, Option.bind_some, lineCode_code3 hc]
    · have he : code3 a.code ++ 32 :: a.message ++ crlf ++ rest = (code3 a.code ++ (32 :: a.message)) ++ 13 :: 10 :: rest := by simp [crlf]
      rw [he]
      unfold parseReply
      rw [takeLine_line (noCrlf_lit (code3_ne _) (hm.cons (by omega)))]
      simp only [Option.bind_eq_bind, Option.bind_some, lineCode_code3 hc]

/-! ## Paths -/

theorem plain_map {p : Path} (h : ∀ c ∈ p, ∃ n, c = Comp.normal n) : ∃ ns : List Name, p = ns.map .normal := by
  induction p with
  | nil => exact ⟨[], rfl⟩
  | cons c p ih =>
    obtain ⟨ns, hns⟩ := ih fun x hx => h x (by simp [hx])
    obtain ⟨n, hn⟩ := h c (by simp)
    exact ⟨n :: ns, by rw [hns, hn]; rfl⟩

theorem plain_filter {ns : List Name} : (ns.map Comp.normal).filter (· ≠ .cur) = ns.map .normal := by
  rw [List.filter_eq_self]
  intro c hc
  obtain ⟨n, -, rfl⟩ := List.mem_map.mp hc
  rfl

theorem plain_notAbs {ns : List Name} : isAbs (ns.map Comp.normal) = false := by
  cases ns <;> rfl

theorem push_plain {p : Path} (hp : p ≠ []) (ns : List Name) : push p (ns.map .normal) = p ++ ns.map .normal := by
  unfold push
  rw [if_neg (by rw [plain_notAbs]; decide), if_neg hp, plain_filter]

theorem Canonical.ne {p : Path} (h : Canonical p) : p ≠ [] := by
  obtain ⟨ns, rfl⟩ := h
  simp

theorem drop_canonical {p : Path} (h : Canonical p) {k : Nat} (hk : k ≠ 0) : ∃ ns : List Name, p.drop k = ns.map .normal := by
  obtain ⟨ns, rfl⟩ := h
  obtain ⟨j, rfl⟩ : ∃ j, k = j + 1 := ⟨k - 1, by omega⟩
  exact ⟨ns.drop j, by rw [List.drop_succ_cons, List.map_drop]⟩

theorem startsWith_inside {root p : Path} (hr : root ≠ []) (hp : Canonical p) (h : startsWith p root = true) : Inside root p := by
  obtain ⟨t, ht⟩ := List.isPrefixOf_iff_prefix.mp h
  obtain ⟨ns, hns⟩ := drop_canonical hp (k := root.length) (by simpa using hr)
  rw [← ht, List.drop_left] at hns
  exact ⟨ns, by rw [← ht, hns]⟩

theorem completePath_spec {root : Path} {w : World} (hw : Sane w) {p d : Path} (h : completePath root w p = some d) :
    Canonical d ∧ startsWith d root = true := by
  unfold completePath at h
  cases hc : w.canon (below root p) with
  | none => rw [hc] at h; cases h
  | some q =>
    rw [hc] at h
    simp only at h
    split at h
    · injection h with h
      subst h
      rename_i hs
      exact ⟨hw _ _ hc, hs⟩
    · cases h

theorem completePath_inside {root : Path} (hr : root ≠ []) {w : World} (hw : Sane w) {p d : Path} (h : completePath root w p = some d) : Inside root d :=
  startsWith_inside hr (completePath_spec hw h).1 (completePath_spec hw h).2

theorem push_name {p : Path} (hp : Canonical p) (n : Name) : push p [.normal n] = p ++ [.normal n] := push_plain hp.ne [n]

theorem Inside.snoc {root p : Path} (h : Inside root p) (n : Name) : Inside root (p ++ [.normal n]) := by
  obtain ⟨ns, rfl⟩ := h
  exact ⟨ns ++ [n], by simp⟩

theorem compOf_cases {n : Name} {c : Comp} (h : compOf n = some c) : c = .parent ∨ ∃ m, c = .normal m := by
  unfold compOf at h
  split at h
  · cases h
  · split at h
    · exact .inl (by injection h with h; exact h.symm)
    · exact .inr ⟨n, by injection h with h; exact h.symm⟩

theorem parse_cases (s : List Char) : ∃ rest : Path, (∀ c ∈ rest, c = .parent ∨ ∃ m, c = .normal m) ∧ (parse s = rest ∨ parse s = .cur :: rest ∨ parse s = .root :: rest) := by
  have hr : ∀ c ∈ (splitSlash s).filterMap compOf, c = .parent ∨ ∃ m, c = .normal m := by
    intro c hc
    obtain ⟨n, -, hn⟩ := List.mem_filterMap.mp hc
    exact compOf_cases hn
  unfold parse
  split
  · exact ⟨_, hr, .inr (.inr rfl)⟩
  · exact ⟨[], by simp, .inr (.inl rfl)⟩
  · exact ⟨_, hr, .inr (.inl rfl)⟩
  · exact ⟨_, hr, .inl rfl⟩

/-- A path without `..` taken from a canonical directory is canonical. -/
theorem join_canonical {cl : Client} (hc : Canonical cl.cwd) {p : List Nat} (hp : invalidPath (parse (text p)) = false) : Canonical (join cl p) := by
  unfold join
  obtain ⟨rest, hr, h⟩ := parse_cases (text p)
  have hplain : ∃ ns : List Name, rest = ns.map .normal := by
    apply plain_map
    intro c hcm
    rcases hr c hcm with rfl | h'
    · exfalso
      have hin : Comp.parent ∈ parse (text p) := by rcases h with h | h | h <;> rw [h] <;> simp [hcm]
      unfold invalidPath at hp
      rw [List.any_eq_false] at hp
      exact hp _ hin rfl
    · exact h'
  obtain ⟨ns, rfl⟩ := hplain
  obtain ⟨ms, hms⟩ := hc
  rcases h with h | h | h
  · rw [h, push_plain (Canonical.ne ⟨ms, hms⟩), hms]
    exact ⟨ms ++ ns, by simp⟩
  · rw [h]
    unfold push
    rw [if_neg (by simp [isAbs]), if_neg (Canonical.ne ⟨ms, hms⟩), List.filter_cons_of_neg (by simp), plain_filter, hms]
    exact ⟨ms ++ ns, by simp⟩
  · rw [h]
    unfold push
    rw [if_pos (by simp [isAbs])]
    exact ⟨ns, rfl⟩

theorem below_inside {root p : Path} (hr : root ≠ []) (h : Canonical p) : Inside root (below root p) := by
  obtain ⟨ns, rfl⟩ := h
  unfold below
  rw [if_pos (by rfl), List.drop_one, List.tail_cons, push_plain hr]
  exact ⟨ns, rfl⟩

theorem prefixSlash_canonical {p : Path} (h : Canonical p) : prefixSlash p = p := by
  obtain ⟨ns, rfl⟩ := h
  rfl

theorem parentOf_canonical {p q : Path} (h : Canonical p) (hq : parentOf p = some q) : Canonical q := by
  obtain ⟨ns, rfl⟩ := h
  have hne : ns ≠ [] := by
    rintro rfl
    simp [parentOf] at hq
  unfold parentOf at hq
  have : (Comp.root :: ns.map Comp.normal).dropLast = .root :: ns.dropLast.map .normal := by
    rw [List.dropLast_cons_of_ne_nil (by simpa using hne), List.map_dropLast]
  split at hq
  · cases hq
  · cases hq
  · injection hq with hq
    rw [← hq, this]
    exact ⟨_, rfl⟩

theorem strip_canonical {root p q : Path} (h : Canonical p) (hq : stripPrefix root p = some q) : Canonical (prefixSlash q) := by
  unfold stripPrefix at hq
  split at hq
  · injection hq with hq
    subst hq
    by_cases hr : root.length = 0
    · rw [hr, List.drop_zero, prefixSlash_canonical h]; exact h
    · obtain ⟨ns, hns⟩ := drop_canonical h hr
      rw [hns]
      unfold prefixSlash
      rw [if_neg (by rw [plain_notAbs]; decide), push_plain (by simp)]
      exact ⟨ns, rfl⟩
  · cases hq

/-! ## One command -/

@[simp] theorem initData_cwd (w : World) (cl : Client) : (initData w cl).1.cwd = cl.cwd := by
  unfold initData
  split
  · rfl
  · split <;> rfl

@[simp] theorem initData_name (w : World) (cl : Client) : (initData w cl).1.name = cl.name := by
  unfold initData
  split
  · rfl
  · split <;> rfl

@[simp] theorem initData_waiting (w : World) (cl : Client) : (initData w cl).1.waiting = cl.waiting := by
  unfold initData
  split
  · rfl
  · split <;> rfl

/-- What stays the same when a command does not change directory or user -/
def Keeps (a b : Client) : Prop := a.cwd = b.cwd ∧ a.name = b.name ∧ a.waiting = b.waiting

theorem keeps_init (w : World) (cl : Client) : Keeps (initData w cl).1 cl := ⟨by simp, by simp, by simp⟩

theorem keeps_finish {a b : Client} (h : Keeps a b) (ops : List Op) (out : List Answer) : Keeps (finish a ops out).cl b := by
  unfold finish
  split <;> exact h

theorem keeps_list (root : Path) (w : World) (cl : Client) (p : Option (List Nat)) : Keeps (list root w cl p).cl cl := by
  unfold list
  dsimp only
  have hk := keeps_init w cl
  split
  · split
    · exact keeps_finish hk _ _
    · try dsimp only
      split
      · split
        · split
          · exact keeps_finish hk _ _
          · exact hk
        · exact hk
      · split
        · exact keeps_finish hk _ _
        · exact hk
  · exact keeps_finish hk _ _

theorem keeps_nlst (root : Path) (w : World) (cl : Client) (p : Option (List Nat)) : Keeps (nlst root w cl p).cl cl := by
  unfold nlst
  dsimp only
  have hk := keeps_init w cl
  split
  · split
    · exact keeps_finish hk _ _
    · split
      · exact hk
      · try dsimp only
        split
        · exact hk
        · split
          · exact keeps_finish hk _ _
          · exact hk
  · exact keeps_finish hk _ _

theorem keeps_retr (root : Path) (w : World) (cl : Client) (p : List Nat) : Keeps (retr root w cl p).cl cl := by
  unfold retr
  dsimp only
  have hk := keeps_init w cl
  split
  · split
    · exact keeps_finish hk _ _
    · try dsimp only
      split
      · split
        · split
          · exact keeps_finish hk _ _
          · exact hk
        · exact hk
      · exact keeps_finish hk _ _
  · exact keeps_finish hk _ _

theorem keeps_stor (root : Path) (w : World) (cl : Client) (p : List Nat) : Keeps (stor root w cl p).cl cl := by
  unfold stor
  dsimp only
  have hk := keeps_init w cl
  split
  · split
    · exact hk
    · try dsimp only
      split <;> exact hk
  · exact hk

theorem keeps_mkd (root : Path) (w : World) (cl : Client) (p : List Nat) : Keeps (mkd root w cl p).cl cl := by
  have hk : Keeps cl cl := ⟨rfl, rfl, rfl⟩
  unfold mkd
  try dsimp only
  split
  · exact hk
  · split
    · exact hk
    · split
      · split
        · exact hk
        · split <;> exact hk
      · exact hk

theorem keeps_rmd (root : Path) (w : World) (cl : Client) (p : List Nat) : Keeps (rmd root w cl p).cl cl := by
  have hk : Keeps cl cl := ⟨rfl, rfl, rfl⟩
  unfold rmd
  try dsimp only
  split
  · exact hk
  · split <;> exact hk

theorem keeps_dele (root : Path) (w : World) (cl : Client) (p : List Nat) : Keeps (dele root w cl p).cl cl := by
  have hk : Keeps cl cl := ⟨rfl, rfl, rfl⟩
  unfold dele
  try dsimp only
  split
  · exact hk
  · split <;> exact hk

theorem keeps_pasv (w : World) (cl : Client) : Keeps (pasv w cl).cl cl := by
  have hk : Keeps cl cl := ⟨rfl, rfl, rfl⟩
  unfold pasv
  try dsimp only
  split
  · exact hk
  · split <;> exact hk

theorem keeps_epsv (w : World) (cl : Client) (s : Option (List Nat)) : Keeps (epsv w cl s).cl cl := by
  have hk : Keeps cl cl := ⟨rfl, rfl, rfl⟩
  unfold epsv
  try dsimp only
  split
  · exact hk
  · split <;> exact hk

theorem user_cwd (cfg : Config) (cl : Client) (s : List Nat) : (user cfg cl s).cl.cwd = cl.cwd := by
  unfold user
  split
  · rfl
  · split
    · rfl
    · split
      · rfl
      · split <;> rfl

theorem open_cwd (cfg : Config) (cl : Client) (c : Cmd) : (open_ cfg cl c).cl.cwd = cl.cwd := by
  cases c <;> first | rfl | exact user_cwd cfg cl _

theorem user_ops (cfg : Config) (cl : Client) (s : List Nat) : (user cfg cl s).ops = [] := by
  unfold user
  split
  · rfl
  · split
    · rfl
    · split
      · rfl
      · split <;> rfl

theorem open_ops (cfg : Config) (cl : Client) (c : Cmd) : (open_ cfg cl c).ops = [] := by
  cases c <;> first | rfl | exact user_ops cfg cl _

theorem pass_ops (cfg : Config) (cl : Client) (s : List Nat) : (pass cfg cl s).ops = [] := by
  unfold pass
  split <;> rfl

theorem pass_cwd (cfg : Config) (cl : Client) (s : List Nat) : (pass cfg cl s).cl.cwd = cl.cwd := by
  unfold pass
  split <;> rfl

theorem cwd_canonical {root : Path} {w : World} (hw : Sane w) {cl : Client} (hc : Canonical cl.cwd) (p : List Nat) : Canonical (cwd root w cl p).cl.cwd := by
  unfold cwd
  try dsimp only
  split
  · exact hc
  · rename_i d hd
    split
    · exact hc
    · rename_i r hr
      exact strip_canonical (completePath_spec hw hd).1 hr

theorem cdup_canonical {cl : Client} (hc : Canonical cl.cwd) : Canonical (cdup cl).cl.cwd := by
  unfold cdup
  dsimp only [Res.say]
  split
  · exact hc
  · rename_i q hq
    show Canonical (prefixSlash q)
    rw [prefixSlash_canonical (parentOf_canonical hc hq)]
    exact parentOf_canonical hc hq

theorem handle_canonical {cfg : Config} {root : Path} {w : World} (hw : Sane w) {cl : Client} (hc : Canonical cl.cwd) (c : Cmd) :
    Canonical (handle cfg root w cl c).cl.cwd := by
  have ho : ∀ c, Canonical (open_ cfg cl c).cl.cwd := fun c => by rw [open_cwd]; exact hc
  unfold handle
  split
  · cases c
    case cwd p => exact cwd_canonical hw hc p
    case list p => exact (keeps_list root w cl p).1 ▸ hc
    case nlst p => exact (keeps_nlst root w cl p).1 ▸ hc
    case pasv => exact (keeps_pasv w cl).1 ▸ hc
    case epsv s => exact (keeps_epsv w cl s).1 ▸ hc
    case retr p => exact (keeps_retr root w cl p).1 ▸ hc
    case stor p => exact (keeps_stor root w cl p).1 ▸ hc
    case mkd p => exact (keeps_mkd root w cl p).1 ▸ hc
    case rmd p => exact (keeps_rmd root w cl p).1 ▸ hc
    case dele p => exact (keeps_dele root w cl p).1 ▸ hc
    case cdup => exact cdup_canonical hc
    case port n => exact hc
    case pwd => exact hc
    all_goals exact ho _
  · split
    · cases c
      case pass s => dsimp only; rw [pass_cwd]; exact hc
      all_goals exact ho _
    · exact ho c

/-- What an operation may touch: a pattern search anything, the rest only the root and what is in it -/
def Allowed (root : Path) (op : Op) : Prop := (∃ p, op = .glob p) ∨ Inside root op.path

theorem finish_ops (a : Client) (ops : List Op) (out : List Answer) : (finish a ops out).ops = ops := by
  unfold finish
  split <;> rfl

theorem list_allowed {root : Path} (hr : root ≠ []) {w : World} (hw : Sane w) (cl : Client) (p : Option (List Nat)) :
    ∀ op ∈ (list root w cl p).ops, Allowed root op := by
  have hno : ∀ op ∈ ([] : List Op), Allowed root op := by simp
  unfold list
  dsimp only
  split
  · split
    · rw [finish_ops]; exact hno
    · rename_i path hpath
      have hin := completePath_inside hr hw hpath
      have hcan := (completePath_spec hw hpath).1
      have h1 : ∀ op ∈ Op.readDir path :: (w.entries path).map fun n => Op.stat (push path [.normal n]), Allowed root op := by
        intro op hop
        rcases List.mem_cons.mp hop with rfl | hop
        · exact .inr hin
        · obtain ⟨n, -, rfl⟩ := List.mem_map.mp hop
          right
          show Inside root (push path [.normal n])
          rw [push_name hcan]
          exact hin.snoc n
      try dsimp only
      split
      · split
        · split
          · rw [finish_ops]; exact h1
          · exact h1
        · intro op hop
          exact h1 op (by simp only [List.mem_singleton] at hop; simp [hop])
      · have h2 : ∀ op ∈ [Op.stat path], Allowed root op := by
          intro op hop
          simp only [List.mem_singleton] at hop
          exact .inr (by rw [hop]; exact hin)
        split
        · rw [finish_ops]; exact h2
        · exact h2
  · rw [finish_ops]; exact hno

theorem nlst_allowed {root : Path} (hr : root ≠ []) {w : World} (hw : Sane w) (cl : Client) (p : Option (List Nat)) :
    ∀ op ∈ (nlst root w cl p).ops, Allowed root op := by
  have hno : ∀ op ∈ ([] : List Op), Allowed root op := by simp
  unfold nlst
  dsimp only
  split
  · split
    · rw [finish_ops]; exact hno
    · split
      · exact hno
      · try dsimp only
        split
        · exact hno
        · rename_i ms hms
          have h1 : ∀ pat, ∀ op ∈ Op.glob pat :: ms.filterMap (fun m => match w.canon m with
              | none => none
              | some r => if startsWith r root then some (.report m r) else none), Allowed root op := by
            intro pat op hop
            rcases List.mem_cons.mp hop with rfl | hop
            · exact .inl ⟨_, rfl⟩
            · obtain ⟨m, -, hm⟩ := List.mem_filterMap.mp hop
              split at hm
              · cases hm
              · rename_i r hcr
                split at hm
                · rename_i hs
                  injection hm with hm
                  subst hm
                  exact .inr (startsWith_inside hr (hw _ _ hcr) hs)
                · cases hm
          split
          · rw [finish_ops]; exact h1 _
          · exact h1 _
  · rw [finish_ops]; exact hno

theorem retr_allowed {root : Path} (hr : root ≠ []) {w : World} (hw : Sane w) (cl : Client) (p : List Nat) :
    ∀ op ∈ (retr root w cl p).ops, Allowed root op := by
  have hno : ∀ op ∈ ([] : List Op), Allowed root op := by simp
  unfold retr
  dsimp only
  split
  · split
    · rw [finish_ops]; exact hno
    · rename_i path hpath
      have h1 : ∀ op ∈ [Op.readFile path], Allowed root op := by
        intro op hop
        simp only [List.mem_singleton] at hop
        exact .inr (by rw [hop]; exact completePath_inside hr hw hpath)
      try dsimp only
      split
      · split
        · split
          · rw [finish_ops]; exact h1
          · exact h1
        · exact h1
      · rw [finish_ops]; exact hno
  · rw [finish_ops]; exact hno

theorem stor_allowed {root : Path} (hr : root ≠ []) (w : World) {cl : Client} (hc : Canonical cl.cwd) (p : List Nat) :
    ∀ op ∈ (stor root w cl p).ops, Allowed root op := by
  unfold stor
  dsimp only
  split
  · split
    · simp
    · rename_i hp
      try dsimp only
      split
      · intro op hop
        simp only [List.mem_singleton] at hop
        right
        rw [hop]
        exact below_inside hr (join_canonical (by rw [initData_cwd]; exact hc) (by simpa using hp))
      · simp
  · simp

theorem mkd_allowed {root : Path} (hr : root ≠ []) {w : World} (hw : Sane w) (cl : Client) (p : List Nat) :
    ∀ op ∈ (mkd root w cl p).ops, Allowed root op := by
  unfold mkd
  dsimp only [Res.say]
  split
  · simp
  · split
    · simp
    · rename_i dir hdir
      split
      · split
        · simp
        · rename_i n hn
          have h1 : ∀ op ∈ [Op.mkDir (push dir [.normal n])], Allowed root op := by
            intro op hop
            simp only [List.mem_singleton] at hop
            right
            rw [hop]
            show Inside root (push dir [.normal n])
            rw [push_name (completePath_spec hw hdir).1]
            exact (completePath_inside hr hw hdir).snoc n
          split <;> exact h1
      · simp

theorem rmd_allowed {root : Path} (hr : root ≠ []) {w : World} (hw : Sane w) (cl : Client) (p : List Nat) :
    ∀ op ∈ (rmd root w cl p).ops, Allowed root op := by
  unfold rmd
  dsimp only [Res.say]
  split
  · simp
  · rename_i dir hdir
    have h1 : ∀ op ∈ [Op.rmDir dir], Allowed root op := by
      intro op hop
      simp only [List.mem_singleton] at hop
      exact .inr (by rw [hop]; exact completePath_inside hr hw hdir)
    split <;> exact h1

theorem dele_allowed {root : Path} (hr : root ≠ []) {w : World} (hw : Sane w) (cl : Client) (p : List Nat) :
    ∀ op ∈ (dele root w cl p).ops, Allowed root op := by
  unfold dele
  dsimp only [Res.say]
  split
  · simp
  · rename_i dir hdir
    have h1 : ∀ op ∈ [Op.rmFile dir], Allowed root op := by
      intro op hop
      simp only [List.mem_singleton] at hop
      exact .inr (by rw [hop]; exact completePath_inside hr hw hdir)
    split <;> exact h1

theorem no_ops {root : Path} {l : List Op} (h : l = []) : ∀ op ∈ l, Allowed root op := by simp [h]

theorem handle_allowed {cfg : Config} {root : Path} (hr : root ≠ []) {w : World} (hw : Sane w) {cl : Client} (hc : Canonical cl.cwd) (c : Cmd) :
    ∀ op ∈ (handle cfg root w cl c).ops, Allowed root op := by
  unfold handle
  split
  · cases c
    case cwd p => refine no_ops ?_; dsimp only; unfold cwd; dsimp only; split; rfl; split <;> rfl
    case list p => exact list_allowed hr hw cl p
    case nlst p => exact nlst_allowed hr hw cl p
    case pasv => refine no_ops ?_; dsimp only; unfold pasv; dsimp only; split; rfl; split <;> rfl
    case epsv s => refine no_ops ?_; dsimp only; unfold epsv; dsimp only; split; rfl; split <;> rfl
    case retr p => exact retr_allowed hr hw cl p
    case stor p => exact stor_allowed hr w hc p
    case mkd p => exact mkd_allowed hr hw cl p
    case rmd p => exact rmd_allowed hr hw cl p
    case dele p => exact dele_allowed hr hw cl p
    case cdup => exact no_ops rfl
    case port n => exact no_ops rfl
    case pwd => exact no_ops rfl
    all_goals exact no_ops (open_ops _ _ _)
  · split
    · cases c
      case pass s => exact no_ops (pass_ops _ _ _)
      all_goals exact no_ops (open_ops _ _ _)
    · exact no_ops (open_ops _ _ _)

theorem session_allowed {cfg : Config} {root : Path} (hr : root ≠ []) (l : List (Cmd × World)) (hw : ∀ x ∈ l, Sane x.2) (cl : Client) (hc : Canonical cl.cwd) :
    ∀ x ∈ session cfg root cl l, ∀ op ∈ x.2.ops, Allowed root op := by
  induction l generalizing cl with
  | nil => simp [session]
  | cons a l ih =>
    obtain ⟨c, w⟩ := a
    intro x hx
    rw [session] at hx
    have hw1 : Sane w := hw (c, w) (by simp)
    rcases List.mem_cons.mp hx with rfl | hx
    · exact handle_allowed hr hw1 hc c
    · split at hx
      · simp at hx
      · exact ih (fun y hy => hw y (by simp [hy])) _ (handle_canonical hw1 hc c) x hx

/-! ## Login -/

/-- What a command can do to the login -/
inductive LoginStep (cfg : Config) (c : Cmd) (a b : Client) : Prop where
  | same : b.name = a.name → b.waiting = a.waiting → (∀ v, c = .user v → ¬ Known cfg v) → LoginStep cfg c a b
  | user (s : List Nat) : c = .user s → Known cfg s → b.name = some s → (b.waiting = false → ∃ x ∈ cfg.users, x.name = s ∧ x.password = []) → LoginStep cfg c a b
  | pass (s u : List Nat) : c = .pass s → a.name = some u → b.name = some u → (∃ x ∈ cfg.users, x.name = u ∧ x.password = s) → LoginStep cfg c a b

theorem keeps_step {cfg : Config} {c : Cmd} {a b : Client} (h : Keeps b a) (hc : ∀ v, c ≠ .user v) : LoginStep cfg c a b :=
  .same h.2.1 h.2.2 fun v hv => (hc v hv).elim

theorem keeps_step' {cfg : Config} {c : Cmd} {a b : Client} (h1 : b.name = a.name) (h2 : b.waiting = a.waiting) (hc : ∀ v, c ≠ .user v) : LoginStep cfg c a b :=
  .same h1 h2 fun v hv => (hc v hv).elim

theorem user_step {cfg : Config} (ha : cfg.anonymous = false) (cl : Client) (s : List Nat) : LoginStep cfg (.user s) cl (user cfg cl s).cl := by
  unfold user
  split
  · rename_i hs
    exact .same rfl rfl fun v hv hk => by injection hv with hv; exact hk.1 (by rw [← hv, hs])
  · rename_i hs
    rw [if_neg (by simp [ha])]
    split
    · rename_i hf
      refine .same rfl rfl fun v hv hk => ?_
      injection hv with hv
      subst hv
      obtain ⟨x, hx, hn⟩ := hk.2
      have := List.find?_eq_none.mp hf x hx
      simp [hn] at this
    · rename_i u hf
      have hu : u ∈ cfg.users := List.mem_of_find?_eq_some hf
      have hn : u.name = s := by simpa using List.find?_some hf
      split
      · exact .user s rfl ⟨hs, u, hu, hn⟩ rfl fun h => by cases h
      · rename_i hp
        exact .user s rfl ⟨hs, u, hu, hn⟩ rfl fun _ => ⟨u, hu, hn, by simpa using hp⟩

theorem open_step {cfg : Config} (ha : cfg.anonymous = false) (cl : Client) (c : Cmd) : LoginStep cfg c cl (open_ cfg cl c).cl := by
  cases c
  case user s => exact user_step ha cl s
  all_goals exact keeps_step ⟨rfl, rfl, rfl⟩ (by simp)

theorem pass_step {cfg : Config} (ha : cfg.anonymous = false) {cl : Client} (hn : cl.name.isSome = true) (s : List Nat) :
    LoginStep cfg (.pass s) cl (pass cfg cl s).cl := by
  unfold pass
  split
  · rename_i h
    obtain ⟨u, hu⟩ := Option.isSome_iff_exists.mp hn
    unfold passOk at h
    rw [ha, Bool.false_or, List.any_eq_true] at h
    obtain ⟨x, hx, hp⟩ := h
    simp only [hu, Option.some.injEq, decide_eq_true_eq] at hp
    exact .pass s u rfl hu hu ⟨x, hx, hp⟩
  · exact keeps_step ⟨rfl, rfl, rfl⟩ (by simp)

theorem handle_step {cfg : Config} (ha : cfg.anonymous = false) (root : Path) (w : World) (cl : Client) (c : Cmd) :
    LoginStep cfg c cl (handle cfg root w cl c).cl := by
  unfold handle
  split
  · cases c
    case cwd p =>
      refine keeps_step' ?_ ?_ (by simp)
      all_goals (dsimp only; unfold cwd; dsimp only; split; rfl; split <;> rfl)
    case list p => exact keeps_step (keeps_list root w cl p) (by simp)
    case nlst p => exact keeps_step (keeps_nlst root w cl p) (by simp)
    case pasv => exact keeps_step (keeps_pasv w cl) (by simp)
    case epsv s => exact keeps_step (keeps_epsv w cl s) (by simp)
    case retr p => exact keeps_step (keeps_retr root w cl p) (by simp)
    case stor p => exact keeps_step (keeps_stor root w cl p) (by simp)
    case mkd p => exact keeps_step (keeps_mkd root w cl p) (by simp)
    case rmd p => exact keeps_step (keeps_rmd root w cl p) (by simp)
    case dele p => exact keeps_step (keeps_dele root w cl p) (by simp)
    case cdup =>
      refine keeps_step' ?_ ?_ (by simp)
      all_goals (dsimp only; unfold cdup; dsimp only [Res.say]; split <;> rfl)
    case port n => exact keeps_step ⟨rfl, rfl, rfl⟩ (by simp)
    case pwd => exact keeps_step ⟨rfl, rfl, rfl⟩ (by simp)
    all_goals exact open_step ha _ _
  · split
    · rename_i h
      cases c
      case pass s => exact pass_step ha h.1 s
      all_goals exact open_step ha _ _
    · exact open_step ha _ _

/-- The login state that the commands so far explain -/
def Explained (cfg : Config) (h : List Cmd) (cl : Client) : Prop :=
  ∀ u, cl.name = some u → ∃ pre post, h = pre ++ .user u :: post ∧ Known cfg u ∧ (∀ v, .user v ∈ post → ¬ Known cfg v) ∧
    (cl.waiting = false → (∃ x ∈ cfg.users, x.name = u ∧ x.password = []) ∨ ∃ pw, .pass pw ∈ post ∧ ∃ x ∈ cfg.users, x.name = u ∧ x.password = pw)

theorem explained_step {cfg : Config} {h : List Cmd} {a b : Client} {c : Cmd} (he : Explained cfg h a) (hs : LoginStep cfg c a b) : Explained cfg (h ++ [c]) b := by
  intro u hu
  cases hs with
  | same h1 h2 h3 =>
    obtain ⟨pre, post, e, hk, hno, hp⟩ := he u (by rw [← h1]; exact hu)
    refine ⟨pre, post ++ [c], by rw [e]; simp, hk, ?_, ?_⟩
    · intro v hv
      rcases List.mem_append.mp hv with hv | hv
      · exact hno v hv
      · simp only [List.mem_singleton] at hv
        exact h3 v hv.symm
    · intro hw
      rcases hp (by rw [← h2]; exact hw) with h | ⟨pw, hin, h⟩
      · exact .inl h
      · exact .inr ⟨pw, by simp [hin], h⟩
  | user s h1 h2 h3 h4 =>
    rw [h3] at hu
    injection hu with hu
    subst hu
    exact ⟨h, [], by rw [h1], h2, by simp, fun hw => .inl (h4 hw)⟩
  | pass s v h1 h2 h3 h4 =>
    rw [h3] at hu
    injection hu with hu
    subst hu
    obtain ⟨pre, post, e, hk, hno, hp⟩ := he v h2
    refine ⟨pre, post ++ [c], by rw [e]; simp, hk, ?_, fun _ => .inr ⟨s, by simp [h1], h4⟩⟩
    intro x hx
    rcases List.mem_append.mp hx with hx | hx
    · exact hno x hx
    · simp [h1] at hx

theorem explained_login {cfg : Config} {h : List Cmd} {cl : Client} (he : Explained cfg h cl) (hl : cl.logged = true) : ∃ u, LoginAs cfg h u := by
  unfold Client.logged at hl
  simp only [Bool.and_eq_true, Bool.not_eq_true'] at hl
  obtain ⟨u, hu⟩ := Option.isSome_iff_exists.mp hl.1
  obtain ⟨pre, post, e, hk, hno, hp⟩ := he u hu
  exact ⟨u, pre, post, e, hk, hno, hp hl.2⟩

/-- In a session every command is handled in a state that the commands before it explain. -/
theorem session_explained {cfg : Config} (ha : cfg.anonymous = false) {root : Path} (l : List (Cmd × World)) (h : List Cmd) (cl : Client)
    (he : Explained cfg h cl) (before after : List (Cmd × Res)) (c : Cmd) (r : Res) (hs : session cfg root cl l = before ++ (c, r) :: after) :
    ∃ cl' w, Explained cfg (h ++ before.map (·.1)) cl' ∧ r = handle cfg root w cl' c := by
  induction l generalizing cl h before with
  | nil => simp [session] at hs
  | cons a l ih =>
    obtain ⟨d, w⟩ := a
    rw [session] at hs
    cases before with
    | nil =>
      simp only [List.nil_append, List.cons.injEq, Prod.mk.injEq] at hs
      obtain ⟨⟨rfl, h2⟩, -⟩ := hs
      exact ⟨cl, w, by simpa using he, h2.symm⟩
    | cons b before =>
      simp only [List.cons_append, List.cons.injEq] at hs
      obtain ⟨rfl, h2⟩ := hs
      split at h2
      · simp at h2
      · obtain ⟨cl', w', h3, h4⟩ := ih (h ++ [d]) _ (explained_step he (handle_step ha root w cl d)) before h2
        exact ⟨cl', w', by simpa using h3, h4⟩

end Verif.Ftp
