import Verif.Proofs.Ftp
/-! # Replies of a session stay one reply each -/

namespace Verif.Ftp
open Verif Verif.Path

/-- A text as a line can contain it -/
def TextOk (t : List Nat) : Prop := NoCrlf t ∧ IsBytes t

theorem NoCrlf.infix {a b c : List Nat} (h : NoCrlf (a ++ b ++ c)) : NoCrlf b := by
  intro x y e
  exact h (a ++ x) (y ++ c) (by rw [e]; simp)

theorem TextOk.infix {a b c : List Nat} (h : TextOk (a ++ b ++ c)) : TextOk b :=
  ⟨h.1.infix, fun x hx => h.2 x (by simp [hx])⟩

theorem upper_noCrlf {t : List Nat} (h : NoCrlf t) : NoCrlf (t.map upper) := by
  intro x y e
  obtain ⟨l1, l2, e1, -, e3⟩ := List.map_eq_append_iff.mp e
  have hu : ∀ b, upper b = 13 → b = 13 := by intro b hb; unfold upper at hb; split at hb <;> omega
  have hv : ∀ b, upper b = 10 → b = 10 := by intro b hb; unfold upper at hb; split at hb <;> omega
  cases l2 with
  | nil => simp at e3
  | cons a l2 =>
    cases l2 with
    | nil => simp at e3
    | cons b l2 =>
      simp only [List.map_cons, List.cons.injEq] at e3
      exact h l1 l2 (by rw [e1, hu a e3.1, hv b e3.2.1])

theorem upper_bytes {t : List Nat} (h : IsBytes t) : IsBytes (t.map upper) := by
  intro b hb
  obtain ⟨a, ha, rfl⟩ := List.mem_map.mp hb
  have := h a ha
  unfold upper
  split <;> omega

theorem need_ok {d : Option (List Nat)} {t : List Nat} (h : need d = .ok t) : d = some t := by
  unfold need at h
  split at h
  · cases h
  · split at h
    · injection h with h; rw [h]
    · cases h

theorem texts_need {d : Option (List Nat)} (hd : ∀ t, d = some t → TextOk t) (f : List Nat → Cmd) (hf : ∀ t, (f t).texts = [t]) {c : Cmd}
    (h : (need d).map f = .ok c) : ∀ t ∈ c.texts, TextOk t := by
  cases hn : need d with
  | error e => rw [hn] at h; cases h
  | ok t =>
    rw [hn] at h
    injection h with h
    subst h
    rw [hf]
    intro x hx
    simp only [List.mem_singleton] at hx
    exact hd x (by rw [hx]; exact need_ok hn)

theorem texts_opt {d : Option (List Nat)} (hd : ∀ t, d = some t → TextOk t) (p : List Nat → Bool) : ∀ t ∈ (d.filter p).toList, TextOk t := by
  intro t ht
  rw [Option.mem_toList, Option.filter_eq_some_iff] at ht
  exact hd t ht.1

theorem texts_port {d : Option (List Nat)} {c : Cmd} (h : parsePort d = .ok c) : c.texts = [] := by
  unfold parsePort at h
  split at h
  · cases h
  · split at h
    · split at h
      · cases h
      · injection h with h; subst h; rfl
    · cases h

theorem texts_type {d : Option (List Nat)} {c : Cmd} (h : parseType d = .ok c) : c.texts = [] := by
  unfold parseType at h
  split at h
  · injection h with h; subst h; rfl
  · injection h with h; subst h; rfl
  · cases h

theorem texts_none {c : Cmd} (h : c.texts = []) : ∀ t ∈ c.texts, TextOk t := by simp [h]

/-- The texts of a parsed command are sound. -/
def TextsOk (r : R Cmd) : Prop := ∀ c, r = .ok c → ∀ t ∈ c.texts, TextOk t

theorem ite_texts {P : Prop} [Decidable P] {a b : R Cmd} (ha : TextsOk a) (hb : TextsOk b) : TextsOk (if P then a else b) := by
  split
  · exact ha
  · exact hb

/-- What a line without end-of-line sequence says has none either. -/
theorem parseCmd_texts {l : List Nat} (hl : TextOk l) {c : Cmd} (h : parseCmd l = .ok c) : ∀ t ∈ c.texts, TextOk t := by
  have hdata : ∀ t, argOf l = some t → TextOk t := by
    intro t ht
    unfold argOf at ht
    have hsplit := List.takeWhile_append_dropWhile (p := fun x : Nat => decide (x ≠ 32)) (l := l)
    split at ht
    · cases ht
    · rename_i x d hd
      injection ht with ht
      subst ht
      rw [hd] at hsplit
      have : TextOk (l.takeWhile (fun x => decide (x ≠ 32)) ++ [x] ++ d ++ []) := by
        rw [List.append_nil, List.append_assoc]
        rw [← hsplit] at hl
        exact hl
      exact this.infix
  have hword : TextOk ((l.takeWhile (· ≠ 32)).map upper) := by
    have hsplit := List.takeWhile_append_dropWhile (p := fun x : Nat => decide (x ≠ 32)) (l := l)
    have : TextOk ([] ++ l.takeWhile (fun x => decide (x ≠ 32)) ++ l.dropWhile (fun x => decide (x ≠ 32))) := by
      rw [List.nil_append, hsplit]; exact hl
    exact ⟨upper_noCrlf this.infix.1, upper_bytes this.infix.2⟩
  unfold parseCmd at h
  generalize argOf l = data at h hdata
  generalize (l.takeWhile (· ≠ 32)).map upper = word at h hword
  have hok : ∀ {d : Cmd}, d.texts = [] → TextsOk (.ok d) := by
    intro d hd c he
    injection he with he
    subst he
    exact texts_none hd
  have hopt : ∀ {f : Option (List Nat) → Cmd}, (∀ o, (f o).texts = o.toList) → TextsOk (.ok (f (data.filter fun d => utf8 d))) := by
    intro f hf c he
    injection he with he
    subst he
    rw [hf]
    exact texts_opt hdata _
  have hneed : ∀ {f : List Nat → Cmd}, (∀ o, (f o).texts = [o]) → TextsOk ((need data).map f) := fun hf c he => texts_need hdata _ hf he
  refine (?_ : TextsOk _) c h
  refine ite_texts (hok rfl) <| ite_texts (hneed fun _ => rfl) <| ite_texts (hopt (f := .list) fun _ => rfl) <|
    ite_texts (hopt (f := .nlst) fun _ => rfl) <| ite_texts (hok rfl) <| ite_texts (hopt (f := .epsv) fun _ => rfl) <|
    ite_texts (fun c h => texts_none (texts_port h)) <| ite_texts (hok rfl) <| ite_texts (hok rfl) <| ite_texts (hok rfl) <|
    ite_texts (hneed fun _ => rfl) <| ite_texts (hneed fun _ => rfl) <| ite_texts (hok rfl) <| ite_texts (fun c h => texts_none (texts_type h)) <|
    ite_texts (hok rfl) <| ite_texts (hneed fun _ => rfl) <| ite_texts (hneed fun _ => rfl) <| ite_texts (hneed fun _ => rfl) <|
    ite_texts (hneed fun _ => rfl) <| ite_texts (hneed fun _ => rfl) <| ite_texts (hok rfl) ?_
  intro c h
  injection h with h
  subst h
  intro t ht
  simp only [Cmd.texts, List.mem_singleton] at ht
  subst ht
  split
  · exact hword
  · exact ⟨noCrlf_nil, by intro x hx; simp at hx⟩

/-! ## Paths -/

theorem splitSlash_infix (s : List Char) : ∀ n ∈ splitSlash s, ∃ a b, s = a ++ n ++ b := by
  have hne : ∀ s, splitSlash s ≠ [] := by
    intro s
    cases s with
    | nil => simp [splitSlash]
    | cons c s =>
      rw [splitSlash]
      split
      · simp
      · split <;> simp
  have key : ∀ s : List Char, (∀ n ∈ splitSlash s, ∃ a b, s = a ++ n ++ b) ∧ ∀ n ns, splitSlash s = n :: ns → ∃ b, s = n ++ b := by
    intro s
    induction s with
    | nil => simp [splitSlash]
    | cons c s ih =>
      rw [splitSlash]
      by_cases hc : c = '/'
      · rw [if_pos hc]
        refine ⟨?_, ?_⟩
        · intro n hn
          rcases List.mem_cons.mp hn with rfl | hn
          · exact ⟨[], c :: s, rfl⟩
          · obtain ⟨a, b, e⟩ := ih.1 n hn
            exact ⟨c :: a, b, by rw [e]; rfl⟩
        · intro n ns e
          injection e with e1 e2
          exact ⟨c :: s, by rw [← e1]; rfl⟩
      · rw [if_neg hc]
        cases hs : splitSlash s with
        | nil => exact (hne s hs).elim
        | cons m ms =>
          obtain ⟨b, hb⟩ := ih.2 m ms hs
          refine ⟨?_, ?_⟩
          · intro n hn
            rcases List.mem_cons.mp hn with rfl | hn
            · exact ⟨[], b, by rw [hb]; rfl⟩
            · obtain ⟨a, b, e⟩ := ih.1 n (by rw [hs]; simp [hn])
              exact ⟨c :: a, b, by rw [e]; rfl⟩
          · intro n ns e
            injection e with e1 e2
            exact ⟨b, by rw [← e1, hb]; rfl⟩
  exact (key s).1

theorem toNat_ofNat {b : Nat} (h : b < 256) : (Char.ofNat b).toNat = b := by
  have hv : b.isValidChar := .inl (by omega)
  rw [Char.toNat, Char.ofNat, dif_pos hv]
  simp [Char.ofNatAux]

theorem text_back {b : List Nat} (h : IsBytes b) : (text b).map Char.toNat = b := by
  unfold text
  rw [List.map_map]
  refine (List.map_congr_left fun x hx => ?_).trans (List.map_id _)
  exact toNat_ofNat (h x hx)

theorem parse_ok {b : List Nat} (h : TextOk b) : PathOk (parse (text b)) := by
  intro n hn
  have hin : Comp.normal n ∈ (splitSlash (text b)).filterMap compOf := by
    unfold parse at hn
    split at hn
    · simpa using hn
    · simp at hn
    · simpa using hn
    · exact hn
  obtain ⟨m, hm, he⟩ := List.mem_filterMap.mp hin
  have : m = n := by
    unfold compOf at he
    split at he
    · cases he
    · split at he
      · cases he
      · injection he with he; injection he
  subst this
  obtain ⟨x, y, e⟩ := splitSlash_infix _ m hm
  have e2 := congrArg (List.map Char.toNat) e
  rw [text_back h.2, List.map_append, List.map_append] at e2
  have := h.1
  rw [e2] at this
  exact this.infix

theorem push_ok {p q : Path} (hp : PathOk p) (hq : PathOk q) : PathOk (push p q) := by
  intro n hn
  unfold push at hn
  split at hn
  · exact hq n hn
  · split at hn
    · exact hq n hn
    · rcases List.mem_append.mp hn with hn | hn
      · exact hp n hn
      · exact hq n (List.mem_filter.mp hn).1

theorem join_ok {cl : Client} (hc : PathOk cl.cwd) {p : List Nat} (hp : TextOk p) : PathOk (join cl p) := push_ok hc (parse_ok hp)

theorem joined_ok (ns : List (List Nat)) (h : ∀ n ∈ ns, NoCrlf n) : NoCrlf ((ns.intersperse (str "/")).flatten) := by
  have hs : str "/" = [47] := by decide
  rw [hs]
  induction ns with
  | nil => exact noCrlf_nil
  | cons a l ih =>
    cases l with
    | nil => simpa using h a (by simp)
    | cons b l =>
      rw [List.intersperse_cons_cons, List.flatten_cons, List.flatten_cons]
      refine NoCrlf.append (h a (by simp)) ((ih fun n hn => h n (by simp [hn])).cons (by omega)) (.inr ?_)
      simp

theorem showPath_ok {p : Path} (h : PathOk p) : NoCrlf (showPath p) := by
  unfold showPath
  dsimp only
  refine noCrlf_lit ?_ (joined_ok _ ?_)
  · split
    · decide
    · simp
  · intro n hn
    obtain ⟨c, hc, he⟩ := List.mem_filterMap.mp hn
    split at he
    · cases he
    · injection he with he; subst he; exact noCrlf_lit' (by decide)
    · injection he with he; subst he; exact noCrlf_lit' (by decide)
    · injection he with he; subst he; exact h _ hc

/-! ## One command -/

/-- A reply that a client reads as one reply -/
def Good (a : Answer) : Prop := a.code < 1000 ∧ NoCrlf a.message ∧ ∀ l ∈ a.lines, NoCrlf l

def Goods (l : List Answer) : Prop := ∀ a ∈ l, Good a

theorem Goods.append {a b : List Answer} (ha : Goods a) (hb : Goods b) : Goods (a ++ b) := fun x hx => (List.mem_append.mp hx).elim (ha x) (hb x)

theorem good_reply {c : Nat} (hc : c < 1000) {m : List Nat} (hm : NoCrlf m) : Goods [reply c m] := by
  intro a ha
  simp only [List.mem_singleton] at ha
  subst ha
  exact ⟨hc, hm, by simp [reply]⟩

theorem good_lit {c : Nat} (hc : c < 1000) {m : List Nat} (hm : ∀ b ∈ m, b ≠ 13) : Goods [reply c m] := good_reply hc (noCrlf_lit' hm)

theorem good_nil : Goods [] := by simp [Goods]

/-- literal, text, literal -/
theorem quoted {a t b : List Nat} (ha : ∀ c ∈ a, c ≠ 13) (ht : NoCrlf t) (hb : ∀ c ∈ b, c ≠ 13) (hh : b.head? ≠ some 10) : NoCrlf (a ++ t ++ b) := by
  rw [List.append_assoc]
  exact noCrlf_lit ha (ht.append (noCrlf_lit' hb) (.inr hh))

/-- No name of the file system has an end-of-line sequence in it. -/
def WorldOk (w : World) : Prop := ∀ p q, w.canon p = some q → PathOk q

/-- No name the client state holds has one. -/
def ClientOk (cl : Client) : Prop := PathOk cl.cwd ∧ ∀ n, cl.name = some n → NoCrlf n

theorem Keeps.ok {a b : Client} (h : Keeps a b) (hb : ClientOk b) : ClientOk a := ⟨h.1 ▸ hb.1, fun n hn => hb.2 n (by rw [← h.2.1]; exact hn)⟩

theorem complete_ok {root : Path} {w : World} (hw : WorldOk w) {p d : Path} (h : completePath root w p = some d) : PathOk d := by
  unfold completePath at h
  split at h
  · cases h
  · rename_i q hq
    split at h
    · injection h with h; subst h; exact hw _ _ hq
    · cases h

theorem init_good (w : World) (cl : Client) : Goods (initData w cl).2 := by
  unfold initData
  split
  · exact good_nil
  · split
    · exact good_nil
    · exact good_lit (by decide) (by decide)

theorem finish_good {cl : Client} {ops : List Op} {out : List Answer} (h : Goods out) : Goods (finish cl ops out).out := by
  unfold finish
  split
  · exact h.append (good_lit (by decide) (by decide))
  · exact h

theorem decBytes_ne (n : Nat) : ∀ b ∈ decBytes n, b ≠ 13 := by
  intro b hb
  unfold decBytes at hb
  obtain ⟨c, hc, rfl⟩ := List.mem_map.mp hb
  have := Nat.isDigit_of_mem_toDigits (by decide) (by decide) hc
  intro he
  have hc' : c = Char.ofNat 13 := by rw [← he, Char.ofNat_toNat]
  subst hc'
  exact absurd this (by decide)

theorem cwd_good {root : Path} {w : World} {cl : Client} {p : List Nat} (hp : TextOk p) : Goods (cwd root w cl p).out := by
  unfold cwd
  dsimp only [Res.say]
  split
  · exact good_lit (by decide) (by decide)
  · split
    · exact good_lit (by decide) (by decide)
    · exact good_reply (by decide) (quoted (by decide) hp.1 (by decide) (by decide))

theorem strip_ok {a p q : Path} (hp : PathOk p) (h : stripPrefix a p = some q) : PathOk (prefixSlash q) := by
  unfold stripPrefix at h
  split at h
  · injection h with h
    subst h
    have hd : PathOk (p.drop a.length) := fun n hn => hp n (List.mem_of_mem_drop hn)
    unfold prefixSlash
    split
    · exact hd
    · exact push_ok (by intro n hn; simp at hn) hd
  · cases h

theorem cwd_ok {root : Path} {w : World} (hw : WorldOk w) {cl : Client} (hc : ClientOk cl) (p : List Nat) : ClientOk (cwd root w cl p).cl := by
  unfold cwd
  dsimp only [Res.say]
  split
  · exact hc
  · rename_i d hd
    split
    · exact hc
    · rename_i r hr
      exact ⟨strip_ok (complete_ok hw hd) hr, hc.2⟩

theorem cdup_ok {cl : Client} (hc : ClientOk cl) : ClientOk (cdup cl).cl := by
  unfold cdup
  dsimp only [Res.say]
  split
  · exact hc
  · rename_i q hq
    refine ⟨?_, hc.2⟩
    have hpq : PathOk q := by
      unfold parentOf at hq
      split at hq
      · cases hq
      · cases hq
      · injection hq with hq; subst hq
        exact fun n hn => hc.1 n ((List.dropLast_sublist _).subset hn)
    show PathOk (prefixSlash q)
    unfold prefixSlash
    split
    · exact hpq
    · exact push_ok (by intro n hn; simp at hn) hpq

theorem cdup_good {cl : Client} (hc : ClientOk cl) : Goods (cdup cl).out := by
  have := (cdup_ok hc).1
  unfold cdup at this ⊢
  dsimp only [Res.say] at this ⊢
  exact good_reply (by decide) (quoted (by decide) (showPath_ok this) (by decide) (by decide))

theorem list_good (root : Path) (w : World) (cl : Client) (p : Option (List Nat)) : Goods (list root w cl p).out := by
  have hi := init_good w cl
  unfold list
  dsimp only
  split
  · split
    · exact finish_good (hi.append (good_lit (by decide) (by decide)))
    · have ho := hi.append (good_lit (c := 125) (m := str "Starting to list directory...") (by decide) (by decide))
      split
      · split
        · split
          · exact finish_good ho
          · exact ho
        · exact ho.append (good_lit (by decide) (by decide))
      · split
        · exact finish_good ho
        · exact ho
  · exact finish_good (hi.append (good_lit (by decide) (by decide)))

theorem nlst_good (root : Path) (w : World) (cl : Client) (p : Option (List Nat)) : Goods (nlst root w cl p).out := by
  have hi := init_good w cl
  unfold nlst
  dsimp only
  split
  · split
    · exact finish_good (hi.append (good_lit (by decide) (by decide)))
    · split
      · exact hi.append (good_lit (by decide) (by decide))
      · split
        · exact hi.append (good_lit (by decide) (by decide))
        · split
          · exact finish_good (hi.append (good_lit (by decide) (by decide)))
          · exact hi.append (good_lit (by decide) (by decide))
  · exact finish_good (hi.append (good_lit (by decide) (by decide)))

theorem retr_good {root : Path} {w : World} (hw : WorldOk w) {cl : Client} (hc : ClientOk cl) {p : List Nat} (hp : TextOk p) : Goods (retr root w cl p).out := by
  have hi := init_good w cl
  have hq : ∀ q, PathOk q → Goods [reply 451 (str "\"" ++ showPath q ++ str "\" doesn't exist")] := fun q h =>
    good_reply (by decide) (quoted (by decide) (showPath_ok h) (by decide) (by decide))
  unfold retr
  dsimp only
  split
  · split
    · exact finish_good (hi.append (hq _ (join_ok ((initData_cwd w cl).symm ▸ hc.1) hp)))
    · rename_i path hpath
      have hpk := complete_ok hw hpath
      have ho := hi.append (good_lit (c := 125) (m := str "Starting to send file...") (by decide) (by decide))
      split
      · split
        · split
          · exact finish_good ho
          · exact ho
        · exact ho.append (hq _ hpk)
      · exact finish_good (hi.append (hq _ hpk))
  · exact finish_good (hi.append (good_lit (by decide) (by decide)))

theorem stor_good (root : Path) (w : World) (cl : Client) (p : List Nat) : Goods (stor root w cl p).out := by
  have hi := init_good w cl
  unfold stor
  dsimp only
  split
  · split
    · exact hi
    · have ho := hi.append (good_lit (c := 125) (m := str "Starting to send file...") (by decide) (by decide))
      split
      · refine ho.append ?_
        split <;> exact good_lit (by decide) (by decide)
      · exact ho
  · exact hi.append (good_lit (by decide) (by decide))

theorem mkd_good (root : Path) (w : World) (cl : Client) {p : List Nat} (hp : TextOk p) : Goods (mkd root w cl p).out := by
  have hf : Goods [reply 550 (str "Couldn't create folder: " ++ p)] := good_reply (by decide) (noCrlf_lit (by decide) hp.1)
  unfold mkd
  dsimp only [Res.say]
  split
  · exact hf
  · split
    · exact hf
    · split
      · split
        · exact hf
        · split
          · exact good_lit (by decide) (by decide)
          · exact hf
      · exact hf

theorem rmd_good (root : Path) (w : World) (cl : Client) {p : List Nat} (hp : TextOk p) : Goods (rmd root w cl p).out := by
  have hf : Goods [reply 550 (str "Couldn't remove folder: " ++ p)] := good_reply (by decide) (noCrlf_lit (by decide) hp.1)
  unfold rmd
  dsimp only [Res.say]
  split
  · exact hf
  · split
    · exact good_lit (by decide) (by decide)
    · exact hf

theorem dele_good (root : Path) (w : World) (cl : Client) {p : List Nat} (hp : TextOk p) : Goods (dele root w cl p).out := by
  have hf : Goods [reply 550 (str "Couldn't remove file: " ++ p)] := good_reply (by decide) (noCrlf_lit (by decide) hp.1)
  unfold dele
  dsimp only [Res.say]
  split
  · exact hf
  · split
    · exact good_lit (by decide) (by decide)
    · exact hf

theorem pasv_good (w : World) (cl : Client) : Goods (pasv w cl).out := by
  unfold pasv
  dsimp only [Res.say]
  split
  · exact good_lit (by decide) (by decide)
  · split
    · exact good_lit (by decide) (by decide)
    · exact good_nil

theorem epsv_good (w : World) (cl : Client) (s : Option (List Nat)) : Goods (epsv w cl s).out := by
  unfold epsv
  dsimp only [Res.say]
  split
  · exact good_nil
  · split
    · exact good_lit (by decide) (by decide)
    · exact good_lit (by decide) (by decide)

theorem user_good (cfg : Config) (cl : Client) {s : List Nat} (hs : TextOk s) : Goods (user cfg cl s).out := by
  unfold user
  dsimp only [Res.say]
  split
  · exact good_lit (by decide) (by decide)
  · split
    · exact good_reply (by decide) (noCrlf_lit (by decide) hs.1)
    · split
      · exact good_lit (by decide) (by decide)
      · split
        · exact good_reply (by decide) (noCrlf_lit (by decide) hs.1)
        · exact good_reply (by decide) (quoted (by decide) hs.1 (by decide) (by decide))

theorem user_ok (cfg : Config) {cl : Client} (hc : ClientOk cl) {s : List Nat} (hs : TextOk s) : ClientOk (user cfg cl s).cl := by
  have hn : ∀ n, some s = some n → NoCrlf n := by
    intro n h
    injection h with h
    subst h
    exact hs.1
  unfold user
  dsimp only [Res.say]
  split
  · exact hc
  · split
    · exact ⟨hc.1, hn⟩
    · split
      · exact hc
      · split <;> exact ⟨hc.1, hn⟩

theorem open_good (cfg : Config) (cl : Client) {c : Cmd} (h : ∀ t ∈ c.texts, TextOk t) : Goods (open_ cfg cl c).out := by
  cases c
  case user s => exact user_good cfg cl (h s (by simp [Cmd.texts]))
  case unknown s => exact good_reply (by decide) (quoted (by decide) (h s (by simp [Cmd.texts])).1 (by decide) (by decide))
  case feat =>
    intro a ha
    simp only [open_, List.mem_singleton] at ha
    subst ha
    refine ⟨by decide, noCrlf_lit' (by decide), ?_⟩
    intro l hl
    simp only [List.mem_singleton] at hl
    subst hl
    exact noCrlf_lit' (by decide)
  all_goals exact good_lit (by decide) (by decide)

theorem open_ok (cfg : Config) {cl : Client} (hc : ClientOk cl) {c : Cmd} (h : ∀ t ∈ c.texts, TextOk t) : ClientOk (open_ cfg cl c).cl := by
  cases c
  case user s => exact user_ok cfg hc (h s (by simp [Cmd.texts]))
  all_goals exact hc

theorem handle_good {cfg : Config} {root : Path} {w : World} (hw : WorldOk w) {cl : Client} (hc : ClientOk cl) {c : Cmd} (h : ∀ t ∈ c.texts, TextOk t) :
    Goods (handle cfg root w cl c).out ∧ ClientOk (handle cfg root w cl c).cl := by
  have hopen : ∀ {c : Cmd}, (∀ t ∈ c.texts, TextOk t) → Goods (open_ cfg cl c).out ∧ ClientOk (open_ cfg cl c).cl := fun h =>
    ⟨open_good cfg cl h, open_ok cfg hc h⟩
  unfold handle
  split
  · cases c
    case cwd p => exact ⟨cwd_good (h p (by simp [Cmd.texts])), cwd_ok hw hc p⟩
    case list p => exact ⟨list_good root w cl p, (keeps_list root w cl p).ok hc⟩
    case nlst p => exact ⟨nlst_good root w cl p, (keeps_nlst root w cl p).ok hc⟩
    case pasv => exact ⟨pasv_good w cl, (keeps_pasv w cl).ok hc⟩
    case epsv s => exact ⟨epsv_good w cl s, (keeps_epsv w cl s).ok hc⟩
    case retr p => exact ⟨retr_good hw hc (h p (by simp [Cmd.texts])), (keeps_retr root w cl p).ok hc⟩
    case stor p => exact ⟨stor_good root w cl p, (keeps_stor root w cl p).ok hc⟩
    case mkd p => exact ⟨mkd_good root w cl (h p (by simp [Cmd.texts])), (keeps_mkd root w cl p).ok hc⟩
    case rmd p => exact ⟨rmd_good root w cl (h p (by simp [Cmd.texts])), (keeps_rmd root w cl p).ok hc⟩
    case dele p => exact ⟨dele_good root w cl (h p (by simp [Cmd.texts])), (keeps_dele root w cl p).ok hc⟩
    case cdup => exact ⟨cdup_good hc, cdup_ok hc⟩
    case port n => exact ⟨good_reply (by decide) (noCrlf_lit (by decide) (noCrlf_lit' (decBytes_ne n))), hc⟩
    case pwd => exact ⟨good_reply (by decide) (quoted (by decide) (showPath_ok hc.1) (by decide) (by decide)), hc⟩
    all_goals exact hopen h
  · split
    · cases c
      case pass s =>
        dsimp only
        unfold pass
        have hn : NoCrlf (cl.name.getD []) := by
          cases hcn : cl.name with
          | none => exact noCrlf_nil
          | some n => exact hc.2 n hcn
        split
        · exact ⟨good_reply (by decide) (noCrlf_lit (by decide) hn), hc⟩
        · exact ⟨good_lit (by decide) (by decide), hc⟩
      all_goals exact hopen h
    · exact hopen h

theorem session_good {cfg : Config} {root : Path} (l : List (Cmd × World)) (hw : ∀ x ∈ l, WorldOk x.2 ∧ ∀ t ∈ x.1.texts, TextOk t) (cl : Client) (hc : ClientOk cl) :
    ∀ x ∈ session cfg root cl l, Goods x.2.out := by
  induction l generalizing cl with
  | nil => simp [session]
  | cons a l ih =>
    obtain ⟨c, w⟩ := a
    intro x hx
    rw [session] at hx
    have h := handle_good (cfg := cfg) (root := root) (hw (c, w) (by simp)).1 hc (hw (c, w) (by simp)).2
    rcases List.mem_cons.mp hx with rfl | hx
    · exact h.1
    · split at hx
      · simp at hx
      · exact ih (fun y hy => hw y (by simp [hy])) _ h.2 x hx

theorem parseReplies_good (l : List Answer) (h : Goods l) (fuel : Nat) (hf : l.length ≤ fuel) (rest : List Nat) (hr : parseReply rest = none) :
    parseReplies fuel (l.flatMap encode ++ rest) = (l.map (·.code), rest) := by
  induction l generalizing fuel with
  | nil =>
    rw [List.flatMap_nil, List.nil_append, List.map_nil]
    cases fuel with
    | zero => rfl
    | succ f => rw [parseReplies, hr]
  | cons a l ih =>
    obtain ⟨f, rfl⟩ : ∃ f, fuel = f + 1 := ⟨fuel - 1, by simp at hf; omega⟩
    obtain ⟨h1, h2, h3⟩ := h a (by simp)
    rw [List.flatMap_cons, List.append_assoc, parseReplies, parseReply_encode h1 h2 h3]
    simp only [ih (fun x hx => h x (by simp [hx])) f (by simp at hf; omega), List.map_cons]

end Verif.Ftp
