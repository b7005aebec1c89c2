import Verif.Props.Ftp
/-! # C53: FTP replies tell what happened -/

namespace Verif.Props
open Verif Verif.Path Verif.Ftp

/-- Replies that end a command; those below 200 announce another one. -/
def finals (r : Res) : List Nat := (r.out.map (·.code)).filter (200 ≤ ·)

def Positive (code : Nat) : Prop := 200 ≤ code ∧ code < 300
def Negative (code : Nat) : Prop := 400 ≤ code ∧ code < 600

/-- `q` is the existing file or directory that path `p` of a client in directory `cwd` names, and it lies in the root. -/
def Target (root : Path) (w : World) (p : Path) (q : Path) : Prop := w.canon (push root (p.drop 1)) = some q ∧ root <+: q

/-- The change a command asks for, as an operation on the file system: only one that concerns existing things in the root. -/
inductive Asked (root : Path) (w : World) (cl : Client) : Cmd → Op → Prop
  | mkd {p dir n} : Target root w ((push cl.cwd (parse (text p))).dropLast) dir → w.isDir dir = true →
      (push cl.cwd (parse (text p))).getLast? = some (.normal n) → Asked root w cl (.mkd p) (.mkDir (push dir [.normal n]))
  | rmd {p dir} : Target root w (push cl.cwd (parse (text p))) dir → Asked root w cl (.rmd p) (.rmDir dir)
  | dele {p f} : Target root w (push cl.cwd (parse (text p))) f → Asked root w cl (.dele p) (.rmFile f)

theorem completePath_target {root : Path} {w : World} {p q : Path} (hp : isAbs p = true) : completePath root w p = some q ↔ Target root w p q := by
  unfold completePath below Target startsWith
  rw [if_pos hp]
  cases w.canon (push root (p.drop 1)) with
  | none => simp
  | some d =>
    simp only [Option.some.injEq]
    constructor
    · intro h
      split at h
      · rename_i hs; cases h; exact ⟨rfl, List.isPrefixOf_iff_prefix.mp hs⟩
      · cases h
    · rintro ⟨rfl, h⟩
      rw [if_pos (List.isPrefixOf_iff_prefix.mpr h)]

theorem push_abs {c q : Path} (hc : isAbs c = true) : isAbs (push c q) = true := by
  unfold push
  split
  · assumption
  · split
    · rename_i h; subst h; simp [isAbs] at hc
    · cases c with
      | nil => simp [isAbs] at hc
      | cons a c => simpa [isAbs] using hc

theorem dropLast_abs {p : Path} (hp : isAbs p = true) {n : Name} (hl : p.getLast? = some (.normal n)) : isAbs p.dropLast = true := by
  cases p with
  | nil => simp [isAbs] at hp
  | cons a p =>
    cases p with
    | nil => simp [isAbs] at hp; subst hp; simp at hl
    | cons b p => simpa [isAbs] using hp

/-- **C53** for `MKD`, `RMD` and `DELE`, for every file system, client and path: the server makes exactly the change that was asked for, and nothing if there
is none to be made; it sends one reply, which is positive exactly if the change was made. -/
theorem C53_changes (cfg : Config) (root : Path) (w : World) (cl : Client) (hl : cl.logged = true) (ha : isAbs cl.cwd = true) (c : Cmd)
    (hc : (∃ p, c = .mkd p) ∨ (∃ p, c = .rmd p) ∨ ∃ p, c = .dele p) :
    let r := handle cfg root w cl c
    (∀ op, op ∈ r.ops ↔ Asked root w cl c op) ∧ r.ended = false ∧ r.cl = cl ∧
    ∃ a, r.out = [a] ∧ (Positive a.code ∨ Negative a.code) ∧ (Positive a.code ↔ ∃ op, r.ops = [op] ∧ w.works op = true) := by
  have pos : ∀ code, code = 250 ∨ code = 257 → (Positive code ∨ Negative code) ∧ Positive code := by
    intro code h; unfold Positive Negative; omega
  have neg : (Positive 550 ∨ Negative 550) ∧ ¬ Positive 550 := by unfold Positive Negative; omega
  rcases hc with ⟨p, rfl⟩ | ⟨p, rfl⟩ | ⟨p, rfl⟩
  · rw [handle, if_pos hl]
    simp only []
    have habs := push_abs (q := parse (text p)) ha
    rw [mkd]
    simp only [join]
    generalize hfull : push cl.cwd (parse (text p)) = full at habs
    have none_case : (∀ op, ¬ Asked root w cl (.mkd p) op) → let r := Res.say cl 550 (str "Couldn't create folder: " ++ p)
        (∀ op, op ∈ r.ops ↔ Asked root w cl (.mkd p) op) ∧ r.ended = false ∧ r.cl = cl ∧
        ∃ a, r.out = [a] ∧ (Positive a.code ∨ Negative a.code) ∧ (Positive a.code ↔ ∃ op, r.ops = [op] ∧ w.works op = true) := by
      intro h
      exact ⟨fun op => ⟨fun h => (List.not_mem_nil h).elim, fun h' => (h op h').elim⟩, rfl, rfl, _, rfl, neg.1, fun h => (neg.2 h).elim, by rintro ⟨op, h, _⟩; cases h⟩
    cases hpar : parentOf full with
    | none =>
      apply none_case
      rintro op h
      cases h with
      | mkd _ _ h3 => rw [hfull] at h3; simp [parentOf, h3] at hpar
    | some parent =>
      simp only []
      cases hn : fileName full with
      | none =>
        have hno : ∀ op, ¬ Asked root w cl (.mkd p) op := by
          rintro op h
          cases h with
          | mkd _ _ h3 => rw [hfull] at h3; simp [fileName, h3] at hn
        cases completePath root w parent with
        | none => exact none_case hno
        | some dir =>
          simp only []
          split <;> exact none_case hno
      | some n =>
        have hlast : full.getLast? = some (.normal n) := by
          unfold fileName at hn
          split at hn
          · cases hn; assumption
          · cases hn
        have hpd : parent = full.dropLast := by
          simp [parentOf, hlast] at hpar; exact hpar.symm
        subst hpd
        have htgt := fun q => completePath_target (root := root) (w := w) (q := q) (dropLast_abs habs hlast)
        cases hcp : completePath root w full.dropLast with
        | none =>
          apply none_case
          rintro op h
          cases h with
          | mkd h1 _ _ => rw [hfull, ← htgt, hcp] at h1; cases h1
        | some dir =>
          simp only []
          by_cases hd : w.isDir dir = true
          · rw [if_pos hd]
            have hask : ∀ op, op ∈ [Op.mkDir (push dir [.normal n])] ↔ Asked root w cl (.mkd p) op := by
              intro op
              rw [List.mem_singleton]
              constructor
              · rintro rfl
                exact .mkd (by rw [hfull, ← htgt, hcp]) hd (by rw [hfull, hlast])
              · intro h
                cases h with
                | mkd h1 _ h3 =>
                  rw [hfull, ← htgt, hcp] at h1
                  rw [hfull, hlast] at h3
                  cases h1; cases h3; rfl
            by_cases hw : w.works (.mkDir (push dir [.normal n])) = true
            · rw [if_pos hw]
              exact ⟨hask, rfl, rfl, _, rfl, (pos 257 (by simp)).1, fun _ => ⟨_, rfl, hw⟩, fun _ => (pos 257 (by simp)).2⟩
            · rw [if_neg hw]
              exact ⟨hask, rfl, rfl, _, rfl, neg.1, fun h => (neg.2 h).elim, by rintro ⟨op, h, h'⟩; cases h; exact (hw h').elim⟩
          · rw [if_neg hd]
            apply none_case
            rintro op h
            cases h with
            | mkd h1 h2 _ => rw [hfull, ← htgt, hcp] at h1; cases h1; exact hd h2
  · rw [handle, if_pos hl]
    simp only []
    have habs := push_abs (q := parse (text p)) ha
    rw [rmd, join]
    have htgt := fun q => completePath_target (root := root) (w := w) (q := q) habs
    cases hcp : completePath root w (push cl.cwd (parse (text p))) with
    | none =>
      refine ⟨fun op => ⟨fun h => (List.not_mem_nil h).elim, fun h => ?_⟩, rfl, rfl, _, rfl, neg.1, fun h => (neg.2 h).elim, by rintro ⟨op, h, _⟩; cases h⟩
      cases h with
      | rmd h1 => rw [← htgt, hcp] at h1; cases h1
    | some dir =>
      simp only []
      have hask : ∀ op, op ∈ [Op.rmDir dir] ↔ Asked root w cl (.rmd p) op := by
        intro op
        rw [List.mem_singleton]
        constructor
        · rintro rfl; exact .rmd (by rw [← htgt, hcp])
        · intro h
          cases h with
          | rmd h1 => rw [← htgt, hcp] at h1; cases h1; rfl
      by_cases hw : w.works (.rmDir dir) = true
      · rw [if_pos hw]
        exact ⟨hask, rfl, rfl, _, rfl, (pos 250 (by simp)).1, fun _ => ⟨_, rfl, hw⟩, fun _ => (pos 250 (by simp)).2⟩
      · rw [if_neg hw]
        exact ⟨hask, rfl, rfl, _, rfl, neg.1, fun h => (neg.2 h).elim, by rintro ⟨op, h, h'⟩; cases h; exact (hw h').elim⟩
  · rw [handle, if_pos hl]
    simp only []
    have habs := push_abs (q := parse (text p)) ha
    rw [dele, join]
    have htgt := fun q => completePath_target (root := root) (w := w) (q := q) habs
    cases hcp : completePath root w (push cl.cwd (parse (text p))) with
    | none =>
      refine ⟨fun op => ⟨fun h => (List.not_mem_nil h).elim, fun h => ?_⟩, rfl, rfl, _, rfl, neg.1, fun h => (neg.2 h).elim, by rintro ⟨op, h, _⟩; cases h⟩
      cases h with
      | dele h1 => rw [← htgt, hcp] at h1; cases h1
    | some f =>
      simp only []
      have hask : ∀ op, op ∈ [Op.rmFile f] ↔ Asked root w cl (.dele p) op := by
        intro op
        rw [List.mem_singleton]
        constructor
        · rintro rfl; exact .dele (by rw [← htgt, hcp])
        · intro h
          cases h with
          | dele h1 => rw [← htgt, hcp] at h1; cases h1; rfl
      by_cases hw : w.works (.rmFile f) = true
      · rw [if_pos hw]
        exact ⟨hask, rfl, rfl, _, rfl, (pos 250 (by simp)).1, fun _ => ⟨_, rfl, hw⟩, fun _ => (pos 250 (by simp)).2⟩
      · rw [if_neg hw]
        exact ⟨hask, rfl, rfl, _, rfl, neg.1, fun h => (neg.2 h).elim, by rintro ⟨op, h, h'⟩; cases h; exact (hw h').elim⟩

/-- The working directory of a client is absolute throughout a session, so `C53_changes` applies to every command of it. -/
theorem C53_session_absolute (cfg : Config) (root : Path) (l : List (Cmd × World)) (hw : ∀ x ∈ l, Sane x.2) (cl : Client) (hc : Canonical cl.cwd) :
    ∀ x ∈ session cfg root cl l, isAbs x.2.cl.cwd = true := by
  induction l generalizing cl with
  | nil => simp [session]
  | cons a l ih =>
    obtain ⟨c, w⟩ := a
    intro x hx
    rw [session] at hx
    have hw1 : Sane w := hw (c, w) (by simp)
    have hn := handle_canonical (cfg := cfg) (root := root) hw1 hc c
    rcases List.mem_cons.mp hx with rfl | hx
    · obtain ⟨ns, e⟩ := hn
      show isAbs (handle cfg root w cl c).cl.cwd = true
      rw [e]; rfl
    · split at hx
      · simp at hx
      · exact ih (fun y hy => hw y (by simp [hy])) _ hn x hx

/-- A client that is logged in, in directory `/in` -/
def ftpClient : Client := { Client.new with cwd := parse "/in".toList, name := some (str "a") }

/-- a change in each of the three, in a directory and outside of it, and one that is refused -/
example : ftpClient.logged = true ∧ isAbs ftpClient.cwd = true ∧ Client.new.cwd = [.root] ∧
    (handle ftpCfg ftpRoot plainWorld ftpClient (.mkd (str "x"))).ops = [.mkDir (parse "/srv/in/x".toList)] ∧
    (handle ftpCfg ftpRoot plainWorld ftpClient (.rmd (str "/x"))).ops = [.rmDir (parse "/srv/x".toList)] ∧
    ((handle ftpCfg ftpRoot plainWorld ftpClient (.dele (str "../../x"))).out.map (·.code)) = [550] :=
  ⟨by decide +kernel, by decide +kernel, rfl, by decide +kernel, by decide +kernel, by decide +kernel⟩

theorem say_one (cl : Client) (code : Nat) (m : List Nat) (h : 200 ≤ code) : finals (Res.say cl code m) = [code] := by
  simp [finals, Res.say, reply, h]

theorem open_one (cfg : Config) (cl : Client) (c : Cmd) : ∃ code, finals (open_ cfg cl c) = [code] ∧ (open_ cfg cl c).out.length = 1 := by
  unfold open_
  split
  case h_5 s =>
    unfold user
    split
    · exact ⟨_, say_one _ _ _ (by decide), rfl⟩
    · split
      · exact ⟨_, say_one _ _ _ (by decide), rfl⟩
      · split
        · exact ⟨_, say_one _ _ _ (by decide), rfl⟩
        · split
          · exact ⟨_, say_one _ _ _ (by decide), rfl⟩
          · exact ⟨_, say_one _ _ _ (by decide), rfl⟩
  case h_2 => exact ⟨221, by simp [finals, Res.say, reply], rfl⟩
  case h_6 => exact ⟨211, by simp [finals], rfl⟩
  all_goals exact ⟨_, say_one _ _ _ (by decide), rfl⟩

/-- Commands that use or open a data connection -/
def UsesData : Cmd → Prop
  | .list _ | .nlst _ | .retr _ | .stor _ | .pasv | .epsv _ => True
  | _ => False

/-- **C53**, one reply for one command, in part: in every state and for every command that does not concern a data connection there is exactly one reply, and
it is final. Missing: the commands with a data connection, for which it is false (`C53_two_finals`, `C53_no_final`). -/
theorem C53_one_reply_partial (cfg : Config) (root : Path) (w : World) (cl : Client) (c : Cmd) (hc : ¬ UsesData c) :
    ∃ a, (handle cfg root w cl c).out = [a] ∧ 200 ≤ a.code := by
  have key : ∀ r : Res, (∃ code, finals r = [code] ∧ r.out.length = 1) → ∃ a, r.out = [a] ∧ 200 ≤ a.code := by
    rintro r ⟨code, h1, h2⟩
    obtain ⟨a, ha⟩ := List.length_eq_one_iff.mp h2
    refine ⟨a, ha, ?_⟩
    unfold finals at h1
    rw [ha] at h1
    by_cases h : 200 ≤ a.code
    · exact h
    · simp [h] at h1
  have say : ∀ cl code m, 200 ≤ code → ∃ c, finals (Res.say cl code m) = [c] ∧ (Res.say cl code m).out.length = 1 := fun cl code m h => ⟨code, say_one cl code m h, rfl⟩
  apply key
  unfold handle
  split
  · cases c
    case cwd p => dsimp only; unfold cwd; (repeat' split) <;> exact say _ _ _ (by decide)
    case list p => exact (hc trivial).elim
    case nlst p => exact (hc trivial).elim
    case pasv => exact (hc trivial).elim
    case epsv s => exact (hc trivial).elim
    case retr p => exact (hc trivial).elim
    case stor p => exact (hc trivial).elim
    case mkd p =>
      dsimp only; unfold mkd; dsimp only
      (repeat' split) <;> first | exact say _ _ _ (by decide) | exact ⟨_, say_one (cl := cl) (code := _) (m := _) (by decide), rfl⟩ | exact ⟨257, by simp [finals, reply], rfl⟩ | exact ⟨550, by simp [finals, reply], rfl⟩
    case rmd p =>
      dsimp only; unfold rmd
      split
      · exact say _ _ _ (by decide)
      · dsimp only
        split
        · exact ⟨250, by simp [finals, Res.say, reply], rfl⟩
        · exact ⟨550, by simp [finals, Res.say, reply], rfl⟩
    case dele p =>
      dsimp only; unfold dele
      split
      · exact say _ _ _ (by decide)
      · dsimp only
        split
        · exact ⟨250, by simp [finals, Res.say, reply], rfl⟩
        · exact ⟨550, by simp [finals, Res.say, reply], rfl⟩
    case cdup => dsimp only; unfold cdup; (repeat' split) <;> exact say _ _ _ (by decide)
    case port n => exact say _ _ _ (by decide)
    case pwd => exact say _ _ _ (by decide)
    all_goals exact open_one _ _ _
  · split
    · cases c
      case pass s => dsimp only; unfold pass; (repeat' split) <;> exact say _ _ _ (by decide)
      all_goals exact open_one _ _ _
    · exact open_one _ _ _

/-- Whether there is, or can be opened, a data connection -/
def CanSend (w : World) (cl : Client) : Prop := (cl.port = none ∧ cl.writer = true) ∨ (cl.port ≠ none ∧ w.net = true)

theorem init_of_canSend {w : World} {cl : Client} (h : CanSend w cl) : (initData w cl).1.writer = true ∧ (initData w cl).2 = [] ∧ (initData w cl).1.cwd = cl.cwd := by
  unfold initData
  rcases h with ⟨h1, h2⟩ | ⟨h1, h2⟩
  · rw [h1]; exact ⟨h2, rfl, rfl⟩
  · cases hp : cl.port with
    | none => exact (h1 hp).elim
    | some n => simp [h2]

/-- **C53** for downloads and listings that are possible: with a data connection and a network that works, a command on something that exists, lies in the
root and can be read gets `125` and then, as only final reply, `226`; the connection is closed after it. -/
theorem C53_transfer_done (cfg : Config) (root : Path) (w : World) (cl : Client) (hl : cl.logged = true) (ha : isAbs cl.cwd = true)
    (hs : CanSend w cl) (hn : w.net = true) (p : List Nat) (q : Path) (ht : Target root w (push cl.cwd (parse (text p))) q) :
    (w.isFile q = true → w.works (.readFile q) = true →
      let r := handle cfg root w cl (.retr p)
      r.out.map (·.code) = [125, 226] ∧ r.ops = [.readFile q] ∧ r.ended = false ∧ r.cl.writer = false) ∧
    (w.isDir q = true → w.works (.readDir q) = true →
      let r := handle cfg root w cl (.list (some p))
      r.out.map (·.code) = [125, 226] ∧ r.ops.head? = some (.readDir q) ∧ r.ended = false ∧ r.cl.writer = false) ∧
    (w.isDir q = false →
      let r := handle cfg root w cl (.list (some p))
      r.out.map (·.code) = [125, 226] ∧ r.ops = [.stat q] ∧ r.ended = false ∧ r.cl.writer = false) := by
  obtain ⟨h1, h2, h3⟩ := init_of_canSend hs
  have hcp : completePath root w (join (initData w cl).1 p) = some q := by
    rw [join, h3, completePath_target (push_abs ha)]; exact ht
  refine ⟨fun hf hw => ?_, fun hd hw => ?_, fun hd => ?_⟩
  · simp only [handle, if_pos hl, retr, if_pos h1, hcp, if_pos hf, if_pos hw, if_pos hn, h2, finish]
    simp [Client.close, reply]
  · simp only [handle, if_pos hl, list, if_pos h1, Option.getD_some, hcp, if_pos hd, if_pos hw, if_pos hn, h2, finish]
    simp [Client.close, reply]
  · simp only [handle, if_pos hl, list, if_pos h1, Option.getD_some, hcp, hd, if_pos hn, h2, finish]
    simp [Client.close, reply]

/-- the conditions are met, after `PASV` and after `PORT` -/
example : CanSend plainWorld { ftpClient with writer := true } ∧ CanSend plainWorld { ftpClient with port := some 2000 } ∧
    Target ftpRoot plainWorld (push ftpClient.cwd (parse (text (str "x")))) (parse "/srv/in/x".toList) :=
  ⟨Or.inl ⟨rfl, rfl⟩, Or.inr ⟨by simp, rfl⟩, by unfold Target; decide +kernel⟩

/-- **C53** for uploads: `226` is sent exactly if the file was written. -/
theorem C53_upload_truth (cfg : Config) (root : Path) (w : World) (cl : Client) (hl : cl.logged = true) (p : List Nat) :
    226 ∈ (handle cfg root w cl (.stor p)).out.map (·.code) ↔ ∃ q, (handle cfg root w cl (.stor p)).ops = [.write q] ∧ w.works (.write q) = true := by
  have h226 : 226 ∉ (initData w cl).2.map (·.code) := by
    unfold initData
    cases cl.port with
    | none => simp
    | some n => dsimp only; split <;> simp [reply]
  have hh : handle cfg root w cl (.stor p) = stor root w cl p := by rw [handle, if_pos hl]
  rw [hh]
  unfold stor
  dsimp only
  split
  · split
    · simp only [h226, false_iff]
      rintro ⟨q, h, _⟩; cases h
    · split
      · by_cases hw : w.works (.write (below root (join (initData w cl).1 p))) = true
        · rw [if_pos hw]
          constructor
          · intro _; exact ⟨_, rfl, hw⟩
          · intro _; simp [reply]
        · rw [if_neg hw]
          constructor
          · intro h
            simp only [List.map_append, List.mem_append, h226, false_or] at h
            simp [reply] at h
          · rintro ⟨q, h, h'⟩
            injection h with h; injection h with h; subst h
            exact (hw h').elim
      · constructor
        · intro h
          simp only [List.map_append, List.mem_append, h226, false_or] at h
          simp [reply] at h
        · rintro ⟨q, h, _⟩; cases h
  · constructor
    · intro h
      simp only [List.map_append, List.mem_append, h226, false_or] at h
      simp [reply] at h
    · rintro ⟨q, h, _⟩; cases h

/-- an upload that works -/
example : (handle ftpCfg ftpRoot plainWorld { ftpClient with reader := true, writer := true } (.stor (str "x"))).ops = [.write (parse "/srv/in/x".toList)] := by decide +kernel

/-- A file system in which nothing exists -/
def emptyWorld : World := { plainWorld with canon := fun _ => none }

/-- The full statement is false: a download of a file that does not exist is answered with an error and then, as if it had worked, with "transfer done". -/
theorem C53_two_finals : finals (handle ftpCfg ftpRoot emptyWorld { ftpClient with reader := true, writer := true } (.retr (str "x"))) = [451, 226] ∧
    finals (handle ftpCfg ftpRoot emptyWorld { ftpClient with reader := true, writer := true } (.list (some (str "x")))) = [501, 226] :=
  ⟨by decide +kernel, by decide +kernel⟩

/-- Nor is there always a final reply: a second `PASV` gets only an announcement, `EPSV ALL` nothing, an upload to a path with `..` the end of the
connection. -/
theorem C53_no_final : (handle ftpCfg ftpRoot plainWorld { ftpClient with reader := true, writer := true } .pasv).out.map (·.code) = [125] ∧
    (handle ftpCfg ftpRoot plainWorld ftpClient (.epsv (some (str "ALL")))).out = [] ∧
    (handle ftpCfg ftpRoot plainWorld { ftpClient with reader := true, writer := true } (.stor (str "../x"))).out = [] ∧
    (handle ftpCfg ftpRoot plainWorld { ftpClient with reader := true, writer := true } (.stor (str "../x"))).ended = true :=
  ⟨by decide +kernel, by decide +kernel, by decide +kernel, by decide +kernel⟩

end Verif.Props
