import Verif.Proofs.FtpReplies
/-! # C39-C42: the FTP server -/

namespace Verif.Props
open Verif Verif.Path Verif.Ftp

/-! ## C39: the commands depend on the byte stream only -/

/-- However a stream is cut into reads, the server sees the same commands, and stops (or does not stop) at an error alike. -/
theorem C39_split (pieces : List (List Nat)) :
    (receive pieces []).1 = (receive [pieces.flatten] []).1 ∧ (receive pieces []).2.2 = (receive [pieces.flatten] []).2.2 := by
  have h1 := receive_eq pieces [] rfl
  have h2 := receive_eq [pieces.flatten] [] rfl
  rw [List.flatten_singleton] at h2
  exact ⟨h1.1.trans h2.1.symm, h1.2.1.trans h2.2.1.symm⟩

/-- Two streams cut differently: equal bytes, equal commands. -/
theorem C39_same_stream (p q : List (List Nat)) (h : p.flatten = q.flatten) : (receive p []).1 = (receive q []).1 := by
  rw [(C39_split p).1, (C39_split q).1, h]

/-- The commands are those of the lines, in order, up to the first line that is none; an unfinished line has no effect. -/
theorem C39_lines (pieces lines : List (List Nat)) (rest : List Nat) (hl : ∀ l ∈ lines, NoCrlf l) (hr : NoCrlf rest)
    (h : pieces.flatten = lines.flatMap (· ++ [13, 10]) ++ rest) :
    (receive pieces []).1 = (commands lines).1 ∧ (receive pieces []).2.2 = (commands lines).2 := by
  have h1 := receive_eq pieces [] rfl
  rw [List.nil_append, h] at h1
  have h2 := drain_lines lines hl rest hr
  exact ⟨h1.1.trans h2.1, h1.2.1.trans h2.2⟩

/-- The word of a command may be written in upper or lower case. -/
theorem C39_case (a b : List Nat) (arg : List Nat) (ha : 32 ∉ a) (hb : 32 ∉ b) (h : a.map upper = b.map upper) : parseCmd (a ++ 32 :: arg) = parseCmd (b ++ 32 :: arg) := by
  have key : ∀ w : List Nat, 32 ∉ w → parseCmd (w ++ 32 :: arg) = command (w.map upper) (some arg) := by
    intro w hw
    have hall : ∀ x ∈ w, decide (x ≠ 32) = true := fun x hx => by
      simp only [decide_eq_true_eq]
      rintro rfl
      exact hw hx
    unfold parseCmd argOf
    rw [List.takeWhile_append_of_pos hall, List.dropWhile_append_of_pos hall]
    simp
  rw [key a ha, key b hb, h]

/-- A file name arrives as it was sent. -/
theorem C39_argument (name : List Nat) (h : utf8 name = true) : parseCmd (str "stor" ++ 32 :: name) = .ok (.stor name)
    ∧ parseCmd (str "RETR" ++ 32 :: name) = .ok (.retr name) ∧ parseCmd (str "Dele" ++ 32 :: name) = .ok (.dele name) := by
  have key : ∀ w : List Nat, 32 ∉ w → parseCmd (w ++ 32 :: name) = command (w.map upper) (some name) := by
    intro w hw
    have hall : ∀ x ∈ w, decide (x ≠ 32) = true := fun x hx => by
      simp only [decide_eq_true_eq]
      rintro rfl
      exact hw hx
    unfold parseCmd argOf
    rw [List.takeWhile_append_of_pos hall, List.dropWhile_append_of_pos hall]
    simp
  have hn : need (some name) = .ok name := by simp only [need, h, if_true]
  refine ⟨?_, ?_, ?_⟩
  · rw [key _ (by decide), show (str "stor").map upper = str "STOR" from by decide]
    unfold command
    rw [hn]
    rfl
  · rw [key _ (by decide), show (str "RETR").map upper = str "RETR" from by decide]
    unfold command
    rw [hn]
    rfl
  · rw [key _ (by decide), show (str "Dele").map upper = str "DELE" from by decide]
    unfold command
    rw [hn]
    rfl

/-- a CRLF cut in two -/
example : (receive [str "USER bob\r", str "\nPW", str "D\r\nNO"] []).1 = [.user (str "bob"), .pwd] := by decide +kernel
example : (commands [str "USER bob", str "PWD"]).1 = [.user (str "bob"), .pwd] := by decide +kernel
example : NoCrlf (str "USER bob\r") := by
  intro x y h
  have h' := congrArg findCrlf h
  rw [show findCrlf (str "USER bob\r") = none from by decide] at h'
  have : ∀ x y, findCrlf (x ++ 13 :: 10 :: y) ≠ none := by
    intro x y
    induction x with
    | nil => simp [findCrlf]
    | cons c x ih =>
      rw [List.cons_append]
      by_cases hc : ∃ t, c = 13 ∧ x ++ 13 :: 10 :: y = 10 :: t
      · obtain ⟨t, rfl, ht⟩ := hc
        rw [ht]
        simp [findCrlf]
      · rw [findCrlf_cons _ _ fun t ht => hc ⟨t, ht⟩]
        simpa using ih
  exact this x y h'.symm

/-! ## C40: nothing outside the root -/

/-- Full statement in view: no file operation touches anything outside the root. Proved: every operation of every session, in any state of the file system and
with links anywhere, gets a path that is the root followed by plain names; the search of `NLST` is excepted, but whatever it reports is really in the root.
For removing, reading and creating directories the path is canonical, so nothing outside is touched. Missing: `STOR` and the details shown by `LIST` follow a
link in the last step (see `C40_stor_link`), and the search itself may look at directories outside (see `C40_nlst_outside`). -/
theorem C40_confined_partial (cfg : Config) (root : Path) (hroot : root ≠ []) (cmds : List (Cmd × World)) (hw : ∀ x ∈ cmds, Sane x.2) :
    ∀ x ∈ session cfg root Client.new cmds, ∀ op ∈ x.2.ops, (∃ p, op = .glob p) ∨ Inside root op.path :=
  session_allowed hroot cmds hw _ ⟨[], rfl⟩

/-- If no link in the root leads out of it, and a file that is created is where its path says, then what an operation really touches is in the root, except
for the search of `NLST`. -/
theorem C40_no_links (cfg : Config) (root : Path) (hroot : root ≠ []) (cmds : List (Cmd × World)) (hw : ∀ x ∈ cmds, Sane x.2) (w : World)
    (hlinks : ∀ p q, Inside root p → w.canon p = some q → Inside root q) :
    ∀ x ∈ session cfg root Client.new cmds, ∀ op ∈ x.2.ops, (∃ p, op = .glob p) ∨ Inside root ((w.canon op.path).getD op.path) := by
  intro x hx op hop
  rcases C40_confined_partial cfg root hroot cmds hw x hx op hop with h | h
  · exact .inl h
  · right
    cases hc : w.canon op.path with
    | none => exact h
    | some q => exact hlinks _ _ h hc

/-- The server used in the examples: user `a` with password `b`, root `/srv` -/
def ftpCfg : Config := { users := [{ name := str "a", password := str "b" }], anonymous := false }
def ftpRoot : Path := parse "/srv".toList

/-- A file system in which every path is what it says -/
def plainWorld : World where
  canon p := if p.all (fun c => match c with | .root => true | .normal _ => true | _ => false) && isAbs p && decide (Comp.root ∉ p.drop 1) then some p else none
  isDir _ := true
  isFile _ := true
  works _ := true
  entries _ := []
  matching p := some [p]
  net := true
  v4 := true

/-- The same with one link: `/srv/link` is `/etc/passwd`. -/
def linkWorld : World := { plainWorld with canon := fun p => if p = parse "/srv/link".toList then some (parse "/etc/passwd".toList) else plainWorld.canon p }

theorem plainWorld_sane : Sane plainWorld := by
  intro p q h
  unfold plainWorld at h
  simp only at h
  split at h
  · injection h with h
    subst h
    rename_i hc
    simp only [Bool.and_eq_true, decide_eq_true_eq, List.all_eq_true] at hc
    obtain ⟨⟨h1, h2⟩, h3⟩ := hc
    cases p with
    | nil => simp [isAbs] at h2
    | cons c p =>
      have hcr : c = .root := by simpa [isAbs] using h2
      subst hcr
      obtain ⟨ns, hns⟩ := plain_map (p := p) fun c hc => by
        have := h1 c (by simp [hc])
        cases c with
        | root => exact (h3 (by simpa using hc)).elim
        | cur => simp at this
        | parent => simp at this
        | normal n => exact ⟨n, rfl⟩
      exact ⟨ns, by rw [hns]⟩
  · cases h

/-- What a login and one command do -/
def opsOf (w : World) (c : Cmd) : List Op :=
  ((session ftpCfg ftpRoot Client.new [(.user (str "a"), w), (.pass (str "b"), w), (.pasv, w), (c, w)]).map (·.2.ops)).flatten

/-- a session that does something, in a sane world -/
example : Sane plainWorld ∧ ftpRoot ≠ [] ∧ opsOf plainWorld (.retr (str "x/y")) = [.readFile (parse "/srv/x/y".toList)]
    ∧ opsOf plainWorld (.stor (str "/x")) = [.write (parse "/srv/x".toList)] ∧ opsOf plainWorld (.retr (str "../etc/passwd")) = [] :=
  ⟨plainWorld_sane, by decide +kernel, by decide +kernel, by decide +kernel, by decide +kernel⟩

/-- The full statement is false: an upload to a link in the root is written to the file behind it, outside. -/
theorem C40_stor_link : opsOf linkWorld (.stor (str "link")) = [.write (parse "/srv/link".toList)]
    ∧ linkWorld.canon (parse "/srv/link".toList) = some (parse "/etc/passwd".toList) ∧ ¬ Inside ftpRoot (parse "/etc/passwd".toList)
    ∧ opsOf linkWorld (.retr (str "link")) = [] ∧ opsOf linkWorld (.dele (str "link")) = [] := by
  refine ⟨by decide +kernel, by decide +kernel, ?_, by decide +kernel, by decide +kernel⟩
  rintro ⟨ns, h⟩
  have h2 := congrArg (fun p : Path => p[1]?) h
  rw [show (parse "/etc/passwd".toList)[1]? = some (.normal "etc".toList) from by decide +kernel] at h2
  rw [show ftpRoot = [.root, .normal "srv".toList] from by decide +kernel] at h2
  simp at h2

/-- The search of `NLST` looks outside the root if the pattern says so. -/
theorem C40_nlst_outside : opsOf plainWorld (.nlst (some (str "../*"))) = [.glob [.root, .normal "srv".toList, .parent, .normal "*".toList]] := by
  decide +kernel

/-- `RMD /` removes the root itself. -/
theorem C40_rmd_root : opsOf plainWorld (.rmd (str "/")) = [.rmDir ftpRoot] := by decide +kernel

/-- With a relative root nothing is found, whatever the file system is like: no directory can be entered or read; only uploads are possible. -/
theorem C40_relative_root (root : Path) (hne : root ≠ []) (hr : isAbs root = false) (w : World) (hw : Sane w) (p : Path) : completePath root w p = none := by
  cases h : completePath root w p with
  | none => rfl
  | some d =>
    obtain ⟨hc, hs⟩ := completePath_spec hw h
    obtain ⟨t, ht⟩ := List.isPrefixOf_iff_prefix.mp hs
    obtain ⟨ns, hns⟩ := hc
    cases root with
    | nil => exact (hne rfl).elim
    | cons c r =>
      rw [hns] at ht
      injection ht with h1 h2
      subst h1
      simp [isAbs] at hr

/-! ## C41: nothing without login -/

/-- The commands that work on files or tell about them -/
def FileCmd : Cmd → Prop
  | .cwd _ | .list _ | .nlst _ | .retr _ | .stor _ | .mkd _ | .rmd _ | .dele _ | .pwd | .cdup => True
  | _ => False

/-- Full statement in view: no file command takes effect before a successful login with the configured user and password. Proved for every configuration
without anonymous access: a file command is refused with 530 and does nothing, unless the commands before it are a login - the last accepted `USER`, followed
by a `PASS` with the password of that very user, or a user configured without password. Missing: with anonymous access any password does, for any user, see
`C41_anonymous`. -/
theorem C41_login_partial (cfg : Config) (ha : cfg.anonymous = false) (root : Path) (cmds : List (Cmd × World)) (before after : List (Cmd × Res)) (c : Cmd) (r : Res)
    (hs : session cfg root Client.new cmds = before ++ (c, r) :: after) (hc : FileCmd c) :
    (∃ u, LoginAs cfg (before.map (·.1)) u) ∨ (r.ops = [] ∧ r.out = [reply 530 (str "Please log first")]) := by
  obtain ⟨cl, w, he, hr⟩ := session_explained ha cmds [] Client.new (by intro u hu; cases hu) before after c r hs
  rw [List.nil_append] at he
  by_cases hl : cl.logged = true
  · exact .inl (explained_login he hl)
  · right
    rw [hr]
    unfold handle
    rw [if_neg hl]
    split <;> cases c <;> first | exact ⟨rfl, rfl⟩ | exact hc.elim

/-- Nothing but a file command touches files. -/
theorem C41_only_file_commands (cfg : Config) (root : Path) (w : World) (cl : Client) (c : Cmd) (h : (handle cfg root w cl c).ops ≠ []) : FileCmd c := by
  unfold handle at h
  split at h
  · cases c <;> first
      | trivial
      | exact (h (open_ops _ _ _)).elim
      | exact (h rfl).elim
      | skip
    · exfalso; apply h; dsimp only; unfold pasv; dsimp only; split; rfl; split <;> rfl
    · exfalso; apply h; dsimp only; unfold epsv; dsimp only; split; rfl; split <;> rfl
  · split at h
    · cases c <;> first
        | exact (h (open_ops _ _ _)).elim
        | exact (h (pass_ops _ _ _)).elim
    · exact (h (open_ops _ _ _)).elim

/-- A configured user who sends name and password is logged in, whatever was sent before. -/
theorem C41_accepts (cfg : Config) (root : Path) (w v : World) (cl : Client) (x : User) (hx : x ∈ cfg.users) (hn : x.name ≠ []) :
    let r := handle cfg root v (handle cfg root w cl (.user x.name)).cl (.pass x.password)
    r.cl.logged = true ∧ r.cl.name = some x.name := by
  have hu : (handle cfg root w cl (.user x.name)).cl = (user cfg cl x.name).cl := by
    unfold handle
    split
    · rfl
    · split <;> rfl
  have hpw : ∀ c : Client, c.name = some x.name → c.waiting = true → let r := handle cfg root v c (.pass x.password); r.cl.logged = true ∧ r.cl.name = some x.name := by
    intro c h1 h2
    have hok : passOk cfg c.name x.password = true := by
      unfold passOk
      rw [Bool.or_eq_true, List.any_eq_true]
      exact .inr ⟨x, hx, by simp [h1]⟩
    have hnl : ¬ c.logged = true := by simp [Client.logged, h2]
    unfold handle
    dsimp only
    rw [if_neg hnl, if_pos ⟨by rw [h1]; rfl, h2⟩]
    unfold pass
    rw [if_pos hok]
    exact ⟨by simp [Client.logged, Res.say, h1], h1⟩
  have hin : ∀ c : Client, c.name = some x.name → c.waiting = false → let r := handle cfg root v c (.pass x.password); r.cl.logged = true ∧ r.cl.name = some x.name := by
    intro c h1 h2
    have hl : c.logged = true := by simp [Client.logged, h1, h2]
    unfold handle
    dsimp only
    rw [if_pos hl]
    exact ⟨hl, h1⟩
  rw [hu]
  unfold user
  rw [if_neg hn]
  split
  · exact hpw _ rfl rfl
  · split
    · rename_i hf
      have := List.find?_eq_none.mp hf x hx
      simp at this
    · split
      · exact hpw _ rfl rfl
      · exact hin _ rfl rfl

/-- a refused and an accepted session -/
example : ((session ftpCfg ftpRoot Client.new [(.user (str "a"), plainWorld), (.pass (str "x"), plainWorld), (.retr (str "f"), plainWorld)]).map (·.2.out.map (·.code)))
    = [[331], [530], [530]] := by decide +kernel
example : LoginAs ftpCfg [.user (str "a"), .pass (str "b"), .pasv] (str "a") :=
  ⟨[], [.pass (str "b"), .pasv], rfl, ⟨by decide, _, List.mem_cons_self .., rfl⟩, by simp, .inr ⟨str "b", by simp, _, List.mem_cons_self .., rfl, rfl⟩⟩
example : ¬ LoginAs ftpCfg [.user (str "a"), .pass (str "x")] (str "a") := by
  rintro ⟨pre, post, h, -, -, ⟨x, hx, -, h2⟩ | ⟨pw, hpw, x, hx, -, h2⟩⟩
  · simp only [ftpCfg, List.mem_singleton] at hx
    rw [hx] at h2
    exact absurd h2 (by decide)
  · simp only [ftpCfg, List.mem_singleton] at hx
    have hm : Cmd.pass pw ∈ [Cmd.user (str "a"), Cmd.pass (str "x")] := by rw [h]; simp [hpw]
    rw [hx] at h2
    rw [← h2] at hm
    exact absurd hm (by decide)

/-- With anonymous access (the default of `Config::new`), a configured user is logged in with any password. -/
theorem C41_anonymous :
    (session { ftpCfg with anonymous := true } ftpRoot Client.new
      [(.user (str "a"), plainWorld), (.pass (str "wrong"), plainWorld), (.dele (str "f"), plainWorld)]).map (·.2.ops) = [[], [], [.rmFile (parse "/srv/f".toList)]] := by
  decide +kernel

/-! ## C42: one reply is one reply -/

/-- A reply whose texts contain no end-of-line sequence is read by a client as exactly one reply with the given code, whatever the texts and whatever follows. -/
theorem C42_one_reply (a : Answer) (hc : a.code < 1000) (hm : NoCrlf a.message) (hl : ∀ l ∈ a.lines, NoCrlf l) (rest : List Nat) :
    parseReply (encode a ++ rest) = some (a.code, rest) :=
  parseReply_encode hc hm hl rest

/-- In a session whose commands were received as lines, and in a file system without file names that contain an end-of-line sequence, the client reads exactly
the replies that were sent, one by one. -/
theorem C42_session (cfg : Config) (root : Path) (cmds : List (Cmd × World))
    (hcmd : ∀ x ∈ cmds, ∃ l, NoCrlf l ∧ IsBytes l ∧ parseCmd l = .ok x.1) (hw : ∀ x ∈ cmds, ∀ p q, x.2.canon p = some q → PathOk q) :
    let sent := (session cfg root Client.new cmds).flatMap (·.2.out)
    parseReplies sent.length (sent.flatMap encode) = (sent.map (·.code), []) := by
  have h := session_good (cfg := cfg) (root := root) cmds (fun x hx => by
    obtain ⟨l, h1, h2, h3⟩ := hcmd x hx
    exact ⟨hw x hx, parseCmd_texts ⟨h1, h2⟩ h3⟩) Client.new ⟨by intro n hn; simp [Client.new] at hn, by intro n hn; cases hn⟩
  dsimp only
  have := parseReplies_good ((session cfg root Client.new cmds).flatMap (·.2.out)) (fun a ha => by
    obtain ⟨x, hx, hax⟩ := List.mem_flatMap.mp ha
    exact h x hx a hax) _ (Nat.le_refl _) [] rfl
  rwa [List.append_nil] at this

/-- body lines that look like replies are harmless -/
example : parseReply (encode { code := 211, message := str "Feature list", lines := [str "211 end", str "230-x", []] } ++ str "220 y\r\n") = some (211, str "220 y\r\n") := by
  decide +kernel

/-- The full statement is false: a text with an end-of-line sequence makes two replies out of one. -/
theorem C42_injection : parseReply (encode (reply 257 (str "\"/x\r\n230 ok\" "))) = some (257, str "230 ok\" \r\n")
    ∧ parseReply (str "230 ok\" \r\n") = some (230, []) := by decide +kernel

/-- And a session can send one: a directory with such a name (reached through a link, since a command cannot contain it) is shown by `PWD`. -/
theorem C42_injection_reachable :
    let w := { plainWorld with canon := fun p => if p = parse "/srv/l".toList then some [.root, .normal "srv".toList, .normal "x\r\n230 ok".toList] else none }
    let sent := (session ftpCfg ftpRoot Client.new [(.user (str "a"), w), (.pass (str "b"), w), (.cwd (str "l"), w), (.pwd, w)]).flatMap (·.2.out)
    sent.map (·.code) = [331, 230, 250, 257] ∧ (parseReplies 9 (sent.flatMap encode)).1 = [331, 230, 250, 257, 230] := by
  decide +kernel

end Verif.Props
