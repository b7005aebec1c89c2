import Verif.Model.Path
/-! # The FTP server: embedftp/src/codec.rs, command.rs, ftp.rs, config.rs, client.rs

Bytes are numbers. Strings received from the client stay bytes; a path is taken from them byte by byte, which loses nothing, because `std::path` looks at
`/` and `.` only. -/

namespace Verif.Ftp
open Verif Verif.Path

/-- A literal of the source as bytes -/
def str (s : String) : List Nat := s.toList.map Char.toNat

/-- A byte string as path text -/
def text (b : List Nat) : List Char := b.map Char.ofNat

/-! ## UTF-8 (`str::from_utf8`) -/

def cont (b : Nat) : Bool := decide (0x80 ≤ b ∧ b ≤ 0xBF)

/-- Validity as the standard library checks it -/
def utf8 : List Nat → Bool
  | [] => true
  | b :: r =>
    if b < 0x80 then utf8 r
    else if 0xC2 ≤ b ∧ b ≤ 0xDF then
      match r with
      | c :: r => cont c && utf8 r
      | _ => false
    else if 0xE0 ≤ b ∧ b ≤ 0xEF then
      match r with
      | c :: d :: r => cont c && cont d && decide (b ≠ 0xE0 ∨ 0xA0 ≤ c) && decide (b ≠ 0xED ∨ c ≤ 0x9F) && utf8 r
      | _ => false
    else if 0xF0 ≤ b ∧ b ≤ 0xF4 then
      match r with
      | c :: d :: e :: r => cont c && cont d && cont e && decide (b ≠ 0xF0 ∨ 0x90 ≤ c) && decide (b ≠ 0xF4 ∨ c ≤ 0x8F) && utf8 r
      | _ => false
    else false

/-! ## Commands -/

/-- `TransferType` without `Unknown`, command.rs:136-141 -/
inductive Typ where
  | ascii
  | image
  deriving DecidableEq, Repr

/-- `Command`, command.rs:11-34; paths and texts as received -/
inductive Cmd where
  | auth
  | cwd (p : List Nat)
  | list (p : Option (List Nat))
  | nlst (p : Option (List Nat))
  | mkd (p : List Nat)
  | noop
  | port (n : Nat)
  | pass (s : List Nat)
  | pasv
  | epsv (s : Option (List Nat))
  | pwd
  | quit
  | retr (p : List Nat)
  | rmd (p : List Nat)
  | dele (p : List Nat)
  | stor (p : List Nat)
  | syst
  | feat
  | type (t : Typ)
  | cdup
  | unknown (s : List Nat)
  | user (s : List Nat)
  deriving DecidableEq, Repr

/-- `to_ascii_uppercase` -/
def upper (b : Nat) : Nat := if 97 ≤ b ∧ b ≤ 122 then b - 32 else b

/-- Split at a byte -/
def splitByte (x : Nat) : List Nat → List (List Nat)
  | [] => [[]]
  | c :: cs =>
    if c = x then [] :: splitByte x cs
    else match splitByte x cs with
      | [] => [[c]]
      | n :: ns => (c :: n) :: ns

/-- Decimal digits -/
def parseDigits : List Nat → Option Nat
  | [] => none
  | ds => ds.foldl (fun acc d => acc.bind fun a => if 48 ≤ d ∧ d ≤ 57 then some (a * 10 + (d - 48)) else none) (some 0)

/-- `u8::from_str`; a leading `+` is allowed -/
def parseU8 (b : List Nat) : Option Nat :=
  ((match b with
    | 43 :: ds => parseDigits ds
    | ds => parseDigits ds) : Option Nat).filter (· ≤ 255)

/-- A parameter that has to be there and to be UTF-8 -/
def need (data : Option (List Nat)) : R (List Nat) :=
  match data with
  | none => fail'
  | some d => if utf8 d then .ok d else fail'

/-- `PORT`, command.rs:82-97 -/
def parsePort (data : Option (List Nat)) : R Cmd :=
  match data with
  | none => fail'
  | some d =>
    match (splitByte 44 d).filterMap parseU8 with
    | [_, _, _, _, hi, lo] => if hi * 256 + lo ≤ 1024 then fail' else .ok (.port (hi * 256 + lo))
    | _ => fail'

/-- `TYPE`, command.rs:104-114 -/
def parseType (data : Option (List Nat)) : R Cmd :=
  match data with
  | some (65 :: _) => .ok (.type .ascii)
  | some (73 :: _) => .ok (.type .image)
  | _ => fail'

/-- What follows the first space, command.rs:67-73 -/
def argOf (input : List Nat) : Option (List Nat) :=
  match input.dropWhile (· ≠ 32) with
  | [] => none
  | _ :: d => some d

/-- The command for an upper-case word and its parameter, command.rs:75-125 -/
def command (word : List Nat) (data : Option (List Nat)) : R Cmd :=
  let opt : Option (List Nat) := data.filter fun d => utf8 d
  if word = str "AUTH" then .ok .auth
  else if word = str "CWD" then (need data).map .cwd
  else if word = str "LIST" then .ok (.list opt)
  else if word = str "NLST" then .ok (.nlst opt)
  else if word = str "PASV" then .ok .pasv
  else if word = str "EPSV" then .ok (.epsv opt)
  else if word = str "PORT" then parsePort data
  else if word = str "PWD" then .ok .pwd
  else if word = str "FEAT" then .ok .feat
  else if word = str "QUIT" then .ok .quit
  else if word = str "RETR" then (need data).map .retr
  else if word = str "STOR" then (need data).map .stor
  else if word = str "SYST" then .ok .syst
  else if word = str "TYPE" then parseType data
  else if word = str "CDUP" then .ok .cdup
  else if word = str "MKD" then (need data).map .mkd
  else if word = str "RMD" then (need data).map .rmd
  else if word = str "DELE" then (need data).map .dele
  else if word = str "USER" then (need data).map .user
  else if word = str "PASS" then (need data).map .pass
  else if word = str "NOOP" then .ok .noop
  else .ok (.unknown (if utf8 word then word else []))

/-- `Command::new`, command.rs:66-125 -/
def parseCmd (input : List Nat) : R Cmd := command ((input.takeWhile (· ≠ 32)).map upper) (argOf input)

/-! ## Framing -/

/-- `find_crlf`, codec.rs:55-57 -/
def findCrlf : List Nat → Option Nat
  | 13 :: 10 :: _ => some 0
  | [] => none
  | _ :: r => (findCrlf r).map (· + 1)

/-- `FtpCodec::decode`, codec.rs:19-27: nothing yet, or a command (or error) and the rest of the buffer -/
def decode (buf : List Nat) : Option (R Cmd × List Nat) :=
  match findCrlf buf with
  | none => none
  | some i => some (parseCmd (buf.take i), buf.drop (i + 2))

/-- `Framed` of tokio: decode as long as there are complete lines; stop for good at the first error. `fuel` bounds the number of lines. -/
def drain : Nat → List Nat → List Cmd × List Nat × Bool
  | 0, buf => ([], buf, false)
  | fuel + 1, buf =>
    match decode buf with
    | none => ([], buf, false)
    | some (.error _, rest) => ([], rest, true)
    | some (.ok c, rest) =>
      let r := drain fuel rest
      (c :: r.1, r.2)

/-- What the server sees of a stream that arrives in the given pieces (client.rs:701-703): the commands, what is left in the buffer, whether it stopped at an
error -/
def receive : List (List Nat) → List Nat → List Cmd × List Nat × Bool
  | [], buf => ([], buf, false)
  | piece :: rest, buf =>
    let d := drain (buf ++ piece).length (buf ++ piece)
    if d.2.2 then d
    else
      let r := receive rest d.2.1
      (d.1 ++ r.1, r.2)

/-! ## Replies -/

/-- `Answer`, ftp.rs:7-11; the code as a number (ftp.rs:36-77) -/
structure Answer where
  code : Nat
  message : List Nat
  lines : List (List Nat)
  deriving DecidableEq, Repr

/-- `{}` of a three-digit code -/
def code3 (n : Nat) : List Nat := [48 + n / 100 % 10, 48 + n / 10 % 10, 48 + n % 10]

def crlf : List Nat := [13, 10]

/-- A line of a multi-line reply, codec.rs:38-42 -/
def bodyLine (l : List Nat) : List Nat :=
  (match l with
    | c :: _ => if 48 ≤ c ∧ c ≤ 57 then 32 :: l else l
    | [] => l) ++ crlf

/-- `FtpCodec::encode`, codec.rs:33-52 -/
def encode (a : Answer) : List Nat :=
  if a.lines ≠ [] then
    code3 a.code ++ str "- " ++ a.message ++ crlf ++ a.lines.flatMap bodyLine ++ code3 a.code ++ str " end" ++ crlf
  else if a.message = [] then code3 a.code ++ crlf
  else code3 a.code ++ 32 :: a.message ++ crlf

/-! ## The session -/

/-- `User`, config.rs:31-34 -/
structure User where
  name : List Nat
  password : List Nat
  deriving DecidableEq, Repr

/-- `Config`, config.rs:9-15 -/
structure Config where
  users : List User
  anonymous : Bool

/-- What a command does to the file system. -/
inductive Op where
  /-- `read_dir` -/
  | readDir (p : Path)
  /-- `metadata` of an entry that is listed; follows links -/
  | stat (p : Path)
  /-- `glob` -/
  | glob (p : Path)
  /-- an entry reported by `NLST`: its path and its canonical path -/
  | report (p real : Path)
  /-- `File::open` -/
  | readFile (p : Path)
  /-- `create_dir` -/
  | mkDir (p : Path)
  /-- `remove_dir_all` -/
  | rmDir (p : Path)
  /-- `remove_file` -/
  | rmFile (p : Path)
  /-- `stor_file` of the callback, then `tokio::fs::write`; follows links -/
  | write (p : Path)
  deriving DecidableEq, Repr

/-- What the world answers while one command is handled. -/
structure World where
  /-- `canonicalize`: the file behind a path, without links and `..` -/
  canon : Path → Option Path
  isDir : Path → Bool
  isFile : Path → Bool
  /-- whether a file operation works -/
  works : Op → Bool
  /-- entries of a directory -/
  entries : Path → List Name
  /-- `glob`: no result for an invalid pattern -/
  matching : Path → Option (List Path)
  /-- connecting, accepting and transferring on the data connection works -/
  net : Bool
  /-- the control connection is IPv4 -/
  v4 : Bool

/-- `Client`, client.rs:40-60: current directory, name, whether the password is awaited, and the data connection -/
structure Client where
  cwd : Path
  name : Option (List Nat)
  waiting : Bool
  port : Option Nat
  reader : Bool
  writer : Bool
  deriving DecidableEq, Repr

/-- `Client::new`, client.rs:66-83 -/
def Client.new : Client := { cwd := [.root], name := none, waiting := false, port := none, reader := false, writer := false }

/-- `is_logged`, client.rs:86-88 -/
def Client.logged (cl : Client) : Bool := cl.name.isSome && !cl.waiting

/-- The outcome of a command. `ended`: the connection is closed. -/
structure Res where
  cl : Client
  ops : List Op
  out : List Answer
  ended : Bool

def reply (code : Nat) (m : List Nat) : Answer := { code := code, message := m, lines := [] }

/-- A result that only sends a reply -/
def Res.say (cl : Client) (code : Nat) (m : List Nat) : Res := { cl := cl, ops := [], out := [reply code m], ended := false }

/-- The text of a path -/
def showPath (p : Path) : List Nat :=
  let names := p.filterMap fun c => match c with
    | .root => none
    | .cur => some (str ".")
    | .parent => some (str "..")
    | .normal n => some (n.map Char.toNat)
  (if isAbs p then str "/" else []) ++ (names.intersperse (str "/")).flatten

/-- `cwd.join(path)` for a received path -/
def join (cl : Client) (p : List Nat) : Path := push cl.cwd (parse (text p))

/-- The path below the server root: `server_root.join(path.iter().skip(1))`, client.rs:255-259 and 657 (the first component is the root) -/
def below (root : Path) (p : Path) : Path := push root (if isAbs p then p.drop 1 else p)

/-- `Path::starts_with` -/
def startsWith (p root : Path) : Bool := root.isPrefixOf p

/-- `complete_path`, client.rs:254-267 -/
def completePath (root : Path) (w : World) (p : Path) : Option Path :=
  match w.canon (below root p) with
  | none => none
  | some d => if startsWith d root then some d else none

/-- `Path::parent` -/
def parentOf (p : Path) : Option Path :=
  match p.getLast? with
  | none => none
  | some .root => none
  | some _ => some p.dropLast

/-- `mkd`, client.rs:269-293 -/
def mkd (root : Path) (w : World) (cl : Client) (p : List Nat) : Res :=
  let full := join cl p
  let failed := Res.say cl 550 (str "Couldn't create folder: " ++ p)
  match parentOf full with
  | none => failed
  | some parent =>
    match completePath root w parent with
    | none => failed
    | some dir =>
      if w.isDir dir then
        match fileName full with
        | none => failed
        | some n =>
          let op := Op.mkDir (push dir [.normal n])
          if w.works op then { Res.say cl 257 (str "Folder successfully created!") with ops := [op] } else { failed with ops := [op] }
      else failed

/-- `rmd`, client.rs:295-310 -/
def rmd (root : Path) (w : World) (cl : Client) (p : List Nat) : Res :=
  match completePath root w (join cl p) with
  | none => Res.say cl 550 (str "Couldn't remove folder: " ++ p)
  | some dir =>
    let op := Op.rmDir dir
    if w.works op then { Res.say cl 250 (str "Folder successfully removed") with ops := [op] }
    else { Res.say cl 550 (str "Couldn't remove folder: " ++ p) with ops := [op] }

/-- `dele`, client.rs:312-325 -/
def dele (root : Path) (w : World) (cl : Client) (p : List Nat) : Res :=
  match completePath root w (join cl p) with
  | none => Res.say cl 550 (str "Couldn't remove file: " ++ p)
  | some f =>
    let op := Op.rmFile f
    if w.works op then { Res.say cl 250 (str "File successfully removed") with ops := [op] }
    else { Res.say cl 550 (str "Couldn't remove file: " ++ p) with ops := [op] }

/-- `prefix_slash`, client.rs:727-731 -/
def prefixSlash (p : Path) : Path := if isAbs p then p else push [.root] p

/-- `cwd`, client.rs:332-352 -/
def cwd (root : Path) (w : World) (cl : Client) (p : List Nat) : Res :=
  let failed := Res.say cl 550 (str "No such file or directory")
  match completePath root w (join cl p) with
  | none => failed
  | some dir =>
    match stripPrefix root dir with
    | none => failed
    | some rest => Res.say { cl with cwd := prefixSlash rest } 250 (str "Directory changed to \"" ++ p ++ str "\"")

/-- `CDUP`, client.rs:119-128 -/
def cdup (cl : Client) : Res :=
  let cl' := match parentOf cl.cwd with
    | none => cl
    | some p => { cl with cwd := prefixSlash p }
  Res.say cl' 250 (str "\"" ++ showPath cl'.cwd ++ str "\" is the current directory.")

/-- `initiate_data_connection`, client.rs:229-247 -/
def initData (w : World) (cl : Client) : Client × List Answer :=
  match cl.port with
  | none => (cl, [])
  | some _ => if w.net then ({ cl with reader := true, writer := true }, []) else (cl, [reply 425 (str "Unable to connect")])

/-- `close_data_connection`, client.rs:249-252 -/
def Client.close (cl : Client) : Client := { cl with reader := false, writer := false }

/-- The end of a transfer, client.rs:394-397, 463-466, 619-622 -/
def finish (cl : Client) (ops : List Op) (out : List Answer) : Res :=
  if cl.writer then { cl := cl.close, ops := ops, out := out ++ [reply 226 (str "Transfer done")], ended := false }
  else { cl := cl, ops := ops, out := out, ended := false }

/-- `list`, client.rs:354-399 -/
def list (root : Path) (w : World) (cl : Client) (p : Option (List Nat)) : Res :=
  let i := initData w cl
  if i.1.writer then
    match completePath root w (join i.1 (p.getD [])) with
    | none => finish i.1 [] (i.2 ++ [reply 501 (str "No such file or directory")])
    | some path =>
      let out := i.2 ++ [reply 125 (str "Starting to list directory...")]
      if w.isDir path then
        if w.works (.readDir path) then
          let ops := .readDir path :: (w.entries path).map fun n => .stat (push path [.normal n])
          if w.net then finish i.1 ops out else { cl := i.1, ops := ops, out := out, ended := true }
        else { cl := i.1, ops := [.readDir path], out := out ++ [reply 501 (str "No such file or directory")], ended := false }
      else if w.net then finish i.1 [.stat path] out else { cl := i.1, ops := [.stat path], out := out, ended := true }
  else finish i.1 [] (i.2 ++ [reply 426 (str "No opened data connection")])

/-- `nlst`, client.rs:401-468 -/
def nlst (root : Path) (w : World) (cl : Client) (p : Option (List Nat)) : Res :=
  let i := initData w cl
  if i.1.writer then
    match completePath root w i.1.cwd with
    | none => finish i.1 [] (i.2 ++ [reply 550 (str "No such file or directory")])
    | some dir =>
      if (p.map fun q => isAbs (parse (text q))) = some true then
        { cl := i.1.close, ops := [], out := i.2 ++ [reply 501 (str "No such file or directory")], ended := false }
      else
        let pattern := push dir (match p with
          | some q => parse (text q)
          | none => [.normal ['*']])
        match w.matching pattern with
        | none => { cl := i.1, ops := [], out := i.2 ++ [reply 501 (str "Invalid pattern specified")], ended := false }
        | some ms =>
          let out := i.2 ++ [reply 125 (str "Starting to list directory...")]
          let ops := .glob pattern :: ms.filterMap fun m => match w.canon m with
            | none => none
            | some r => if startsWith r root then some (.report m r) else none
          if w.net then finish i.1 ops out else { cl := i.1, ops := ops, out := out, ended := true }
  else finish i.1 [] (i.2 ++ [reply 426 (str "No opened data connection")])

/-- `retr`, client.rs:567-624 -/
def retr (root : Path) (w : World) (cl : Client) (p : List Nat) : Res :=
  let i := initData w cl
  if i.1.writer then
    match completePath root w (join i.1 p) with
    | none => finish i.1 [] (i.2 ++ [reply 451 (str "\"" ++ showPath (join i.1 p) ++ str "\" doesn't exist")])
    | some path =>
      if w.isFile path then
        let out := i.2 ++ [reply 125 (str "Starting to send file...")]
        if w.works (.readFile path) then
          if w.net then finish i.1 [.readFile path] out else { cl := i.1, ops := [.readFile path], out := out, ended := true }
        else { cl := i.1, ops := [.readFile path], out := out ++ [reply 451 (str "\"" ++ showPath path ++ str "\" doesn't exist")], ended := false }
      else finish i.1 [] (i.2 ++ [reply 451 (str "\"" ++ showPath path ++ str "\" doesn't exist")])
  else finish i.1 [] (i.2 ++ [reply 426 (str "No opened data connection")])

/-- `invalid_path`, client.rs:710-717 -/
def invalidPath (p : Path) : Bool := p.any (· == .parent)

/-- `stor` and `put_file`, client.rs:626-663 -/
def stor (root : Path) (w : World) (cl : Client) (p : List Nat) : Res :=
  let i := initData w cl
  if i.1.reader then
    if invalidPath (parse (text p)) then { cl := i.1, ops := [], out := i.2, ended := true }
    else
      let out := i.2 ++ [reply 125 (str "Starting to send file...")]
      if w.net then
        let op := Op.write (below root (join i.1 p))
        { cl := i.1.close, ops := [op], ended := false,
          out := out ++ [if w.works op then reply 226 (str "Transfer done") else reply 451 (str "Failed to store the file")] }
      else { cl := i.1, ops := [], out := out, ended := true }
  else { cl := i.1, ops := [], out := i.2 ++ [reply 426 (str "No opened data connection")], ended := false }

/-- Decimal digits of a number, as bytes -/
def decBytes (n : Nat) : List Nat := (Nat.toDigits 10 n).map Char.toNat

/-- `pasv`, client.rs:470-516; address and port of the reply are not modelled -/
def pasv (w : World) (cl : Client) : Res :=
  if cl.writer then Res.say cl 125 (str "Already listening...")
  else
    let cl := { cl with port := none }
    if w.v4 then { cl := { cl with reader := w.net, writer := w.net }, ops := [], out := [reply 227 (str "Entering passive mode")], ended := !w.net }
    else { cl := cl, ops := [], out := [], ended := true }

/-- `epsv`, client.rs:518-554; the port of the reply is not modelled -/
def epsv (w : World) (cl : Client) (proto : Option (List Nat)) : Res :=
  if (proto.map fun p => p.map upper) = some (str "ALL") then { cl := { cl with writer := false }, ops := [], out := [], ended := false }
  else if cl.writer then Res.say cl 125 (str "Already listening...")
  else
    let cl := { cl with port := none }
    { cl := { cl with reader := w.net, writer := w.net }, ops := [], out := [reply 229 (str " (|||0|)")], ended := !w.net }

/-- The check of `PASS`, client.rs:136-146 -/
def passOk (cfg : Config) (name : Option (List Nat)) (s : List Nat) : Bool :=
  cfg.anonymous || cfg.users.any fun u => decide (some u.name = name ∧ u.password = s)

/-- `PASS` while it is awaited, client.rs:147-154 -/
def pass (cfg : Config) (cl : Client) (s : List Nat) : Res :=
  if passOk cfg cl.name s then Res.say { cl with waiting := false } 230 (str "Welcome " ++ cl.name.getD [])
  else Res.say cl 530 (str "Invalid password")

/-- `USER`, client.rs:167-208 -/
def user (cfg : Config) (cl : Client) (s : List Nat) : Res :=
  if s = [] then Res.say cl 501 (str "Invalid username")
  else if cfg.anonymous ∧ s = str "anonymous" then
    Res.say { cl with name := some s, waiting := true } 331 (str "Login OK, password needed for " ++ s)
  else match cfg.users.find? fun u => u.name == s with
    | none => Res.say cl 530 (str "Unknown user...")
    | some u =>
      if u.password ≠ [] then Res.say { cl with name := some s, waiting := true } 331 (str "Login OK, password needed for " ++ s)
      else Res.say { cl with name := some s, waiting := false } 230 (str "Welcome " ++ s ++ str "!")

/-- The commands that do not need a login, client.rs:157-225 -/
def open_ (cfg : Config) (cl : Client) (c : Cmd) : Res :=
  match c with
  | .auth => Res.say cl 502 (str "Not implemented")
  | .quit => { Res.say cl.close 221 (str "Closing connection...") with ended := true }
  | .syst => Res.say cl 215 (str "UNIX Type: L8")
  | .type _ => Res.say cl 200 (str "Transfer type changed successfully")
  | .user s => user cfg cl s
  | .feat => { cl := cl, ops := [], out := [{ code := 211, message := str "Feature list", lines := [str "UTF8"] }], ended := false }
  | .noop => Res.say cl 200 (str "Doing nothing")
  | .unknown s => Res.say cl 500 (str "\"" ++ s ++ str "\": Not implemented")
  | _ => Res.say cl 530 (str "Please log first")

/-- `handle_cmd`, client.rs:95-227 -/
def handle (cfg : Config) (root : Path) (w : World) (cl : Client) (c : Cmd) : Res :=
  if cl.logged then
    match c with
    | .cwd p => cwd root w cl p
    | .list p => list root w cl p
    | .nlst p => nlst root w cl p
    | .pasv => pasv w cl
    | .epsv s => epsv w cl s
    | .port n => Res.say { cl with port := some n } 200 (str "Data port is now " ++ decBytes n)
    | .pwd => Res.say cl 257 (str "\"" ++ showPath cl.cwd ++ str "\" ")
    | .retr p => retr root w cl p
    | .stor p => stor root w cl p
    | .cdup => cdup cl
    | .mkd p => mkd root w cl p
    | .rmd p => rmd root w cl p
    | .dele p => dele root w cl p
    | c => open_ cfg cl c
  else if cl.name.isSome ∧ cl.waiting then
    match c with
    | .pass s => pass cfg cl s
    | c => open_ cfg cl c
  else open_ cfg cl c

/-- A session: commands in order, each with what the world answers; it ends when a command closes the connection. The result has, for every handled command,
what it did. -/
def session (cfg : Config) (root : Path) : Client → List (Cmd × World) → List (Cmd × Res)
  | _, [] => []
  | cl, (c, w) :: rest =>
    let r := handle cfg root w cl c
    (c, r) :: if r.ended then [] else session cfg root r.cl rest

end Verif.Ftp
