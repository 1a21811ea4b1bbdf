import Verif.Model.Dec
import Verif.Model.Proto
import Verif.Spec.ClientArgs

/-
The command line and the environment of the client: src/client-conf.c.
-/
namespace Conman
open Spec

/-- `getopt` (C library) with the string of src/client-conf.c:162: the options in order, the operands, and the option that is not valid or has no argument.
Operands may stand between options, as with the GNU library. -/
structure GetoptRes where
  opts : List COpt
  operands : List (List UInt8)
  bad : Option UInt8
deriving Repr, DecidableEq

/-- How a word of options ends. -/
inductive WordEnd where
  | done
  | attached (c : UInt8) (v : List UInt8)
  | wants (c : UInt8)
  | bad (c : UInt8)
deriving Repr, DecidableEq

/-- The characters of a word of options. -/
def optWord : List UInt8 → List COpt × WordEnd
  | [] => ([], .done)
  | c :: s =>
    if c ∈ bs "bfhjLmqQrvV" then (.flag c :: (optWord s).1, (optWord s).2)
    else if c ∈ bs "deFl" then if s = [] then ([], .wants c) else ([], .attached c s)
    else ([], .bad c)

/-- More options in front. -/
def GetoptRes.pre (os : List COpt) (r : GetoptRes) : GetoptRes := { r with opts := os ++ r.opts }

def getopt : List (List UInt8) → GetoptRes
  | [] => ⟨[], [], none⟩
  | a :: r =>
    if a = bs "--" then ⟨[], r, none⟩
    else if a.head? = some 0x2D ∧ a ≠ bs "-" then
      match (optWord (a.drop 1)).2 with
      | .done => GetoptRes.pre (optWord (a.drop 1)).1 (getopt r)
      | .attached c v => GetoptRes.pre ((optWord (a.drop 1)).1 ++ [.arg c v]) (getopt r)
      | .wants c =>
        match r with
        | [] => ⟨(optWord (a.drop 1)).1, [], some c⟩
        | v :: r => GetoptRes.pre ((optWord (a.drop 1)).1 ++ [.arg c v]) (getopt r)
      | .bad c => ⟨(optWord (a.drop 1)).1, [], some c⟩
    else let q := getopt r; { q with operands := a :: q.operands }

/-- The parts of `client_conf_t` (src/client.h) that are set here. -/
structure ClientConf where
  host : List UInt8
  port : Int
  esc : UInt8
  log : Option (List UInt8) := none
  cmd : MsgCmd := .connect
  bcast : Bool := false
  force : Bool := false
  join : Bool := false
  quiet : Bool := false
  regex : Bool := false
  verbose : Bool := false
  help : Bool := false
  consoles : List (List UInt8) := []
deriving Repr, DecidableEq

/-- `create_client_conf`, src/client-conf.c:53-101: `CONMAN_HOST` and `CONMAN_PORT` are set when the program is built (127.0.0.1 and 7890), `DEFAULT_CLIENT_ESCAPE` is `&`. -/
def clientConf0 : ClientConf := { host := bs "127.0.0.1", port := 7890, esc := 0x26 }

/-- Host and port, src/client-conf.c:132-142 and 168-178; `none`: the number does not fit. -/
def setDest (c : ClientConf) (s : List UInt8) : Option ClientConf :=
  (if 0x3A ∈ s then (atoi ((s.dropWhile (· ≠ 0x3A)).drop 1)).map fun i => if 0 < i then { c with port := i } else c else some c).map fun c =>
  if s.takeWhile (· ≠ 0x3A) ≠ [] then { c with host := s.takeWhile (· ≠ 0x3A) } else c

/-- The environment. -/
structure ClientVars where
  host : Option (List UInt8) := none
  port : Option (List UInt8) := none
  esc : Option (List UInt8) := none
deriving Repr, DecidableEq

/-- `CONMAN_HOST`, src/client-conf.c:131-142. -/
def envHost (h : Option (List UInt8)) (c : ClientConf) : Option ClientConf :=
  match h with
  | some h => setDest c h
  | none => some c

/-- `CONMAN_PORT`, src/client-conf.c:143-146. -/
def envPort (p : Option (List UInt8)) (c : ClientConf) : Option ClientConf :=
  match p with
  | some p => if p ≠ [] then (atoi p).map fun i => if 0 < i then { c with port := i } else c else some c
  | none => some c

/-- `CONMAN_ESCAPE`, src/client-conf.c:147-149. -/
def envEsc (x : Option (List UInt8)) (c : ClientConf) : ClientConf :=
  match x with
  | some (x :: _) => { c with esc := x }
  | _ => c

/-- `process_client_env_vars`, src/client-conf.c:126-151. -/
def clientEnv (e : ClientVars) (c : ClientConf) : Option ClientConf :=
  (envHost e.host c).bind fun c => (envPort e.port c).map fun c => envEsc e.esc c

/-! ### Files of names -/

/-- What `fgets(buf, n + 1, fp)` takes from the file: at most `n` bytes, up to the first newline. -/
def fgetsTake : Nat → List UInt8 → List UInt8
  | 0, _ => []
  | _, [] => []
  | n + 1, c :: s => if c = 0x0A then [c] else c :: fgetsTake n s

/-- Trailing white space, src/client-conf.c:290-292.  `isspace` of bytes with high bit is taken to be false. -/
def rtrim (s : List UInt8) : List UInt8 := (s.reverse.dropWhile isSpace).reverse

/-- Leading white space, src/client-conf.c:296-298: not beyond the last byte. -/
def ltrim : List UInt8 → List UInt8
  | c :: d :: s => if isSpace c then ltrim (d :: s) else c :: d :: s
  | s => s

/-- One round of the loop, src/client-conf.c:286-305, with the bytes read; a NUL ends the string. -/
def fileLine (s : List UInt8) : List (List UInt8) :=
  let t := ltrim (rtrim (s.takeWhile (· ≠ 0)))
  if t.head? = some 0x23 ∨ t = [] then [] else [t]

/-- `read_consoles_from_file`, src/client-conf.c:266-311, with the contents of the file; `MAX_LINE` is 1024.  Every round takes at least one byte. -/
def readNames : Nat → List UInt8 → List (List UInt8)
  | 0, _ => []
  | f + 1, s => if s = [] then [] else fileLine (fgetsTake (maxLine - 1) s) ++ readNames f (s.drop (fgetsTake (maxLine - 1) s).length)

/-! ### The command line -/

/-- How the processing of options ends: with a configuration, or with the end of the program. -/
inductive COut where
  | go (c : ClientConf)
  | exit (code : Nat)
deriving Repr, DecidableEq

/-- One option, src/client-conf.c:163-230. -/
def clientOpt (fs : List UInt8 → Option (List UInt8)) (c : ClientConf) : COpt → Option COut
  | .flag x =>
    if x = 0x62 then some (.go { c with bcast := true })
    else if x = 0x66 then some (.go { c with force := true, join := false })
    else if x = 0x68 then some (.go { c with help := true })
    else if x = 0x6A then some (.go { c with force := false, join := true })
    else if x = 0x4C then some (.exit 0)
    else if x = 0x6D then some (.go { c with cmd := .monitor })
    else if x = 0x71 then some (.go { c with cmd := .query })
    else if x = 0x51 then some (.go { c with quiet := true })
    else if x = 0x72 then some (.go { c with regex := true })
    else if x = 0x76 then some (.go { c with verbose := true })
    else if x = 0x56 then some (.exit 0)
    else some (.exit 1)
  | .arg x v =>
    if x = 0x64 then (setDest c v).map .go
    else if x = 0x65 then some (.go { c with esc := v.head?.getD 0 })
    else if x = 0x46 then
      match fs v with
      | none => some (.exit 1)
      | some s => some (.go { c with consoles := c.consoles ++ readNames (s.length + 1) s })
    else if x = 0x6C then some (.go { c with log := some v })
    else some (.exit 1)

def clientOpts (fs : List UInt8 → Option (List UInt8)) : ClientConf → List COpt → Option COut
  | c, [] => some (.go c)
  | c, o :: os =>
    (clientOpt fs c o).bind fun r =>
    match r with
    | .go c => clientOpts fs c os
    | .exit n => some (.exit n)

/-- The names of an operand, src/client-conf.c:243-255. -/
def commaLoop : Nat → List UInt8 → List (List UInt8)
  | 0, _ => []
  | f + 1, p =>
    let a := p.takeWhile (· ≠ 0x2C)
    (if a ≠ [] then [a] else []) ++ (if 0x2C ∈ p then commaLoop f ((p.dropWhile (· ≠ 0x2C)).drop 1) else [])

/-- `process_client_cmd_line`, src/client-conf.c:154-263, without the first word. -/
def clientCmdLine (fs : List UInt8 → Option (List UInt8)) (c : ClientConf) (args : List (List UInt8)) : Option COut :=
  (clientOpts fs c (getopt args).opts).map fun r =>
  match r with
  | .exit n => .exit n
  | .go c =>
    match (getopt args).bad with
    | some _ => .exit 1
    | none =>
      let c := if c.cmd = .monitor then { c with bcast := false, force := false, join := false } else c
      let c := { c with consoles := c.consoles ++ ((getopt args).operands.map fun a => commaLoop (a.length + 1) a).flatten }
      if c.help ∨ (c.cmd ≠ .query ∧ c.consoles = []) then .exit 0 else .go c

/-- The client up to the connection, src/client.c:46-48. -/
def clientArgs (fs : List UInt8 → Option (List UInt8)) (e : ClientVars) (args : List (List UInt8)) : Option COut :=
  (clientEnv e clientConf0).bind fun c => clientCmdLine fs c args

/-- The request, src/client-sock.c:151-230. -/
def ClientConf.req (c : ClientConf) : ReqMsg :=
  { cmd := c.cmd, quiet := c.quiet, regex := c.regex, force := c.force, join := c.join, bcast := c.bcast, consoles := c.consoles }

/-- `htons(conf->req->port)`, src/client-sock.c:65: the port that is connected to. -/
def ClientConf.tcpPort (c : ClientConf) : Int := c.port % 65536

end Conman
