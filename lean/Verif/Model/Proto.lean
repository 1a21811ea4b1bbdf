import Verif.Model.Dec
import Verif.Model.File

/-
Requests and responses between client and server: src/client-sock.c, src/server-sock.c.

A message is built in an array of `size` bytes (`MAX_SOCK_LINE`, 131072, in the code).
-/
namespace Conman

/-! ### `enum proto_toks`, src/common.h:174-196 -/

def tokBroadcast : Int := 259
def tokCode : Int := 260
def tokConnect : Int := 261
def tokConsole : Int := 262
def tokError : Int := 263
def tokForce : Int := 264
def tokHello : Int := 265
def tokJoin : Int := 266
def tokMessage : Int := 267
def tokMonitor : Int := 268
def tokOk : Int := 269
def tokOption : Int := 270
def tokQuery : Int := 271
def tokQuiet : Int := 272
def tokRegex : Int := 273
def tokReset : Int := 274
def tokTty : Int := 275
def tokUser : Int := 276

/-- `MAX_SOCK_LINE`, src/common.h:86. -/
def maxSockLine : Nat := 131072

/-- `LEX_TOK2STR(proto_strs, tok)`, src/lex.h:88. -/
def protoStr (t : Int) : List UInt8 := protoStrs.getD (t - lexTokOffset).toNat []

inductive MsgCmd where
  | connect | monitor | query
deriving Repr, DecidableEq

/-- The parts of `req_t` (src/common.h:143-160) that are sent. -/
structure ReqMsg where
  cmd : MsgCmd
  quiet : Bool := false
  regex : Bool := false
  force : Bool := false
  join : Bool := false
  bcast : Bool := false
  consoles : List (List UInt8) := []
deriving Repr, DecidableEq

/-- `" %s='%s'"` with an encoded string. -/
def strArg (t : Int) (s : List UInt8) : List UInt8 := bs " " ++ protoStr t ++ bs "='" ++ lexEncode s ++ bs "'"

/-- `" %s=%s"` with `OPTION`. -/
def optArg (t : Int) : List UInt8 := bs " " ++ protoStr tokOption ++ bs "=" ++ protoStr t

/-- Building a message from pieces, of which only the last result is checked: `some none` is an overrun. -/
def buildMsg (size : Nat) (ps : List (List UInt8)) : Option (Option (List UInt8)) :=
  (appendPieces (List.replicate size 0) size 0 ps).bind (fun r => if r.2 < 0 then some none else (cstr r.1).map some)

/-- The text sent by `send_greeting`, src/client-sock.c:99-133. -/
def greeting (size : Nat) (user : List UInt8) (tty : Option (List UInt8)) : Option (Option (List UInt8)) :=
  buildMsg size ([protoStr tokHello ++ strArg tokUser user] ++ tty.toList.map (strArg tokTty) ++ [bs "\n"])

def cmdTok : MsgCmd → Int
  | .connect => tokConnect
  | .monitor => tokMonitor
  | .query => tokQuery

/-- The options of a request, src/client-sock.c:178-206. -/
def reqOpts (r : ReqMsg) : List (List UInt8) :=
  (if r.quiet then [optArg tokQuiet] else []) ++ (if r.regex then [optArg tokRegex] else []) ++
    (if r.cmd = .connect then
      (if r.force then [optArg tokForce] else []) ++ (if r.join then [optArg tokJoin] else []) ++ (if r.bcast then [optArg tokBroadcast] else [])
    else [])

/-- The text sent by `send_req`, src/client-sock.c:151-230. -/
def request (size : Nat) (r : ReqMsg) : Option (Option (List UInt8)) :=
  buildMsg size ([protoStr (cmdTok r.cmd)] ++ reqOpts r ++ r.consoles.map (strArg tokConsole) ++ [bs "\n"])

/-! ### Server side -/

/-- The parts of `req_t` that are received. -/
structure SrvReq where
  user : Option (List UInt8) := none
  tty : Option (List UInt8) := none
  cmd : Option MsgCmd := none
  quiet : Bool := false
  regex : Bool := false
  force : Bool := false
  join : Bool := false
  bcast : Bool := false
  consoles : List (List UInt8) := []
deriving Repr, DecidableEq

/-- `(lex_next(l) == '=') && (lex_next(l) == LEX_STR)`: the text if both hold. -/
def strField (l : Lex) : Option (Lex × Option (List UInt8)) :=
  (lexNext protoStrs l).bind (fun r =>
    if r.2 = 0x3D then (lexNext protoStrs r.1).bind (fun r => some (r.1, if r.2 = lexStr then some r.1.text else none))
    else some (r.1, none))

/-- `... && (*lex_text(l) != '\0')`, then `lex_decode(create_string(lex_text(l)))`. -/
def fieldVal (f : Option (List UInt8)) : Option (List UInt8) :=
  match f with
  | none => none
  | some t => if t = [] then none else some (lexDecode t)

/-- src/server-sock.c:292-296. -/
def setUser (q : SrvReq) : Option (List UInt8) → SrvReq
  | some u => { q with user := some u }
  | none => q

/-- src/server-sock.c:300-304. -/
def setTty (q : SrvReq) : Option (List UInt8) → SrvReq
  | some t => { q with tty := some t }
  | none => q

/-- `parse_greeting`, src/server-sock.c:279-315; every round passes at least one byte or ends it. -/
def parseGreeting : Nat → Lex → SrvReq → Option (Lex × SrvReq)
  | 0, _, _ => none
  | n + 1, l, q =>
    (lexNext protoStrs l).bind (fun r =>
      if r.2 = tokUser then
        (strField r.1).bind (fun f => parseGreeting n f.1 (setUser q (fieldVal f.2)))
      else if r.2 = tokTty then
        (strField r.1).bind (fun f => parseGreeting n f.1 (setTty q (fieldVal f.2)))
      else if r.2 = lexEof ∨ r.2 = lexEol then some (r.1, q)
      else parseGreeting n r.1 q)

/-- The loop of `recv_greeting`, src/server-sock.c:250-264. -/
def greetingLoop : Nat → Lex → SrvReq → Option SrvReq
  | 0, _, _ => none
  | n + 1, l, q =>
    (lexNext protoStrs l).bind (fun r =>
      if r.2 = tokHello then (parseGreeting (n + 1) r.1 q).bind (fun p => greetingLoop n p.1 p.2)
      else if r.2 = lexEof ∨ r.2 = lexEol then some q
      else greetingLoop n r.1 q)

/-- `recv_greeting` on the array filled by `read_line`, src/server-sock.c:249-273: a missing `user` refuses the client. -/
def recvGreeting (buf : List UInt8) : Option SrvReq := greetingLoop (buf.length + 1) (lexCreate buf) {}

/-- Effect of an option, src/server-sock.c:392-402. -/
def setOpt (q : SrvReq) (t : Int) : SrvReq :=
  if t = tokBroadcast then { q with bcast := true }
  else if t = tokForce then { q with force := true }
  else if t = tokJoin then { q with join := true }
  else if t = tokQuiet then { q with quiet := true }
  else if t = tokRegex then { q with regex := true }
  else q

/-- `if (lex_next(l) == '=') ... lex_next(l) ...`: the token behind `=`, if any. -/
def optField (l : Lex) : Option (Lex × Option Int) :=
  (lexNext protoStrs l).bind (fun r =>
    if r.2 = 0x3D then (lexNext protoStrs r.1).bind (fun r => some (r.1, some r.2)) else some (r.1, none))

/-- src/server-sock.c:386-389. -/
def addConsole (q : SrvReq) : Option (List UInt8) → SrvReq
  | some c => { q with consoles := q.consoles ++ [c] }
  | none => q

/-- src/server-sock.c:391-403. -/
def applyOpt (q : SrvReq) : Option Int → SrvReq
  | some t => setOpt q t
  | none => q

/-- `parse_cmd_opts`, src/server-sock.c:374-415. -/
def parseCmdOpts : Nat → Lex → SrvReq → Option (Lex × SrvReq)
  | 0, _, _ => none
  | n + 1, l, q =>
    (lexNext protoStrs l).bind (fun r =>
      if r.2 = tokConsole then
        (strField r.1).bind (fun f =>
          parseCmdOpts n f.1 (addConsole q (fieldVal f.2)))
      else if r.2 = tokOption then
        (optField r.1).bind (fun f => parseCmdOpts n f.1 (applyOpt q f.2))
      else if r.2 = lexEof ∨ r.2 = lexEol then some (r.1, q)
      else parseCmdOpts n r.1 q)

/-- `recv_req` on the array filled by `read_line`, src/server-sock.c:344-371. -/
def reqLoop : Nat → Lex → SrvReq → Option SrvReq
  | 0, _, _ => none
  | n + 1, l, q =>
    (lexNext protoStrs l).bind (fun r =>
      if r.2 = tokConnect then (parseCmdOpts (n + 1) r.1 { q with cmd := some .connect }).bind (fun p => reqLoop n p.1 p.2)
      else if r.2 = tokMonitor then (parseCmdOpts (n + 1) r.1 { q with cmd := some .monitor }).bind (fun p => reqLoop n p.1 p.2)
      else if r.2 = tokQuery then (parseCmdOpts (n + 1) r.1 { q with cmd := some .query }).bind (fun p => reqLoop n p.1 p.2)
      else if r.2 = lexEof ∨ r.2 = lexEol then some q
      else reqLoop n r.1 q)

def recvReq (buf : List UInt8) (q : SrvReq) : Option SrvReq := reqLoop (buf.length + 1) (lexCreate buf) q

/-! ### Responses -/

/-- `append_format_string` of one piece after the other, leaving at the first that does not fit (`goto overrun`). -/
def appendStrict (size : Nat) : List (List UInt8) → List UInt8 → Option (Option (List UInt8))
  | [], buf => (cstr buf).map some
  | p :: ps, buf => (appendFormat buf size p).bind (fun r => if r.2 = -1 then some none else appendStrict size ps r.1)

/-- Copying a name to `tmp[MAX_LINE]`, src/server-sock.c:748-751: `none` is an overrun. -/
def nameArg (name : List UInt8) : Option (List UInt8) := if name.length ≥ maxLine then none else some (strArg tokConsole name)

/-- The pieces of an OK response, in the order they are appended; a name that is too long ends them with `none` (overrun). -/
def rspPieces (reset : Bool) (consoles : List (List UInt8)) : Option (List (List UInt8)) :=
  (consoles.mapM nameArg).map (fun cs =>
    [protoStr tokOk] ++ (if consoles.length > 0 ∧ reset then [optArg tokReset] else []) ++ cs ++ [bs "\n"])

/-- The text sent by `send_rsp` for `errnum = CONMAN_ERR_NONE`, src/server-sock.c:725-766.  Whether the buffer or a name is too long first
makes no difference. -/
def rspOk (size : Nat) (reset : Bool) (consoles : List (List UInt8)) : Option (Option (List UInt8)) :=
  match rspPieces reset consoles with
  | none => some none
  | some ps => appendStrict size ps (List.replicate size 0)

/-- The text sent by `send_rsp` for an error, src/server-sock.c:767-783. -/
def rspErr (size : Nat) (errnum : Nat) (errmsg : Option (List UInt8)) : Option (Option (List UInt8)) :=
  let msg := errmsg.getD (bs "unspecified error")
  if msg.length ≥ maxLine then some none
  else
    (snprintf (List.replicate size 0) 0 size
      (protoStr tokError ++ bs " " ++ protoStr tokCode ++ bs "=" ++ dec errnum ++ bs " " ++ protoStr tokMessage ++ bs "='" ++ lexEncode msg ++ bs "'\n")).bind
      (fun r => if r.2 ≥ size then some none else (cstr r.1).map some)

/-- What the client takes from a response: `conf->req->consoles`, `conf->req->enableReset`, `conf->errnum`, `conf->errmsg`. -/
structure CliRsp where
  consoles : List (List UInt8) := []
  reset : Bool := false
  errnum : Int := 0
  errmsg : Option (List UInt8) := none
deriving Repr, DecidableEq

/-- `parse_rsp_ok`, src/client-sock.c:304-334. -/
def parseRspOk : Nat → Lex → CliRsp → Option CliRsp
  | 0, _, _ => none
  | n + 1, l, q =>
    (lexNext protoStrs l).bind (fun r =>
      if r.2 = tokConsole then
        (strField r.1).bind (fun f => parseRspOk n f.1 (match f.2 with | some t => { q with consoles := q.consoles ++ [lexDecode t] } | none => q))
      else if r.2 = tokOption then
        (optField r.1).bind (fun f => parseRspOk n f.1 (if f.2 = some tokReset then { q with reset := true } else q))
      else if r.2 = lexEof ∨ r.2 = lexEol then some q
      else parseRspOk n r.1 q)

/-- `(lex_next(l) == '=') && (lex_next(l) == LEX_INT)`. -/
def intField (l : Lex) : Option (Lex × Option (List UInt8)) :=
  (lexNext protoStrs l).bind (fun r =>
    if r.2 = 0x3D then (lexNext protoStrs r.1).bind (fun r => some (r.1, if r.2 = lexInt then some r.1.text else none))
    else some (r.1, none))

/-- `parse_rsp_err`, src/client-sock.c:337-370: `err` and `buf` are kept in `errnum` and `errmsg`.  `strlcpy(buf, lex_text(l), MAX_LINE)` copies
everything, as `lex_text` has at most 1023 bytes (C14). -/
def parseRspErr : Nat → Lex → (err : Int) → (buf : List UInt8) → CliRsp → Option CliRsp
  | 0, _, _, _, _ => none
  | n + 1, l, err, buf, q =>
    (lexNext protoStrs l).bind (fun r =>
      if r.2 = tokCode then
        (intField r.1).bind (fun f =>
          match f.2 with
          | some t => (atoi t).bind (fun v => parseRspErr n f.1 v buf q)
          | none => parseRspErr n f.1 err buf q)
      else if r.2 = tokMessage then
        (strField r.1).bind (fun f => parseRspErr n f.1 err (f.2.getD buf) q)
      else if r.2 = lexEof ∨ r.2 = lexEol then
        some { q with errnum := err, errmsg := if buf = [] then q.errmsg else some (lexDecode buf) }
      else parseRspErr n r.1 err buf q)

/-- `recv_rsp` on the array filled by `read_line`, src/client-sock.c:273-301: what was received and whether 0 is returned.  The message for
an invalid response is left out. -/
def rspLoop : Nat → Lex → Option (CliRsp × Bool)
  | 0, _ => none
  | n + 1, l =>
    (lexNext protoStrs l).bind (fun r =>
      if r.2 = tokOk then (parseRspOk (n + 1) r.1 {}).map (fun q => (q, true))
      else if r.2 = tokError then
        (parseRspErr (n + 1) r.1 0 [] {}).map (fun q => (if q.errnum = 0 then { q with errnum := 1 } else q, false))
      else if r.2 = lexEof ∨ r.2 = lexEol then some ({ errnum := 1 }, false)
      else rspLoop n r.1)

def recvRsp (buf : List UInt8) : Option (CliRsp × Bool) := rspLoop (buf.length + 1) (lexCreate buf)

end Conman
