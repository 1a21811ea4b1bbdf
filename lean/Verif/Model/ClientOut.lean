import Verif.Model.ClientArgs
import Verif.Model.Tty
import Verif.Spec.ClientOut

/-
What the client writes: src/client.c, src/client-sock.c, src/client-tty.c and the log of src/client-conf.c:349-395.

* `stk` is what arrays that are not initialised contain.
* That a write to the terminal, to standard error or to the log fails is left out except for the event `fail` of a session.
* The text of messages of `log_err`, after which the exit status is 1, is left out (C79).
-/
namespace Conman
open Spec

/-- `%s` -/
def argS (s : List UInt8) : List UInt8 := s.takeWhile (· ≠ 0)

/-- `write_esc_char`, src/client-tty.c:657-683, at the offset `i`. -/
def writeEscChar (buf : List UInt8) (i : Nat) (c : UInt8) : Option (List UInt8 × Nat) :=
  let c := c &&& 0x7F
  let t := if c < 0x20 then [0x5E, c + 0x40] else if c = 0x7F then [0x5E, 0x3F] else [c]
  (pokes buf i (t ++ [0])).map (·, i + t.length)

/-- `locally_echo_esc`, src/client-tty.c:639-654. -/
def echoEsc (stk : List UInt8) (e c : UInt8) : Option (List UInt8) :=
  (writeEscChar (stk.take 4) 0 e).bind fun r => (writeEscChar r.1 r.2 c).map fun r => r.1.take r.2

/-- src/client-tty.c:696-705 -/
def statusWho : List (List UInt8) → List UInt8
  | [c] => bs "Connection to console [" ++ argS c ++ bs "] "
  | cs => bs "Broadcast to " ++ dec cs.length ++ bs " consoles "

/-- `locally_display_status`, src/client-tty.c:686-712. -/
def statusMsg (stk : List UInt8) (consoles : List (List UInt8)) (msg : List UInt8) : Option (List UInt8) :=
  (snprintf (stk.take maxLine) 0 maxLine (msgPrefix ++ (statusWho consoles ++ msg ++ msgSuffix))).bind fun r =>
  (if r.2 ≥ maxLine then pokes r.1 (maxLine - 3) (bs "\r\n" ++ [0]) else some r.1).bind cstr

/-- src/client-tty.c:518-530 -/
def infoText (cmd : Cmd) : List (List UInt8) → List UInt8
  | [c] => bs "Connected " ++ (if cmd = .monitor then bs "R/O" else bs "R/W") ++ bs " to console [" ++ argS c ++ bs "] on "
  | cs => bs "Broadcasting to " ++ dec cs.length ++ bs " consoles on "

/-- `<%s:%d>` -/
def peerText (host : List UInt8) (port : Int) : List UInt8 := bs "<" ++ host ++ bs ":" ++ decInt port ++ bs ">"

/-- `perform_info_esc`, src/client-tty.c:511-535. -/
def infoMsg (consoles : List (List UInt8)) (cmd : Cmd) (host : List UInt8) (port : Int) : List UInt8 :=
  msgPrefix ++ (infoText cmd consoles ++ peerText host port) ++ msgSuffix

/-- `"  %2s%-2s -  ...\r\n"` with the results of `write_esc_char`. -/
def helpLine (stk : List UInt8) (e c : UInt8) (d : List UInt8) : Option (List UInt8) :=
  (writeEscChar (stk.take 3) 0 e).bind fun r1 => (cstr r1.1).bind fun e =>
  (writeEscChar (stk.take 3) 0 c).bind fun r2 => (cstr r2.1).map fun c =>
  bs "  " ++ List.replicate (2 - e.length) 0x20 ++ e ++ c ++ List.replicate (2 - c.length) 0x20 ++ bs " -  " ++ d ++ bs "\r\n"

/-- The lines of the help, src/client-tty.c:399-489: what follows the escape character, and the text; `n` consoles. -/
def helpItems (s : CState) (n : Nat) : List (UInt8 × List UInt8) :=
  [(0x3F, bs "Display this help message."), (0x2E, bs "Terminate the connection."), (s.esc, bs "Send the escape character.")] ++
  (if s.cmd = .connect then [(0x42, bs "Transmit a serial-break.")] else []) ++
  (if s.cmd = .connect then [(0x44, bs "Transmit a DEL character.")] else []) ++
  (if s.cmd = .connect then [(0x45, (if s.echo then bs "Disable" else bs "Enable") ++ bs " echoing of client input.")] else []) ++
  (if s.cmd = .monitor then [(0x46, bs "Force write-privileges (console-stealing).")] else []) ++
  [(0x49, bs "Display connection information.")] ++
  (if s.cmd = .monitor then [(0x4A, bs "Join write-privileges (console-sharing).")] else []) ++
  (if s.bcast = false then [(0x4C, bs "Replay up to the last 4096 bytes of the log.")] else []) ++
  (if s.cmd = .connect ∧ s.bcast = false then [(0x4D, bs "Monitor without write-privileges (read-only).")] else []) ++
  [(0x51, if s.quiet then bs "Disable quiet-mode (display info msgs)." else bs "Enable quiet-mode (suppress info msgs).")] ++
  (if s.cmd = .connect ∧ s.reset = true then [(0x52, bs "Reset node" ++ (if n = 1 then [] else bs "s") ++ bs " associated with this console.")] else []) ++
  [(0x5A, bs "Suspend the client.")]

/-- `perform_help_esc`, src/client-tty.c:385-508; `MAX_BUF_SIZE` is 4096. -/
def helpMsg (stk : List UInt8) (s : CState) (n : Nat) : Option (List UInt8) :=
  ((helpItems s n).mapM fun i => helpLine stk s.esc i.1 i.2).bind fun ls =>
  (appendPieces (List.replicate 4096 0) 4096 0 (bs "\r\nSupported ConMan Escape Sequences:\r\n" :: ls)).bind fun r =>
  if r.2 = -1 then (pokes r.1 (4096 - 4) (bs "+\r\n" ++ [0])).map fun b => b.take 4095
  else some (r.1.take r.2.toNat)

/-! ### A session -/

/-- `connect_console`: `cs` is used for keys, `sent` is what went to the server, `closed` is `conf->isClosedByClient`. -/
structure CSess where
  cs : CState
  consoles : List (List UInt8)
  host : List UInt8 := []
  port : Int := 0
  out : List OutPiece := []
  /-- contents of the log file -/
  log : Option (List UInt8) := none
  sent : List UInt8 := []
  closed : Bool := false
  phase : TPhase := .running
deriving Repr, DecidableEq

/-- What is written because of a key: `perform_close_esc` (src/client-tty.c:322-324), `perform_help_esc`, `perform_info_esc`, `perform_suspend_esc` (620-632); the
process is stopped between the two messages of the last, which is not seen here. -/
def CSess.keyNotes (stk : List UInt8) (s : CSess) (c : UInt8) : Option (List (List UInt8)) :=
  if s.cs.done ∨ s.cs.inEsc = false then some []
  else if c = 0x2E then (echoEsc stk s.cs.esc c).bind fun e => (statusMsg stk s.consoles (bs "closed")).map fun t => [e, t]
  else if c = 0x3F then (helpMsg stk s.cs s.consoles.length).map fun t => [t]
  else if c = 0x49 then some [infoMsg s.consoles s.cs.cmd s.host s.port]
  else if c = 0x5A then
    (echoEsc stk s.cs.esc c).bind fun e =>
    if s.cs.wrClosed then some [e]
    else (statusMsg stk s.consoles (bs "suspended")).bind fun a => (statusMsg stk s.consoles (bs "resumed")).map fun b => [e, a, b]
  else some []

/-- `read_from_stdin`, src/client-tty.c:123-126 and 155-252. -/
def CSess.onKey (stk : List UInt8) (s : CSess) : Option (Option UInt8) → Option CSess
  | none => some s
  | some none => some { s with cs := { s.cs with done := true } }
  | some (some c) =>
    (s.keyNotes stk c).map fun ns =>
    { s with
      cs := (s.cs.key c).1
      sent := s.sent ++ (s.cs.key c).2
      out := s.out ++ ns.map .note
      closed := s.closed || (!s.cs.done && s.cs.inEsc && c = 0x2E) }

/-- `write_to_stdout`, src/client-tty.c:127-130 and 255-282. -/
def CSess.onData (s : CSess) : Option (List UInt8) → CSess
  | none => s
  | some [] => { s with cs := { s.cs with done := true } }
  | some d => { s with out := s.out ++ [.data d], log := s.log.map (· ++ d) }

/-- The end of the loop, src/client-tty.c:112 and 133-142. -/
def CSess.check (stk : List UInt8) (s : CSess) : Option CSess :=
  if s.cs.done then
    if s.closed then some { s with phase := .ended }
    else (statusMsg stk s.consoles (bs "terminated by server")).map fun t => { s with out := s.out ++ [.note t], phase := .ended }
  else some s

/-- One turn of the loop, src/client-tty.c:112-131; a signal comes while the process waits. -/
def CSess.step (stk : List UInt8) (s : CSess) (e : CEvent) : Option CSess :=
  if s.phase = .running then
    match e with
    | .round k d => (s.onKey stk k).bind fun s => (s.onData d).check stk
    | .term => ({ s with cs := { s.cs with done := true } } : CSess).check stk
    | .fail => some { s with phase := .died }
  else some s

def CSess.run (stk : List UInt8) : CSess → List CEvent → Option CSess
  | s, [] => some s
  | s, e :: es => (s.step stk e).bind fun s => s.run stk es

/-! ### Answers -/

/-- `recv_rsp`, src/client-sock.c:271-291; as `rspLoop`, with the number 0 if there was none. -/
def rspRaw : Nat → Lex → Option (CliRsp × Bool)
  | 0, _ => none
  | n + 1, l =>
    (lexNext protoStrs l).bind (fun r =>
      if r.2 = tokOk then (parseRspOk (n + 1) r.1 {}).map (fun q => (q, true))
      else if r.2 = tokError then (parseRspErr (n + 1) r.1 0 [] {}).map (fun q => (q, false))
      else if r.2 = lexEof ∨ r.2 = lexEol then some ({}, false)
      else rspRaw n r.1)

/-- `recv_rsp`, src/client-sock.c:247-301. -/
def clientRsp (host : List UInt8) (port : Int) : RspIn → Option (CliRsp × Bool)
  | .err t => some ({ errnum := 1, errmsg := some (bs "Unable to read response from " ++ peerText host port ++ bs ":\n  " ++ t ++ bs " (blocked by TCP-Wrappers?)") }, false)
  | .eof => some ({ errnum := 1, errmsg := some (bs "Connection terminated by " ++ peerText host port) }, false)
  | .line s =>
    (rspRaw (s.length + 2) (lexCreate (s ++ [0]))).map fun r =>
    if r.2 = false ∧ r.1.errnum = 0 then ({ r.1 with errnum := 1, errmsg := some (bs "Received invalid response from " ++ peerText host port) }, false) else r

/-! ### The program -/

/-- What the client meets. -/
structure CWorld where
  stk : List UInt8
  user : List UInt8
  tty : Option (List UInt8) := none
  /-- the contents of the log file, empty if it is new; `none`: it cannot be opened -/
  logFile : Option (List UInt8) := some []
  /-- times for the log -/
  now1 : List UInt8 := []
  now2 : List UInt8 := []
  /-- the name of the host can be resolved -/
  resolved : Bool := true
  /-- its canonical name -/
  cname : Option (List UInt8) := none
  /-- texts of errors: connecting, sending the greeting, sending the request, shutting down -/
  connErr : Option (List UInt8) := none
  send1 : Option (List UInt8) := none
  send2 : Option (List UInt8) := none
  shutErr : Option (List UInt8) := none
  rsp1 : RspIn
  rsp2 : RspIn
  /-- what follows an answer that is an error; whether reading it fails in the end -/
  tail : List (List UInt8) := []
  tailErr : Bool := false
  /-- standard input and output are terminals -/
  ttys : Bool := true
  events : List CEvent := []
deriving Repr, DecidableEq

/-- `open_client_log` and `close_client_log`, src/client-conf.c:361-363 and 381-383. -/
def logMark (w now : List UInt8) : List UInt8 := msgPrefix ++ bs "Log " ++ w ++ bs " at " ++ now ++ msgSuffix

/-- What is suggested, src/client-sock.c:388-395. -/
def errHint (c : ClientConf) (errnum : Int) : List UInt8 :=
  if errnum = 6 ∧ c.bcast = false then bs "\nDo you want to broadcast (-b) to multiple consoles?\n\n"
  else if errnum = 7 ∧ c.force = false ∧ c.join = false then bs "\nDo you want to force (-f) or join (-j) the connection?\n\n"
  else []

/-- `display_error` and `display_data`, src/client-sock.c:370-433; `sd`: there is a connection. -/
def displayError (c : ClientConf) (w : CWorld) (log : Option (List UInt8)) (sent : List UInt8) (sd : Bool) (errnum : Int) (errmsg : Option (List UInt8)) : COutcome :=
  let p := bs "ERROR: " ++ argS (errmsg.getD (bs "Unspecified")) ++ bs ".\n\n"
  if errnum ≠ 1 ∧ sd = true then
    if w.tailErr then { exit := some 1, err := p ++ w.tail.flatten, log := log.map (· ++ (p ++ w.tail.flatten)), sent := sent }
    else { exit := some 2, err := p ++ w.tail.flatten ++ errHint c errnum, log := log.map (· ++ (p ++ w.tail.flatten ++ errHint c errnum)), sent := sent }
  else { exit := some 2, err := p ++ errHint c errnum, log := log.map (· ++ (p ++ errHint c errnum)), sent := sent }

/-- `display_consoles`, src/client-sock.c:436-456: what is written, and whether it ends. -/
def displayConsoles (stk : List UInt8) : List (List UInt8) → Option (List (List UInt8) × Bool)
  | [] => some ([], true)
  | n :: ns =>
    (snprintf (stk.take maxLine) 0 maxLine (argS n ++ bs "\n")).bind fun r =>
    if r.2 ≥ maxLine then some ([], false)
    else (displayConsoles stk ns).map fun q => (r.1.take r.2 :: q.1, q.2)

/-- The session or the list after the request was accepted, src/client.c:58-68; `close_client_log` at the end. -/
def clientEnd (c : ClientConf) (w : CWorld) (log : Option (List UInt8)) (sent host : List UInt8) (consoles : List (List UInt8)) (reset : Bool) : Option COutcome :=
  if c.cmd = .query then
    (displayConsoles w.stk consoles).map fun r =>
    let log := log.map (· ++ r.1.flatten)
    if r.2 then { exit := some 0, out := r.1.map .data, log := log.map (· ++ logMark (bs "finished") w.now2), sent := sent }
    else { exit := some 1, out := r.1.map .data, log := log, sent := sent }
  else if w.ttys = false then some { exit := some 1, log := log, sent := sent }
  else
    (statusMsg w.stk consoles (bs "opened")).bind fun t =>
    (CSess.run w.stk
      { cs := { esc := c.esc, cmd := if c.cmd = .monitor then .monitor else .connect, bcast := c.bcast && consoles.length ≠ 1, force := c.force, join := c.join, quiet := c.quiet, reset := reset },
        consoles := consoles, host := host, port := c.port, out := [.note t], log := log, sent := sent } w.events).map fun s =>
    match s.phase with
    | .ended => { exit := some 0, out := s.out, log := s.log.map (· ++ logMark (bs "finished") w.now2), sent := s.sent }
    | .died => { exit := some 1, out := s.out, log := s.log, sent := s.sent }
    | _ => { exit := none, out := s.out, log := s.log, sent := s.sent }

/-- `send_req` and `recv_rsp`, src/client-sock.c:151-244; the answer to the greeting can have added consoles. -/
def clientReq (c : ClientConf) (w : CWorld) (log : Option (List UInt8)) (sent host : List UInt8) (r1 : CliRsp) : Option COutcome :=
  (request maxSockLine { c.req with consoles := c.consoles ++ r1.consoles }).bind fun q =>
  match q, w.send2, w.shutErr with
  | none, _, _ => some (displayError c w log sent true 1 (some (bs "Overran request buffer")))
  | some _, some t, _ => some (displayError c w log sent true 1 (some (bs "Unable to send greeting to " ++ peerText host c.port ++ bs ": " ++ t)))
  | some q, none, sh =>
    match (if c.cmd = .query then sh else none) with
    | some t => some (displayError c w log (sent ++ q) true 1 (some (bs "Unable to close write-half of connection to " ++ peerText host c.port ++ bs ": " ++ t)))
    | none =>
      (clientRsp host c.port w.rsp2).bind fun r2 =>
      if r2.2 = false then some (displayError c w log (sent ++ q) true r2.1.errnum r2.1.errmsg)
      else clientEnd c w log (sent ++ q) host r2.1.consoles (r1.reset || r2.1.reset)

/-- `send_greeting`, src/client-sock.c:99-148. -/
def clientGreet (c : ClientConf) (w : CWorld) (log : Option (List UInt8)) (host : List UInt8) : Option COutcome :=
  (greeting maxSockLine w.user w.tty).bind fun g =>
  match g, w.send1 with
  | none, _ => some (displayError c w log [] true 1 (some (bs "Overran request buffer for sending greeting")))
  | some _, some t => some (displayError c w log [] true 1 (some (bs "Unable to send greeting to " ++ peerText host c.port ++ bs ": " ++ t)))
  | some g, none =>
    (clientRsp host c.port w.rsp1).bind fun r1 =>
    if r1.2 = false then some (displayError c w log g (r1.1.errnum ≠ 4) r1.1.errnum r1.1.errmsg)
    else clientReq c w log g host r1.1

/-- The name of the host in messages, src/client-sock.c:75-84. -/
def clientHost (c : ClientConf) (w : CWorld) : List UInt8 := match w.cname with | some n => n.takeWhile (· ≠ 0x2E) | none => c.host

/-- `connect_to_server`, src/client-sock.c:51-96. -/
def clientConnect (c : ClientConf) (w : CWorld) (log : Option (List UInt8)) : Option COutcome :=
  if w.resolved = false then some (displayError c w log [] false 1 (some (bs "Unable to resolve host <" ++ c.host ++ bs ">")))
  else match w.connErr with
    | some t => some (displayError c w log [] false 1 (some (bs "Unable to connect to " ++ peerText (w.cname.getD c.host) c.port ++ bs ": " ++ t)))
    | none => clientGreet c w log (clientHost c w)

/-- `main` after the command line, src/client.c:48-68, with `open_client_log`, src/client-conf.c:349-370. -/
def clientMain (c : ClientConf) (w : CWorld) : Option COutcome :=
  match c.log with
  | none => clientConnect c w none
  | some _ =>
    match w.logFile with
    | none => some { exit := some 1 }
    | some old => clientConnect c w (some (old ++ logMark (bs "started") w.now1))

end Conman
