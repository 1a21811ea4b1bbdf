import Verif.Model.Esc
import Verif.Model.Telnet
import Verif.Model.Log
import Verif.Model.Backoff

/-
Model of the daemon's objects and of the links between them: src/server-obj.c,
src/server-esc.c, the request handling of src/server-sock.c and one iteration
of `mux_io` (src/server.c) per step.

* An object is a number (its address).  `World.obj` gives its fields.
* The circular buffer of an object is its list of waiting bytes `pend`; that the
  buffer behaves like this list is C01 (`Lemma/World.lean` restates it for
  `enq`).  What `perform_log_replay` reads also depends on bytes that are not
  waiting any more; it is given by `hist`, what was written to the buffer (C102).
* `pin`/`pout`: POLLIN/POLLOUT are set for the object's descriptor (C32).
* The text of a message is `Env.txt`; messages are bounded by C49.
* Every step is atomic.  The threads of `process_client` run concurrently with
  the main loop: the check of a request and carrying it out are separate steps
  (`Step.check` and `Step.grant`), and any steps can come between them.
* The daemon's own log (`log_msg`) is left out.
-/
namespace Conman

/-- `enum obj_type`, src/server.h:87-97. -/
inductive OKind where
  | client | logfile | process | serial | telnet | ipmi | unixsock | test
deriving Repr, DecidableEq

/-- `is_console_obj`, src/server.h:289-299. -/
def OKind.isConsole : OKind → Bool
  | client | logfile => false
  | _ => true

/-- `base_obj` with its `aux` union, src/server.h:99-270, as far as used here;
`fd` is `fd >= 0`, `quiet`, `force`, `join`, `bcast`, `cmd` are fields of
`aux.client.req` (src/common.h:143-159); `log` is the
field `logfile` of a console.  `gen` (ghost) counts shutdowns; `hist` has the
bytes written to the buffer since the object was created, and `none` for each time
it was emptied by `shutdown_obj`. -/
structure Obj where
  kind : OKind := .client
  fd : Bool := false
  pend : List UInt8 := []
  eof : Bool := false
  pin : Bool := false
  pout : Bool := false
  readers : List Nat := []
  writers : List Nat := []
  gotEscape : Bool := false
  suspend : Bool := false
  quiet : Bool := false
  force : Bool := false
  join : Bool := false
  bcast : Bool := false
  cmd : Cmd := .connect
  opts : LogOpts := ⟨false, false⟩
  line : LineState := .init
  stamps : Nat := 0
  conn : ConnState := .down
  iac : Option UInt8 := none
  resetCmd : Bool := false
  resetPid : Option Nat := none
  resetTimer : Bool := false
  gen : Nat := 0
  log : Option Nat := none
  hist : List (Option UInt8) := []
deriving Repr, DecidableEq

/-- The informational messages; each argument is an object. -/
inductive Note where
  | stolenBy (src dst : Nat) | joinedBy (src dst : Nat)
  | stolenFrom (writer dst : Nat) | joinedWith (writer dst : Nat)
  | departed (src dst : Nat)
  | isDown (con : Nat) | connected (con : Nat) | disconnected (con : Nat)
  | connFailed (con : Nat)
  | resetBusy (con : Nat) | resetLong (con : Nat) | resetFork (con : Nat)
  | resetBy (client con : Nat)
  | quietOn | quietOff
  | logOpened (log : Nat) | logStamp (log : Nat)
deriving Repr, DecidableEq

/-- What the daemon cannot choose: message texts, log time stamps, `fork`
(`none` fails), whether the reset command fits its buffer; and the text of a replay
of the log of a console, given what was written to the buffer of the log
(`Model/Replay.lean`). -/
structure Env where
  txt : Note → Nat → List UInt8
  clk : Nat → Nat → List UInt8
  fork : Nat → Option Nat
  fmtOk : Nat → Nat → Bool
  replay : Nat → Option (List (Option UInt8)) → List UInt8

/-- Effects outside the objects, in order (ghost). -/
inductive Fx where
  | sent (id : Nat) (data : List UInt8)
  | brk (con : Nat)
  | resetStart (con pid : Nat)
  | kill (con pid : Nat)
deriving Repr, DecidableEq

/-- A request after `query_consoles` (src/server-sock.c:418-457): `consoles` are the matching
console objects, without duplicates (`list_find_first` at 489; one pass over
`conf->objs` in 546-554). -/
structure Req where
  cmd : Cmd
  consoles : List Nat
  force : Bool := false
  join : Bool := false
  bcast : Bool := false
  quiet : Bool := false
deriving Repr, DecidableEq

structure World where
  obj : Nat → Obj
  /-- `conf->objs` -/
  live : List Nat
  /-- index for the clock and the other oracles in `Env` -/
  tick : Nat := 0
  /-- reset commands running: console and process (ghost) -/
  running : List (Nat × Nat) := []
  fx : List Fx := []
  /-- requests that were accepted and are about to be carried out, one per
  `process_client` thread -/
  wait : List Req := []

/-- Change one object. -/
def World.mod (w : World) (i : Nat) (f : Obj → Obj) : World :=
  { w with obj := fun j => if j = i then f (w.obj j) else w.obj j }

/-! ### Buffers -/

/-- The waiting bytes after a write: src/server-obj.c:990-992, 1013-1052, see
`Ring.write`. -/
def enq (q d : List UInt8) : List UInt8 :=
  Spec.lastN Spec.queueCap (q ++ if d.length ≥ objBufSize then d.take (objBufSize - 1) else d)

/-- What of a write gets into the buffer, src/server-obj.c:990-992. -/
def enters (d : List UInt8) : List UInt8 := if d.length ≥ objBufSize then d.take (objBufSize - 1) else d

/-- `write_obj_data`, src/server-obj.c:961-1075.  `tpoll_set` on a closed
descriptor does nothing. -/
def Obj.write (o : Obj) (d : List UInt8) (isInfo : Bool) : Obj :=
  if d = [] then o
  else if o.eof then o
  else if isInfo ∧ o.kind = .client ∧ o.quiet then o
  else
    { o with
      pend := enq o.pend d
      hist := o.hist ++ (enters d).map some
      pout := o.pout || (o.fd && !(o.kind = .client && o.suspend))
      line := if isInfo ∧ o.kind = .logfile then .init else o.line }

/-- `write_log_data`, src/server-logfile.c:356-468, see `Model/Log.lean`.  By C40
the scratch buffer never overflows, so the default is not used. -/
def Obj.writeLog (o : Obj) (clk : Nat → List UInt8) (d : List UInt8) : Obj :=
  let r := (writeLogData o.opts clk o.line o.stamps d).getD { st := o.line, k := o.stamps }
  r.out.foldl (fun o b => o.write b false) { o with line := r.st, stamps := r.k }

/-- Informational message to one object. -/
def World.note (w : World) (env : Env) (n : Note) (i : Nat) : World :=
  w.mod i (·.write (env.txt n w.tick) true)

/-- `notify_console_objs`, src/server-obj.c:575-602. -/
def World.notify (w : World) (env : Env) (con : Nat) (n : Note) : World :=
  let rs := (w.obj con).readers
  let ws := (w.obj con).writers.filter (fun i => !rs.contains i)
  ws.foldl (fun w i => w.note env n i) (rs.foldl (fun w i => w.note env n i) w)

/-! ### Links -/

/-- Both links of `unlink_objs`, src/server-obj.c:693-700. -/
def World.cut (w : World) (src dst : Nat) : World :=
  (w.mod src (fun o => { o with readers := o.readers.filter (· ≠ dst) })).mod dst
    (fun o => { o with writers := o.writers.filter (· ≠ src) })

/-- A client that is completely unlinked, src/server-obj.c:724-733. -/
def Obj.orphan (o : Obj) : Bool := o.kind = .client && o.readers.isEmpty && o.writers.isEmpty

/-- `unlink_objs`, src/server-obj.c:683-740. -/
def World.unlinkObjs (w : World) (env : Env) (src dst : Nat) : World :=
  let n := (w.obj dst).writers.count src
  let w1 := w.cut src dst
  let w2 := if n > 0 ∧ (w1.obj src).kind = .client ∧ (w1.obj dst).kind.isConsole then
      w1.notify env dst (.departed src dst) else w1
  if (w2.obj src).orphan then w2.mod src (fun o => { o with eof := true })
  else if (w2.obj dst).orphan then w2.mod dst (fun o => { o with eof := true })
  else w2

/-- The loop over the writers in `unlink_obj`, src/server-obj.c:749-751; `fuel`
is the number of writers (each round removes at least one, see
`unlinkWriters_done`). -/
def World.unlinkWriters (w : World) (env : Env) (i : Nat) : Nat → World
  | 0 => w
  | fuel + 1 =>
    match (w.obj i).writers with
    | [] => w
    | x :: _ => (w.unlinkObjs env x i).unlinkWriters env i fuel

/-- The loop over the readers, src/server-obj.c:752-754. -/
def World.unlinkReaders (w : World) (env : Env) (i : Nat) : Nat → World
  | 0 => w
  | fuel + 1 =>
    match (w.obj i).readers with
    | [] => w
    | x :: _ => (w.unlinkObjs env i x).unlinkReaders env i fuel

/-- `unlink_obj`, src/server-obj.c:743-756. -/
def World.unlinkObj (w : World) (env : Env) (i : Nat) : World :=
  let w1 := w.unlinkWriters env i (w.obj i).writers.length
  w1.unlinkReaders env i (w1.obj i).readers.length

/-- `link_objs`, src/server-obj.c:605-680.  The three loops over `dst->writers`
visit the writers present when the loop starts: `unlink_obj(writer)` removes
nothing else from that list (C28 for the iterator).  The asserts (667, 669) are
not executed. -/
def World.linkObjs (w : World) (env : Env) (src dst : Nat) : World :=
  let w1 :=
    if (w.obj src).kind = .client ∧ (w.obj dst).kind.isConsole then
      let ws := (w.obj dst).writers
      let stolen := (w.obj src).force && !ws.isEmpty
      let wa := w.notify env dst (if stolen then .stolenBy src dst else .joinedBy src dst)
      let wb := ws.foldl (fun w x =>
        w.note env (if stolen then .stolenFrom x dst else .joinedWith x dst) src) wa
      if stolen then ws.foldl (fun w x => w.unlinkObj env x) wb else wb
    else w
  (w1.mod src (fun o => { o with readers := o.readers ++ [dst] })).mod dst
    (fun o => { o with writers := o.writers ++ [src] })

/-! ### Escape commands of a client, src/server-esc.c -/

/-- `perform_serial_break` for one console, src/server-esc.c:146-193.
`tcsendbreak` and the IPMI break are external effects. -/
def World.break1 (w : World) (con : Nat) : World :=
  match (w.obj con).kind with
  | .process => w.mod con (·.write [0x26, 0x42] false)
  | .serial | .ipmi => { w with fx := w.fx ++ [.brk con] }
  | .telnet => if (w.obj con).conn = .up then w.mod con (·.write (sendTelnetCmd 243 none) false) else w
  | _ => w

/-- `perform_console_writer_linkage`, src/server-esc.c:224-259.  `none`: the
client has no writer, `console` is a NULL pointer that `link_objs` /
`unlink_objs` dereference. -/
def World.toggle (w : World) (env : Env) (c : Nat) : Option World :=
  if (w.obj c).bcast then some w
  else
    match (w.obj c).writers with
    | [] => none
    | con :: _ =>
      if (w.obj c).readers ≠ [] then
        some ((w.mod c (fun o => { o with cmd := .monitor })).unlinkObjs env c con)
      else
        some ((w.mod c (fun o => { o with cmd := .connect })).linkObjs env c con)

/-- Body of the loop of `perform_reset`, src/server-esc.c:446-506. -/
def World.reset1 (w : World) (env : Env) (c con : Nat) : World :=
  let o := w.obj con
  let w1 :=
    if o.resetCmd = false then w
    else if o.resetPid.isSome then w.notify env con (.resetBusy con)
    else if env.fmtOk con w.tick = false then w.notify env con (.resetLong con)
    else
      match env.fork w.tick with
      | none => w.notify env con (.resetFork con)      -- pid -1, treated like "none"
      | some pid =>
        (({ w with running := w.running ++ [(con, pid)], fx := w.fx ++ [.resetStart con pid] } : World).mod con
          (fun o => { o with resetPid := some pid, resetTimer := true })).notify env con (.resetBy c con)
  { w1 with tick := w1.tick + 1 }

/-- The buffer that `perform_log_replay` reads: `get_console_logfile_obj`, src/server-logfile.c:314-351. -/
def World.logHist (w : World) (con : Nat) : Option (List (Option UInt8)) :=
  (w.obj con).log.bind (fun l => if (w.obj l).fd then some (w.obj l).hist else none)

/-- The `switch` of `process_client_escapes`, src/server-esc.c:79-120, with the
functions called; the code `ESC_CHAR` is data and handled by `unescLoop`. -/
def World.act (w : World) (env : Env) (c : Nat) (code : UInt8) : Option World :=
  if code = 0x42 then some ((w.obj c).readers.foldl World.break1 w)
  else if code = 0x44 then
    some ((w.obj c).readers.foldl (fun w i => w.mod i (·.write [0x7F] false)) w)
  else if code = 0x46 then
    (w.mod c (fun o => { o with force := true, join := false })).toggle env c
  else if code = 0x4A then
    (w.mod c (fun o => { o with force := false, join := true })).toggle env c
  else if code = 0x4C then          -- perform_log_replay, 262-391 (C04)
    match (w.obj c).writers with
    | [] => some w
    | con :: _ => some (w.mod c (·.write (env.replay con (w.logHist con)) false))
  else if code = 0x4D then
    (w.mod c (fun o => { o with force := false, join := false })).toggle env c
  else if code = 0x51 then          -- perform_quiet_toggle, 392-421
    let q := !(w.obj c).quiet
    some (w.mod c (fun o => ({ o with quiet := q }).write
      (env.txt (if q then .quietOn else .quietOff) w.tick) false))
  else if code = 0x52 then
    some ((w.obj c).readers.foldl (fun w con => w.reset1 env c con) w)
  else if code = 0x5A then          -- perform_suspend, 553-577
    some (w.mod c (fun o => { o with suspend := !o.suspend, pout := o.suspend && o.fd }))
  else some w

/-- The escape codes of one read, in order; they take effect while the buffer
is scanned, before its data is forwarded (src/server-obj.c:935). -/
def World.acts (w : World) (env : Env) (c : Nat) : List UInt8 → Option World
  | [] => some w
  | a :: as => (w.act env c a).bind (fun w => w.acts env c as)

/-! ### Input and output, src/server-obj.c -/

/-- Deliver data to one reader, src/server-obj.c:945-952. -/
def World.give (w : World) (env : Env) (d : List UInt8) (i : Nat) : World :=
  w.mod i (fun o => if o.kind = .logfile then o.writeLog (env.clk i) d else o.write d false)

/-- src/server-obj.c:942-955 -/
def World.deliver (w : World) (env : Env) (src : Nat) (d : List UInt8) : World :=
  if d = [] then w else (w.obj src).readers.foldl (fun w i => w.give env d i) w

/-- `shutdown_obj`, src/server-obj.c:798-869.  A client is unlinked and removed
from `conf->objs` by the caller (`list_delete` in `mux_io`).  A log file stays
closed.  For a console `reopen_obj` follows: the connection types announce the
disconnect and reconnect by timer (see `Step.connUp` and C61); serial and test
objects are reopened at once, with result `up` (a serial console announces
this, src/server-serial.c:444). -/
def World.shutdown (w : World) (env : Env) (up : Bool) (i : Nat) : World :=
  if (w.obj i).fd = false then w
  else
    let w1 := w.mod i (fun o =>
      { o with fd := false, pin := false, pout := false, pend := [], eof := false, gen := o.gen + 1, hist := o.hist ++ [none] })
    match (w1.obj i).kind with
    | .client => { (w1.unlinkObj env i) with live := w1.live.filter (fun j => j ≠ i) }
    | .logfile => w1
    | .serial =>
      let w2 := w1.mod i (fun o => { o with fd := up, pin := up })
      if up then w2.notify env i (.connected i) else w2
    | .test => w1.mod i (fun o => { o with fd := up, pin := up })
    | _ => (w1.mod i (fun o => { o with conn := .down })).notify env i (.disconnected i)

/-- Result of `read`. -/
inductive ReadRes where
  | data (d : List UInt8) | eof | again | err
deriving Repr, DecidableEq

/-- `sizeof(buf)` in `read_from_obj`, src/server-obj.c:886. -/
def readBufSize : Nat := objBufSize / 2 - 1

/-- `read_from_obj`, src/server-obj.c:872-958.  `none`: NULL dereference or the
fatal `default` of `process_telnet_escapes`.  The telnet replies are written one
by one by the code; one write of all of them (fewer than 16384 bytes) leaves the
same waiting bytes.  A log file is open for writing only, so `read` fails. -/
def World.read (w : World) (env : Env) (up : Bool) (i : Nat) (r : ReadRes) : Option World :=
  if (w.obj i).fd = false then some w
  else if (w.obj i).kind = .telnet ∧ (w.obj i).conn ≠ .up then some w
  else
    match (if (w.obj i).kind = .logfile then .err else r : ReadRes) with
    | .again => some w
    | .err => some (w.shutdown env up i)
    | .eof =>
      let w1 := w.mod i (fun o => { o with eof := true, pin := false })
      some (if (w1.obj i).pend = [] then w1.shutdown env up i else w1)
    | .data d0 =>
      let d := d0.take readBufSize
      match (w.obj i).kind with
      | .client =>
        let u := processClientEscapes (w.obj i).gotEscape d
        (w.acts env i u.acts).map (fun w =>
          (w.mod i (fun o => { o with gotEscape := u.gotEscape })).deliver env i u.data)
      | .telnet =>
        (processTelnetEscapes (w.obj i).iac d).map (fun t =>
          (w.mod i (fun o => ({ o with iac := t.iac }).write t.sent false)).deliver env i
            (t.buf.take t.len))
      | _ => some (w.deliver env i d)

/-- Result of `writev`: bytes accepted (0 also for EAGAIN), or an error. -/
inductive WriteRes where
  | accept (n : Nat) | err
deriving Repr, DecidableEq

/-- Bytes accepted out of `len`. -/
def WriteRes.count (len : Nat) : WriteRes → Nat
  | accept n => min n len
  | err => 0

/-- `n` waiting bytes of `i` leave by its descriptor, src/server-obj.c:1133-1157. -/
def World.push (w : World) (i n : Nat) : World :=
  ({ w with fx := if n = 0 then w.fx else w.fx ++ [.sent i ((w.obj i).pend.take n)] } : World).mod i
    (fun o => { o with pend := o.pend.drop n })

/-- Nothing waits any more, src/server-obj.c:1160-1171. -/
def World.drained (w : World) (i : Nat) : World :=
  if (w.obj i).pend = [] then w.mod i (fun o => { o with pout := false }) else w

/-- `write_to_obj`, src/server-obj.c:1078-1182.  The completion of a pending
telnet connect (1097-1101) is `Step.connUp` / `Step.connDown`. -/
def World.flush (w : World) (env : Env) (up : Bool) (i : Nat) (r : WriteRes) : World :=
  let o := w.obj i
  if o.fd = false then w
  else if o.kind = .telnet ∧ o.conn = .pending then w
  else
    let w1 := (w.push i (r.count o.pend.length)).drained i
    if (r = .err ∧ o.pend ≠ []) ∨ ((w1.obj i).pend = [] ∧ o.eof) then w1.shutdown env up i else w1

/-! ### Requests, src/server-sock.c -/

/-- `enum err_type`, src/common.h:163-172 (the ones used here). -/
inductive ReqErr where
  | noConsoles | tooMany | busy
deriving Repr, DecidableEq

/-- The adjustment at src/server-sock.c:450-455. -/
def Req.norm (q : Req) : Req :=
  if q.consoles.length = 1 then { q with bcast := false } else q

/-- `validate_req` with `check_too_many_consoles` and `check_busy_consoles`,
src/server-sock.c:562-705, for CONNECT and MONITOR requests. -/
def World.validate (w : World) (q : Req) : Option ReqErr :=
  if q.consoles = [] then some .noConsoles
  else if ¬ (q.consoles.length = 1 ∨ (q.cmd = .connect ∧ q.bcast)) then some .tooMany
  else if q.cmd = .connect ∧ ¬ (q.force ∨ q.join) ∧
      q.consoles.any (fun c => !(w.obj c).writers.isEmpty) then some .busy
  else none

/-- Whether `check_console_state` (src/server-sock.c:907-981) finds the console
connected. -/
def Obj.isUp (o : Obj) : Bool :=
  match o.kind with
  | .process | .serial | .unixsock => o.fd
  | .telnet | .ipmi => o.conn = .up
  | _ => true

/-- The notice of `check_console_state`; the reconnect it starts is in
`Model/Backoff.lean`. -/
def World.checkState (w : World) (env : Env) (client con : Nat) : World :=
  if (w.obj con).isUp then w else w.note env (.isDown con) client

/-- `create_client_obj`, src/server-obj.c:102-138, for a new object `c`. -/
def World.newClient (w : World) (c : Nat) (q : Req) : World :=
  ({ w with live := w.live ++ [c] } : World).mod c (fun o =>
    { kind := .client, fd := true, pin := true, quiet := q.quiet, force := q.force, join := q.join,
      bcast := q.bcast, cmd := q.cmd, gen := o.gen })

/-- `perform_connect_cmd` and `perform_monitor_cmd`, src/server-sock.c:825-904,
after the response was sent. -/
def World.grant (w : World) (env : Env) (c : Nat) (q : Req) : World :=
  let w1 := w.newClient c q
  match q.cmd, q.consoles with
  | .monitor, con :: _ => (w1.linkObjs env con c).checkState env c con
  | .connect, [con] => ((w1.linkObjs env c con).linkObjs env con c).checkState env c con
  | .connect, cons => cons.foldl (fun w con => (w.linkObjs env c con).checkState env c con) w1
  | .monitor, [] => w1

/-! ### Steps -/

/-- What can happen. -/
inductive Step where
  /-- a `process_client` thread validates a request and sends the response
  (src/server-sock.c:121-131) -/
  | check (q : Req)
  /-- a thread carries out the `k`-th accepted request (133-145); `c` is the address
  of the new client object -/
  | grant (c k : Nat)
  /-- an object's descriptor is readable / writable (`mux_io`, src/server.c:805-821);
  `rd`/`wr`: `none` if not signalled. The poll result is taken before reading,
  so a write can follow a read that cleared POLLOUT. -/
  | poll (i : Nat) (up : Bool) (rd : Option ReadRes) (wr : Option WriteRes)
  /-- a console connection comes up / is being set up / attempt fails -/
  | connUp (i : Nat) | connPend (i : Nat) | connDown (i : Nat)
  /-- the program of a process console cannot be started (`check_process_prog`,
  `fork`; src/server-process.c:318-331,402-417) -/
  | connFail (i : Nat)
  /-- the timer of a reset command expires (`kill_reset_cmd`) -/
  | resetTimeout (con : Nat)
  /-- a reset command ends by itself -/
  | childExit (con pid : Nat)
  /-- `open_logfile_obj` (reconfiguration), src/server-logfile.c:222-311: result `ok` -/
  | logOpen (i : Nat) (ok : Bool)
  /-- periodic time stamp in a log (`timestamp_logfiles`, src/server.c:602-640) -/
  | logStamp (i : Nat)

/-- The consoles of a request come from `conf->objs`, without repetition. -/
def World.reqOk (w : World) (q : Req) : Prop :=
  q.consoles.Nodup ∧ ∀ x ∈ q.consoles, x ∈ w.live ∧ (w.obj x).kind.isConsole = true

instance (w : World) (q : Req) : Decidable (w.reqOk q) := by
  unfold World.reqOk; infer_instance

/-- A console connection is established: `connect_*_obj` / `open_serial_obj`;
a telnet console starts its negotiation (`telHello`). -/
def World.connUp (w : World) (env : Env) (i : Nat) : World :=
  let o := w.obj i
  if o.kind.isConsole = false then w
  else if o.fd ∧ ¬ o.conn = .pending then w
  else
    let w1 := w.mod i (fun o => { o with fd := true, pin := true, conn := .up, eof := false })
    let w2 := if o.kind = .test then w1 else w1.notify env i (.connected i)
    if o.kind = .telnet then w2.mod i (·.write telHello false) else w2

/-- `none` is a crash of the daemon. -/
def World.step (w : World) (env : Env) : Step → Option World
  | .check q =>
    let q := q.norm
    some (if w.reqOk q ∧ w.validate q = none then { w with wait := w.wait ++ [q] } else w)
  | .grant c k =>
    some (match w.wait[k]? with
      | some q => if c ∈ w.live then w else ({ w with wait := w.wait.eraseIdx k } : World).grant env c q
      | none => w)
  | .poll i up rd wr =>
    -- 807-808: a descriptor is polled if POLLIN or POLLOUT is set (src/tpoll.c:300-316);
    -- POLLHUP and POLLERR (which lead to a read) are then always reported
    if i ∉ w.live ∨ ((w.obj i).pin = false ∧ (w.obj i).pout = false) then some w
    else
      let wr := if (w.obj i).pout then wr else none
      let w1 := match rd with
        | none => some w
        | some r => w.read env up i r
      w1.map (fun w1 =>
        if i ∉ w1.live then w1
        else match wr with
          | none => w1
          | some r => w1.flush env up i r)
  | .connUp i => some (if i ∈ w.live then w.connUp env i else w)
  | .connPend i =>
    some (if i ∈ w.live ∧ (w.obj i).kind = .telnet ∧ (w.obj i).fd = false then
      w.mod i (fun o => { o with fd := true, pin := true, pout := true, conn := .pending }) else w)
  | .connDown i =>
    some (if (w.obj i).kind = .telnet ∧ (w.obj i).conn = .pending then
      w.mod i (fun o => { o with fd := false, pin := false, pout := false, conn := .down }) else w)
  | .connFail i =>
    some (if i ∈ w.live ∧ (w.obj i).kind = .process ∧ (w.obj i).fd = false then
      w.notify env i (.connFailed i) else w)
  | .resetTimeout con =>
    -- src/server-esc.c:520-550
    some (if (w.obj con).resetTimer then
      let pid := (w.obj con).resetPid
      let w1 := w.mod con (fun o => { o with resetPid := none, resetTimer := false })
      match pid with
      | none => w1
      | some p => if (con, p) ∈ w1.running then
          { w1 with running := w1.running.filter (· ≠ (con, p)), fx := w1.fx ++ [.kill con p] } else w1
    else w)
  | .childExit con pid => some { w with running := w.running.filter (· ≠ (con, pid)) }
  | .logOpen i ok =>
    some (if (w.obj i).kind = .logfile then
      w.mod i (fun o =>
        if ok then
          { ({ o with fd := true, pout := false, eof := false }).write (env.txt (.logOpened i) w.tick) false with
            line := .init }
        else { o with fd := false, pin := false, pout := false })   -- POLLIN is never set for a log
    else w)
  | .logStamp i => some (if (w.obj i).kind = .logfile then w.note env (.logStamp i) i else w)

/-- A history. -/
def World.run (w : World) (env : Env) : List Step → Option World
  | [] => some w
  | s :: ss => (w.step env s).bind (fun w => ({ w with tick := w.tick + 1 } : World).run env ss)

/-- A console of the configuration file: type, whether there is a reset command,
options of its log if it has one. -/
structure ConConf where
  kind : OKind
  reset : Bool := false
  log : Option LogOpts := none
deriving Repr, DecidableEq

/-- The objects after the configuration was read, before any is opened:
`process_console`, src/server-conf.c:766-956, creates the console, its log file and the link
between them.  Console `k` has address `2k`, its log `2k+1`. -/
def World.boot (cfg : List ConConf) : World where
  obj j :=
    match cfg[j / 2]? with
    | none => {}
    | some c =>
      if j % 2 = 0 then
        { kind := c.kind, resetCmd := c.reset, readers := if c.log.isSome then [j + 1] else [], log := if c.log.isSome then some (j + 1) else none }
      else
        match c.log with
        | none => {}
        | some o => { kind := .logfile, opts := o, writers := [j - 1] }
  live := (List.range (2 * cfg.length)).filter (fun j =>
    j % 2 = 0 || (cfg[j / 2]?.bind (·.log)).isSome)

/-- The states the daemon can get into. -/
def Reachable (env : Env) (w : World) : Prop :=
  ∃ cfg steps, (∀ c ∈ cfg, c.kind.isConsole = true) ∧ (World.boot cfg).run env steps = some w

end Conman
