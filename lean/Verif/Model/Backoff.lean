import Verif.Model.Telnet

/-
Model of the connection state machines with reconnect backoff of the four
console types that reconnect: telnet, process, IPMI and unix socket.

Time is not modelled here: a timer is what it is armed for and with which delay
in seconds; that a timer fires once, not early and not after being cancelled is
C33.  Sockets, processes and the IPMI library appear as results in `*Env`.
`hist` is a ghost record of timers armed and fired.
-/
namespace Conman

/-- `*_STATE` enumerations, src/server.h (`CONMAN_TELNET_*`, `CONMAN_PROCESS_*`,
`CONMAN_IPMI_*`, `CONMAN_UNIXSOCK_*`). -/
inductive ConnState where
  | down | pending | up
deriving Repr, DecidableEq

/-- What the object's timer is armed for. -/
inductive ConnTimer where
  /-- reconnect attempt in `d` seconds -/
  | connect (d : Nat)
  /-- connection is considered stable after `d` seconds -/
  | stable (d : Nat)
deriving Repr, DecidableEq

/-- Ghost record. -/
inductive ConnEv where
  /-- reconnect timer armed by backoff, delay in seconds -/
  | retry (d : Nat)
  /-- the connection was up for the minimum time -/
  | stable
  /-- the delay is set back to the floor: a connect attempt triggered by a
  file-system event failed (unix socket), or a client connected to a console
  that is not up (telnet) -/
  | hint
deriving Repr, DecidableEq

/-- The fields `state`, `timer` (`none` is -1), `delay`, `fd >= 0` of the aux
structures, src/server.h:145-239; `iac` (telnet) and `isViaInotify` (unix
socket). -/
structure Conn where
  state : ConnState := .down
  timer : Option ConnTimer := none
  delay : Nat
  fd : Bool := false
  iac : Option UInt8 := none
  viaInotify : Bool := false
  hist : List ConnEv := []
deriving Repr, DecidableEq

/-- Arm the reconnect timer with the current delay. -/
def Conn.arm (c : Conn) : Conn :=
  { c with timer := some (.connect c.delay), hist := c.hist ++ [.retry c.delay] }

/-! ### telnet, src/server-telnet.c -/

/-- src/server.h:74-77 -/
def telnetMin : Nat := 15
def telnetMax : Nat := 1800
def resolveRetry : Nat := 1800

/-- Result of `connect` at src/server-telnet.c:229. -/
inductive ConnRes where
  | ok | inProgress | fail
deriving Repr, DecidableEq

/-- Results of host_name_to_addr4, connect, getsockopt(SO_ERROR). -/
structure TelEnv where
  resolved : Bool
  conn : ConnRes
  soError : Bool
deriving Repr, DecidableEq

/-- `create_telnet_obj`, src/server-telnet.c:132-140. -/
def telnetInit : Conn := { delay := telnetMin }

/-- `disconnect_telnet_obj`, src/server-telnet.c:297-340 (notification left
out). -/
def telnetDisconnect (c : Conn) : Conn :=
  let c := { c with timer := none, fd := false, state := .down }
  let c := c.arm
  if c.delay = 0 then { c with delay := telnetMin }
  else if c.delay < telnetMax then { c with delay := min (c.delay * 2) telnetMax }
  else c

/-- `connect_telnet_obj`, src/server-telnet.c:177-294.  The negotiation bytes
sent at 286-290 are `telHello`; note that `iac` is not touched. -/
def telnetConnect (e : TelEnv) (c : Conn) : Conn :=
  let c := { c with timer := none }                                  -- 187-190
  let up := fun (c : Conn) =>                                        -- 269-290
    { c with state := .up, timer := some (.stable telnetMin) }
  match c.state with
  | .down =>
    if e.resolved = false then { c with timer := some (.connect resolveRetry) }   -- 199-207
    else
      let c := { c with fd := true }
      match e.conn with
      | .inProgress => { c with state := .pending }
      | .fail => telnetDisconnect c
      | .ok => up c
  | .pending => if e.soError then telnetDisconnect c else up c
  | .up => c   -- log_err; excluded by the invariant

/-- `open_telnet_obj`, src/server-telnet.c:154-174. -/
def telnetOpen (e : TelEnv) (c : Conn) : Conn :=
  if c.state = .up then telnetDisconnect c else telnetConnect e c

/-- `reset_telnet_delay`, src/server-telnet.c:343-359. -/
def telnetResetDelay (c : Conn) : Conn :=
  { c with delay := 0, timer := none, hist := c.hist ++ [.stable] }

/-- The object's timer fires (nothing when no timer is armed). -/
def telnetTimer (e : TelEnv) (c : Conn) : Conn :=
  match c.timer with
  | none => c
  | some (.connect _) => telnetConnect e c
  | some (.stable _) => telnetResetDelay c

/-! ### process, src/server-process.c -/

/-- src/server.h:67-68 -/
def processMin : Nat := 60
def processMax : Nat := 1800

/-- `create_process_obj`, src/server-process.c:180-195. -/
def processInit : Conn := { delay := processMin }

/-- `open_process_obj` with `disconnect_process_obj` and `connect_process_obj`,
src/server-process.c:215-389; `ok` tells whether program check, socketpair and
fork succeed. -/
def processOpen (ok : Bool) (c : Conn) : Conn :=
  let c := { c with timer := none }                                  -- 230-233
  let (rc, c) :=
    match c.state with
    | .up => (false, { c with fd := false, state := .down })         -- 256-295
    | .down =>                                                       -- 298-389
      if ok then (true, { c with fd := true, state := .up, timer := some (.stable processMin) })
      else (false, c)
    | .pending => (true, c)
  if rc = false then                                                 -- 242-251
    let c := c.arm
    { c with delay := if c.delay = 0 then processMin else min (c.delay * 2) processMax }
  else c

/-- `reset_process_delay`, src/server-process.c:423-443. -/
def processResetDelay (c : Conn) : Conn :=
  { c with timer := none, delay := 0, hist := c.hist ++ [.stable] }

def processTimer (ok : Bool) (c : Conn) : Conn :=
  match c.timer with
  | none => c
  | some (.connect _) => processOpen ok c
  | some (.stable _) => processResetDelay c

/-! ### IPMI, src/server-ipmi.c -/

/-- src/server.h:62-64 -/
def ipmiConnectTimeout : Nat := 300
def ipmiMax : Nat := 1800
def ipmiMin : Nat := 60

/-- Results of create_ipmi_ctx + ipmiconsole_engine_submit, and of
ipmiconsole_ctx_status + ipmiconsole_ctx_fd. -/
structure IpmiEnv where
  submitted : Bool
  established : Bool
deriving Repr, DecidableEq

/-- `create_ipmi_obj`, src/server-ipmi.c:750-765. -/
def ipmiInit : Conn := { delay := ipmiMin }

/-- `disconnect_ipmi_obj`, src/server-ipmi.c:815-850. -/
def ipmiDisconnect (c : Conn) : Conn := { c with timer := none, fd := false, state := .down }

/-- `fail_ipmi_connect`, src/server-ipmi.c:1035-1076. -/
def ipmiFail (c : Conn) : Conn :=
  let c := { c with state := .down }
  let c := c.arm
  if c.delay < ipmiMax then { c with delay := min (c.delay * 2) ipmiMax } else c

/-- `connect_ipmi_obj` with `initiate_ipmi_connect` and
`complete_ipmi_connect`, src/server-ipmi.c:853-1032; one call runs under the
object's mutex, so calls of main and engine thread are atomic steps. -/
def ipmiConnect (e : IpmiEnv) (c : Conn) : Conn :=
  match c.state with
  | .up => c
  | .down =>
    let c := { c with timer := none }
    if e.submitted then { c with state := .pending, timer := some (.connect ipmiConnectTimeout) }
    else ipmiFail c
  | .pending =>
    let c := { c with timer := none }
    if e.established then { c with state := .up, fd := true, timer := some (.stable ipmiMin) }
    else ipmiFail c

/-- `open_ipmi_obj`, src/server-ipmi.c:786-812. -/
def ipmiOpen (e : IpmiEnv) (c : Conn) : Conn :=
  match c.state with
  | .up => ipmiConnect e (ipmiDisconnect c)
  | .down => ipmiConnect e c
  | .pending => c

/-- `reset_ipmi_delay`, src/server-ipmi.c:1079-1095. -/
def ipmiResetDelay (c : Conn) : Conn :=
  { c with delay := ipmiMin, timer := none, hist := c.hist ++ [.stable] }

def ipmiTimer (e : IpmiEnv) (c : Conn) : Conn :=
  match c.timer with
  | none => c
  | some (.connect _) => ipmiConnect e c
  | some (.stable _) => ipmiResetDelay c

/-! ### unix socket, src/server-unixsock.c -/

/-- src/server.h:59, 79-80 -/
def unixsockMax : Nat := 60
def unixsockMin : Nat := 1
def minConnectSecs : Nat := 60

/-- Results of stat/S_ISSOCK/strlcpy/socket, and of connect. -/
structure UnixEnv where
  usable : Bool
  connected : Bool
deriving Repr, DecidableEq

/-- `create_unixsock_obj`, src/server-unixsock.c:140-150. -/
def unixsockInit : Conn := { delay := unixsockMin }

/-- `disconnect_unixsock_obj`, src/server-unixsock.c:320-362. -/
def unixsockDisconnect (c : Conn) : Conn :=
  let c := { c with timer := none, fd := false, state := .down }
  let c := c.arm
  if c.delay < unixsockMax then { c with delay := min (c.delay * 2) unixsockMax } else c

/-- `connect_unixsock_obj`, src/server-unixsock.c:215-317. -/
def unixsockConnect (e : UnixEnv) (c : Conn) : Conn :=
  let via := c.viaInotify
  let c := { c with viaInotify := false, timer := none }
  if e.usable = false then unixsockDisconnect c
  else
    let c := { c with fd := true }
    if e.connected then { c with state := .up, timer := some (.stable minConnectSecs) }
    else
      let c := if via then { c with delay := unixsockMin, hist := c.hist ++ [.hint] } else c
      unixsockDisconnect c

/-- `open_unixsock_obj`, src/server-unixsock.c:162-179. -/
def unixsockOpen (e : UnixEnv) (c : Conn) : Conn :=
  if c.state = .up then unixsockDisconnect c else unixsockConnect e c

/-- `open_unixsock_obj_via_inotify`, src/server-unixsock.c:182-196. -/
def unixsockInotify (e : UnixEnv) (c : Conn) : Conn := unixsockOpen e { c with viaInotify := true }

/-- `reset_unixsock_delay`, src/server-unixsock.c:365-385. -/
def unixsockResetDelay (c : Conn) : Conn :=
  { c with timer := none, delay := unixsockMin, hist := c.hist ++ [.stable] }

def unixsockTimer (e : UnixEnv) (c : Conn) : Conn :=
  match c.timer with
  | none => c
  | some (.connect _) => unixsockConnect e c
  | some (.stable _) => unixsockResetDelay c

/-! ### a client connects: `check_console_state`, src/server-sock.c:907-981
(the notices to the client are in the world model) -/

/-- src/server-sock.c:940-960 -/
def telnetCheck (e : TelEnv) (c : Conn) : Conn :=
  if c.state = .up then c
  else
    let c := { c with delay := telnetMin, hist := c.hist ++ [.hint] }
    if c.state = .down then telnetOpen e c else c

/-- src/server-sock.c:919-927 -/
def processCheck (ok : Bool) (c : Conn) : Conn := if c.fd then c else processOpen ok c

/-- src/server-sock.c:954-963 -/
def unixsockCheck (e : UnixEnv) (c : Conn) : Conn := if c.fd then c else unixsockOpen e c

/-- src/server-sock.c:965-978 -/
def ipmiCheck (e : IpmiEnv) (c : Conn) : Conn :=
  if c.state = .down then ipmiOpen e c else c

/-! ### histories -/

/-- A console type with its environment and the entry points the daemon uses:
`open_*` (startup, shutdown of the object, completion of a pending connect),
the timer, a client connecting to the console, and the file-system or library
callback where there is one. -/
inductive ConnStep where
  | telOpen (e : TelEnv) | telTimer (e : TelEnv)
  | procOpen (ok : Bool) | procTimer (ok : Bool)
  | ipmiOpen (e : IpmiEnv) | ipmiTimer (e : IpmiEnv) | ipmiCallback (e : IpmiEnv)
  | unixOpen (e : UnixEnv) | unixTimer (e : UnixEnv) | unixInotify (e : UnixEnv)
  | telCheck (e : TelEnv) | procCheck (ok : Bool) | ipmiCheck (e : IpmiEnv) | unixCheck (e : UnixEnv)

inductive ConnKind where
  | telnet | process | ipmi | unixsock
deriving Repr, DecidableEq

def ConnStep.kind : ConnStep → ConnKind
  | telOpen _ | telTimer _ | telCheck _ => .telnet
  | procOpen _ | procTimer _ | procCheck _ => .process
  | ipmiOpen _ | ipmiTimer _ | ipmiCallback _ | ipmiCheck _ => .ipmi
  | unixOpen _ | unixTimer _ | unixInotify _ | unixCheck _ => .unixsock

def ConnKind.init : ConnKind → Conn
  | telnet => telnetInit
  | process => processInit
  | ipmi => ipmiInit
  | unixsock => unixsockInit

def ConnStep.run (c : Conn) : ConnStep → Conn
  | telOpen e => telnetOpen e c
  | telTimer e => telnetTimer e c
  | procOpen ok => processOpen ok c
  | procTimer ok => processTimer ok c
  | ipmiOpen e => Conman.ipmiOpen e c
  | ipmiTimer e => Conman.ipmiTimer e c
  | ipmiCallback e => ipmiConnect e c
  | unixOpen e => unixsockOpen e c
  | unixTimer e => unixsockTimer e c
  | unixInotify e => unixsockInotify e c
  | telCheck e => telnetCheck e c
  | procCheck ok => processCheck ok c
  | ipmiCheck e => Conman.ipmiCheck e c
  | unixCheck e => unixsockCheck e c

end Conman
