import Verif.Model.Backoff

/-
Opening and closing of consoles and logs, step by step, by the main thread, the threads of clients (`check_console_state`) and the engine of libipmiconsole.  What one call does as a whole is in
Model/Backoff.lean; here it is which descriptors, programs and timers are left when calls overlap.

* A step reads or writes the fields of the object together with at most one call of the kernel.  In the code the steps are smaller; so every run here is one of the code, and what is proved of
  calls that do not overlap does not depend on the size of the steps.
* Only one call at a time runs in the main thread; this is not required here.
* `fcntl`, `setsockopt`, `tpoll_set` and the notices are left out.  `socket` is taken to succeed for a telnet console (otherwise the daemon ends).
* That an armed timer fires once and not after it is cancelled is C33.
-/
namespace Conman

/-- Kinds of objects that are opened, src/server.h:87-99. -/
inductive XKind
  | process | telnet | unixsock | serial | test | logfile | ipmi
deriving DecidableEq, Repr

/-- Fields of an object: `obj->fd`, and `state`, `pid`, `timer` of `obj->aux`. -/
structure XObj where
  kind : XKind
  state : ConnState := .down
  fd : Option Nat := none
  pid : Option Nat := none
  timer : Option Nat := none
deriving DecidableEq, Repr

/-- What a timer is for; `data` is that of a test console. -/
inductive XTimer
  | connect | stable | data
deriving DecidableEq, Repr

/-- Steps. -/
inductive XI
  | check | shutdown | open | cancel | look | close | clear | arm (w : XTimer)
  | pBranch | pair | fork | publish | kill
  | tConn | tBranch | socket | connect | soError | up | down
  | uConn | uSocket | uConnect
  | sOpen | sCheck
  | tOpen | tRead
  | lOpen | lLock
  | iDisc | iConn
  | stable
deriving DecidableEq, Repr

/-- Variables of a call: `fd_pair` or `fd`, and `pid`. -/
structure XLoc where
  a : Option Nat := none
  b : Option Nat := none
  pid : Option Nat := none
deriving DecidableEq, Repr

/-- Answers of the system: success, the result of `connect`, numbers. -/
structure XAns where
  ok : Bool := true
  conn : ConnRes := .ok
  n : Nat := 0
  m : Nat := 0
deriving DecidableEq, Repr

/-- What a step does: the object, variables and what is to be done next; descriptors opened and closed, programs started and killed, timers armed and cancelled; `dead`: the daemon ends. -/
structure XEff where
  o : XObj
  loc : XLoc
  todo : List XI := []
  opens : List Nat := []
  closes : List Nat := []
  spawn : Option Nat := none
  kills : Option Nat := none
  arms : Option XTimer := none
  cancels : Option Nat := none
  dead : Bool := false

/-- One step; `t` is the number of the next timer. -/
def xExec (o : XObj) (v : XLoc) (x : XAns) (t : Nat) : XI → XEff
  /- `check_console_state`, src/server-sock.c:919-977 -/
  | .check => { o, loc := v, todo := match o.kind with
      | .process | .serial | .unixsock => if o.fd = none then [.open] else []
      | .telnet | .ipmi => if o.state = .down then [.open] else []
      | _ => [] }
  /- `shutdown_obj`, src/server-obj.c:811-865 -/
  | .shutdown => { o, loc := v, todo := if o.fd = none then [] else if o.kind = .logfile then [.close, .clear] else [.close, .clear, .open] }
  /- `open_process_obj` src/server-process.c:229, `open_telnet_obj` src/server-telnet.c:164, `open_unixsock_obj` src/server-unixsock.c:171, `open_serial_obj` src/server-serial.c:387,
     `open_test_obj` src/server-test.c:243, `open_logfile_obj` src/server-logfile.c:241, `open_ipmi_obj` src/server-ipmi.c:798 -/
  | .open => { o, loc := v, todo := match o.kind with
      | .process => [.cancel, .pBranch]
      | .telnet => if o.state = .up then [.cancel, .look, .down, .arm .connect] else [.tConn]
      | .unixsock => if o.state = .up then [.cancel, .look, .down, .arm .connect] else [.uConn]
      | .serial => [.look, .sOpen]
      | .test => [.cancel, .look, .tOpen]
      | .logfile => [.look, .lOpen]
      | .ipmi => match o.state with
        | .up => [.iDisc, .iConn]
        | .down => [.iConn]
        | .pending => [] }
  /- `if (timer >= 0) { tpoll_timeout_cancel; timer = -1; }` -/
  | .cancel => { o := { o with timer := none }, loc := v, cancels := o.timer }
  /- `if (fd >= 0) { close(fd); fd = -1; }` -/
  | .look => { o, loc := v, todo := if o.fd = none then [] else [.close, .clear] }
  | .close => { o, loc := v, closes := o.fd.toList }
  | .clear => { o := { o with fd := none }, loc := v }
  | .arm w => { o := { o with timer := some t }, loc := v, arms := some w }
  /- src/server-process.c:235-251 -/
  | .pBranch => { o, loc := v, todo := match o.state with
      | .up => [.look, .kill, .arm .connect]
      | .down => [.pair]
      | .pending => [] }
  /- src/server-process.c:314-326 -/
  | .pair => if x.ok then { o, loc := { v with a := some x.n, b := some x.m }, todo := [.fork], opens := [x.n, x.m] } else { o, loc := v, todo := [.arm .connect] }
  /- src/server-process.c:328-352, 378-384 -/
  | .fork => if x.ok then { o, loc := { v with pid := some x.n, b := none }, todo := [.publish], closes := v.b.toList, spawn := some x.n }
      else { o, loc := {}, todo := [.arm .connect], closes := v.a.toList ++ v.b.toList }
  /- src/server-process.c:356-366 -/
  | .publish => { o := { o with fd := v.a, pid := v.pid, state := .up }, loc := {}, todo := [.arm .stable] }
  /- src/server-process.c:290-294 -/
  | .kill => { o := { o with pid := none, state := .down }, loc := v, kills := o.pid }
  /- `connect_telnet_obj`, src/server-telnet.c:177-290 -/
  | .tConn => { o, loc := v, todo := [.cancel, .tBranch] }
  | .tBranch => match o.state with
      | .down => { o, loc := v, todo := if x.ok then [.socket] else [.arm .connect] }
      | .pending => { o, loc := v, todo := [.soError] }
      | .up => { o, loc := v, dead := true }
  | .socket => { o := { o with fd := some x.n }, loc := v, todo := [.connect], opens := [x.n] }
  | .connect => if o.fd = none then { o, loc := v, todo := [.cancel, .look, .down, .arm .connect] } else match x.conn with
      | .ok => { o, loc := v, todo := [.up, .arm .stable] }
      | .inProgress => { o := { o with state := .pending }, loc := v }
      | .fail => { o, loc := v, todo := [.cancel, .look, .down, .arm .connect] }
  | .soError => { o, loc := v, todo := if o.fd = none ∨ x.ok = false then [.cancel, .look, .down, .arm .connect] else [.up, .arm .stable] }
  | .up => { o := { o with state := .up }, loc := v }
  | .down => { o := { o with state := .down }, loc := v }
  /- `connect_unixsock_obj`, src/server-unixsock.c:215-317 -/
  | .uConn => { o, loc := v, todo := [.cancel, .uSocket] }
  | .uSocket => if x.ok then { o := { o with fd := some x.n }, loc := v, todo := [.uConnect], opens := [x.n] } else { o, loc := v, todo := [.cancel, .look, .down, .arm .connect] }
  | .uConnect => { o, loc := v, todo := if o.fd = none ∨ x.ok = false then [.cancel, .look, .down, .arm .connect] else [.up, .arm .stable] }
  /- src/server-serial.c:400-456 -/
  | .sOpen => if x.ok then { o, loc := { v with a := some x.n }, todo := [.sCheck], opens := [x.n] } else { o, loc := v }
  | .sCheck => if x.ok then { o := { o with fd := v.a }, loc := {} } else { o, loc := {}, closes := v.a.toList }
  /- src/server-test.c:255-267; a timer of `read_test_obj`, :301-372 -/
  | .tOpen => if x.ok then { o := { o with fd := some x.n }, loc := v, todo := [.arm .data], opens := [x.n] } else { o := { o with fd := none }, loc := v }
  | .tRead => { o := { o with timer := none }, loc := v, todo := [.arm .data], cancels := o.timer }
  /- src/server-logfile.c:278-290 -/
  | .lOpen => if x.ok then { o := { o with fd := some x.n }, loc := v, todo := [.lLock], opens := [x.n] } else { o := { o with fd := none }, loc := v }
  | .lLock => { o, loc := v, todo := if x.ok then [] else [.close, .clear] }
  /- `disconnect_ipmi_obj`, src/server-ipmi.c:815-850, under the lock of the object -/
  | .iDisc => { o := { o with timer := none, fd := none, state := .down }, loc := v, closes := o.fd.toList, cancels := o.timer }
  /- `connect_ipmi_obj`, src/server-ipmi.c:853-1076, under the lock of the object -/
  | .iConn => match o.state with
      | .up => { o, loc := v }
      | .down => { o := { o with timer := some t, state := if x.ok then .pending else .down }, loc := v, arms := some .connect, cancels := o.timer }
      | .pending => if x.ok then { o := { o with timer := some t, state := .up, fd := some x.n }, loc := v, opens := [x.n], arms := some .stable, cancels := o.timer }
          else { o := { o with timer := some t, state := .down }, loc := v, arms := some .connect, cancels := o.timer }
  /- `reset_telnet_delay` and the like -/
  | .stable => { o := { o with timer := none }, loc := v }

/-- To whom a descriptor belongs: `given`, open when the objects are opened first. -/
inductive XOwner
  | given | obj (i : Nat) | client (c : Nat)
deriving DecidableEq, Repr

/-- A call that is being executed. -/
structure XThread where
  obj : Nat
  loc : XLoc := {}
  todo : List XI
deriving DecidableEq, Repr

/-- `progs`: programs that run, each with the console it was started for; `armed`: timers; `clients`: connections and their descriptors; `closed` is a ghost: who closed a descriptor, and whose
it was. -/
structure XSys where
  obj : Nat → XObj
  tab : Nat → Option XOwner
  progs : List (Nat × Nat) := []
  armed : List (Nat × Nat × XTimer) := []
  threads : List XThread := []
  clients : List (Nat × Nat) := []
  closed : List (XOwner × XOwner) := []
  nextTimer : Nat := 0
  dead : Bool := false

/-- The entry points. -/
inductive XCall
  /-- `reopen_obj` of `open_objs`, src/server.c:742; a log upon SIGHUP, :945; the completion of a pending connection, src/server-obj.c:1098; a file-system event, src/server-unixsock.c:195 -/
  | open
  /-- `shutdown_obj` -/
  | shutdown
  /-- `check_console_state`, in the thread of a client -/
  | check
  /-- `connect_ipmi_obj`, called by the engine -/
  | engine
deriving DecidableEq, Repr

inductive XEv
  | call (i : Nat) (c : XCall)
  | fire (t : Nat)
  | step (k : Nat) (x : XAns)
  | accept (c n : Nat)
  /-- a request is refused or answered, or a client is shut down -/
  | drop (c : Nat)
  /-- a program ends -/
  | exit (p : Nat)
deriving DecidableEq, Repr

def XCall.steps : XCall → XKind → List XI
  | .open, _ => [.open]
  | .shutdown, _ => [.shutdown]
  | .check, _ => [.check]
  | .engine, .ipmi => [.iConn]
  | .engine, _ => []

/-- The functions that timers call. -/
def XTimer.steps : XTimer → XKind → List XI
  | .connect, .telnet => [.tConn]
  | .connect, .unixsock => [.uConn]
  | .connect, .ipmi => [.iConn]
  | .connect, _ => [.open]
  | .stable, _ => [.stable]
  | .data, _ => [.tRead]

/-- `close(n)`, by the function of object `i`. -/
def XSys.closeFd (s : XSys) (by_ : XOwner) (n : Nat) : XSys := match s.tab n with
  | none => s
  | some w => { s with tab := fun m => if m = n then none else s.tab m, closed := s.closed ++ [(by_, w)] }

/-- What a step of a call on object `i` does to the system. -/
def XSys.apply (s : XSys) (i : Nat) (e : XEff) : XSys :=
  let s1 := e.closes.foldl (fun s n => s.closeFd (.obj i) n) s
  { s1 with
    obj := fun j => if j = i then e.o else s1.obj j
    tab := fun n => if n ∈ e.opens then some (.obj i) else s1.tab n
    progs := (match e.kills with | some p => s1.progs.filter (fun q => q.1 ≠ p) | none => s1.progs) ++ (match e.spawn with | some p => [(p, i)] | none => [])
    armed := (match e.cancels with | some t => s1.armed.filter (fun a => a.1 ≠ t) | none => s1.armed) ++ (match e.arms with | some w => [(s.nextTimer, i, w)] | none => [])
    nextTimer := if e.arms.isSome then s.nextTimer + 1 else s.nextTimer
    dead := e.dead }

/-- The kernel gives numbers that are not in use. -/
def XSys.fresh (s : XSys) (e : XEff) : Bool :=
  e.opens.all (fun n => s.tab n = none) && decide e.opens.Nodup && (match e.spawn with | some p => s.progs.all (fun q => q.1 ≠ p) | none => true)

/-- Start of a call. -/
def XSys.begin (s : XSys) (i : Nat) (l : List XI) : XSys := { s with threads := s.threads ++ [{ obj := i, todo := l }] }

/-- One event; `none`: it cannot happen. -/
def XSys.step (s : XSys) (ev : XEv) : Option XSys :=
  if s.dead then none else match ev with
  | .call i c => some (s.begin i (c.steps (s.obj i).kind))
  | .fire t => match s.armed.find? (fun a => a.1 == t) with
    | none => none
    | some (_, i, w) => some ({ s with armed := s.armed.filter (fun a => a.1 ≠ t) }.begin i (w.steps (s.obj i).kind))
  | .step k x => match s.threads[k]? with
    | none => none
    | some th => match th.todo with
      | [] => some { s with threads := s.threads.eraseIdx k }
      | a :: l =>
        let e := xExec (s.obj th.obj) th.loc x s.nextTimer a
        if s.fresh e then some { s.apply th.obj e with threads := s.threads.set k { th with loc := e.loc, todo := e.todo ++ l } } else none
  | .accept c n => if s.tab n = none ∧ (∀ p ∈ s.clients, p.1 ≠ c) then some { s with tab := fun m => if m = n then some (.client c) else s.tab m, clients := (c, n) :: s.clients } else none
  | .drop c => match s.clients.find? (fun p => p.1 == c) with
    | none => none
    | some (_, n) => some { s.closeFd (.client c) n with clients := s.clients.filter (fun p => p.1 ≠ c) }
  | .exit p => some { s with progs := s.progs.filter (fun q => q.1 ≠ p) }

def XSys.run : XSys → List XEv → Option XSys
  | s, [] => some s
  | s, e :: es => (s.step e).bind fun s => s.run es

/-- The daemon before `open_objs`. -/
def XSys.start (kind : Nat → XKind) (given : Nat → Bool) : XSys := { obj := fun i => { kind := kind i }, tab := fun n => if given n then some .given else none }

end Conman
