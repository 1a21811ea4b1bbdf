import Verif.Spec.Mux

/-
The main loop of the daemon, src/server.c:749-826, its signals, src/server.c:353-393, and how clients are accepted, src/server.c:956-1018.
-/
namespace Conman

/-- Points of `mux_io`, src/server.c:769-822. -/
inductive MPc where
  /-- `while (!done)` -/
  | top
  /-- `if (reconfig)` -/
  | reconf
  /-- in `reopen_logfiles`, with this number of logs already reopened -/
  | reopen (k : Nat)
  /-- `reconfig = 0` -/
  | clear
  /-- in `tpoll`, before `poll` -/
  | poll
  /-- in `poll` -/
  | blocked
  /-- `poll` was interrupted: `else if (done || reconfig)` -/
  | intr
  /-- objects are served -/
  | serve
  /-- the loop has ended -/
  | ended
deriving DecidableEq, Repr

/-- The loop.  `stale` are the logs that were not reopened since the last SIGHUP.
Simplification: the values of the flags are not the numbers of the signals. -/
structure MLoop where
  pc : MPc := .top
  done : Bool := false
  reconfig : Bool := false
  ready : Bool := false
  stale : List Nat := []
deriving DecidableEq, Repr

/-- The next step of the loop of a daemon with `n` logs, src/server.c:769-822 and 940-951; `poll` with src/tpoll.c:652-699 (timers are left out: while they
expire, `tpoll` does not return). -/
def MLoop.go (n : Nat) (s : MLoop) : MLoop :=
  match s.pc with
  | .top => { s with pc := if s.done then .ended else .reconf }
  | .reconf => { s with pc := if s.reconfig then .reopen 0 else .poll }
  | .reopen k => if k < n then { s with pc := .reopen (k + 1), stale := s.stale.filter (· ≠ k) } else { s with pc := .clear }
  | .clear => { s with pc := .poll, reconfig := false }
  | .poll => if s.ready then { s with pc := .serve, ready := false } else { s with pc := .blocked }
  | .blocked => s
  | .intr => { s with pc := if s.done || s.reconfig then .serve else .poll }
  | .serve => { s with pc := .top }
  | .ended => s

/-- A handler has run: `poll` ends with EINTR (also with SA_RESTART, signal(7)), src/tpoll.c:660-670. -/
def MLoop.interrupt (s : MLoop) : MLoop := if s.pc = .blocked then { s with pc := .intr } else s

/-- An event.  The handlers are src/server.c:382-393. -/
def MLoop.step (n : Nat) (s : MLoop) : MEv → MLoop
  | .go => s.go n
  | .ready => if s.pc = .blocked then { s with pc := .serve } else { s with ready := true }
  | .hup => MLoop.interrupt { s with reconfig := true, stale := List.range n }
  | .term => MLoop.interrupt { s with done := true }
  | .chld => s.interrupt

def MLoop.run (n : Nat) (s : MLoop) (h : List MEv) : MLoop := h.foldl (MLoop.step n) s

/-! ### One round -/

/-- `tpoll_is_set`, src/tpoll.c:333-371, for an object. -/
def isSet (s : MState) (id : Nat) : Revents :=
  match s.fd id with
  | none => {}
  | some fd => s.table fd

/-- The loop over the objects, src/server.c:804-821; `n` is what `poll` returned, less the listening socket and the file watches.  The result is what was done,
and which objects are left.  `read_from_obj` and `write_to_obj` are any functions here (they are modelled in World.lean).
Objects that other threads add to the end of the list are left out: nothing was reported of them. -/
def serveObjs (hd : MHandlers) : Nat → MState → List Nat → List Served × List Nat
  | _, _, [] => ([], [])
  | 0, _, os => ([], os)
  | n + 1, s, o :: os =>
    let r := isSet s o
    let n' := if r.rd || r.wr then n else n + 1
    let a := if r.rd then hd.read o s else (s, true)
    if a.2 = false then
      let q := serveObjs hd n' a.1 os
      (.read o :: q.1, q.2)
    else
      let b := if r.wr then hd.write o a.1 else (a.1, true)
      let q := serveObjs hd n' b.1 os
      ((if r.rd then [.read o] else []) ++ (if r.wr then [.write o] else []) ++ q.1, if b.2 then o :: q.2 else q.2)

/-! ### New clients -/

/-- What `accept` returns, of what `accept_client` distinguishes. -/
inductive AcceptRes where
  | eintr
  | eagain
  | econnaborted
  /-- no descriptor left (EMFILE), or any other error -/
  | error
  | fd
deriving DecidableEq, Repr

/-- How `accept_client` ends. -/
inductive AcceptOut where
  | nothing
  | thread
  /-- `log_err` ends the daemon -/
  | exit
deriving DecidableEq, Repr

/-- `accept_client`, src/server.c:975-1017, for the results of `accept` (`none`: interrupted forever) and whether a thread can be created. -/
def acceptClient (thread : Bool) : List AcceptRes → Option AcceptOut
  | [] => none
  | .eintr :: r => acceptClient thread r
  | .eagain :: _ => some .nothing
  | .econnaborted :: _ => some .nothing
  | .error :: _ => some .exit
  | .fd :: _ => some (if thread then .thread else .exit)

/-- A daemon with a limit of descriptors, the number of those it uses otherwise, and the clients whose requests are being read (there is no limit for the time this
takes, src/server-sock.c:221-240 and src/util-file.c:224-243). -/
structure Door where
  limit : Nat
  used : Nat
  waiting : Nat := 0
  up : Bool := true
deriving DecidableEq, Repr

/-- Whether a client connects, or one that is being read hangs up. -/
inductive DoorEv where
  | connect
  | hangup
deriving DecidableEq, Repr

/-- A client that connects makes the listening socket ready. -/
def Door.step (d : Door) : DoorEv → Door
  | .connect =>
    if d.up then
      match acceptClient true [if d.used + d.waiting < d.limit then .fd else .error] with
      | some .thread => { d with waiting := d.waiting + 1 }
      | some .exit => { d with up := false }
      | _ => d
    else d
  | .hangup => { d with waiting := d.waiting - 1 }

def Door.run (d : Door) (h : List DoorEv) : Door := h.foldl Door.step d

end Conman
