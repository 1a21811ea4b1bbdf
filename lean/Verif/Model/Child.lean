import Verif.Model.Basic

/-
Descriptors, signal dispositions and file mode mask of the daemon and of the programs it starts: `connect_process_obj`, src/server-process.c:298-383, and `perform_reset`,
src/server-esc.c:423-515.

* Numbers of descriptors are given by the kernel: any that is not in use.
* Descriptors that are opened and closed again within one function of the main thread are left out, since only the main thread forks; so are those of the C library
  (resolver, syslog) and of libipmiconsole.
* Failures of `fcntl`, `dup2` and `close`, which end the daemon, are not modelled.
-/
namespace Conman

/-- Where the daemon opens a descriptor that it keeps. -/
inductive FdSite
  | pollPipe | conf | listen | daemonLog | logfile | inotify | telnet | unixsock | serial | test | ipmi
deriving DecidableEq, Repr

/-- Whether FD_CLOEXEC is set before the main thread does anything else: src/tpoll.c:172, src/server-conf.c:421, src/server.c:650, 900, src/server-logfile.c:292, src/inevent.c:369,
src/server-telnet.c:220, src/server-unixsock.c:274, src/server-serial.c:424, src/server-test.c:262, src/server-ipmi.c:1012. -/
def FdSite.cloexec : FdSite → Bool
  | .pollPipe => true
  | .conf => true
  | .listen => true
  | .daemonLog => true
  | .logfile => true
  | .inotify => true
  | .telnet => true
  | .unixsock => true
  | .serial => true
  | .test => true
  | .ipmi => true

/-- What a descriptor stands for: `given`, open when the daemon was started; `client c`, the connection number `c` of a client; `pair i`, one end of the socket pair for the program of
console `i`. -/
inductive FdFile
  | given (n : Nat)
  | null
  | own (s : FdSite) (k : Nat)
  | startPipe
  | client (c : Nat)
  | pair (i : Nat) (daemon : Bool)
deriving DecidableEq, Repr

/-- A descriptor; `cx` is FD_CLOEXEC. -/
structure Fd where
  file : FdFile
  cx : Bool
deriving DecidableEq, Repr

abbrev FdTab := Nat → Option Fd

def FdTab.set (t : FdTab) (n : Nat) (f : Fd) : FdTab := fun m => if m = n then some f else t m

/-- `close`. -/
def FdTab.clr (t : FdTab) (n : Nat) : FdTab := fun m => if m = n then none else t m

/-- `open` and the like, with the number chosen by the kernel; `none` if it is in use. -/
def FdTab.alloc (t : FdTab) (n : Nat) (f : Fd) : Option FdTab := if t n = none then some (t.set n f) else none

/-- `dup2(a, b)`: the copy has no FD_CLOEXEC; nothing changes if `a = b`. -/
def FdTab.dup2 (t : FdTab) (a b : Nat) : FdTab := match t a with
  | none => t
  | some f => if a = b then t else t.set b ⟨f.file, false⟩

/-- `dup2` to stdin, stdout and stderr. -/
def FdTab.dupStd (t : FdTab) (a : Nat) : FdTab := ((t.dup2 a 0).dup2 a 1).dup2 a 2

/-- `execv`. -/
def FdTab.exec (t : FdTab) : FdTab := fun n => (t n).filter fun f => !f.cx

/-! ### Start -/

/-- Numbers of descriptors given at the start: the pipe of the poll table, the pipe of `begin_daemonize`, configuration, listening socket, log of the daemon, `/dev/null`. -/
structure StartFds where
  poll0 : Nat
  poll1 : Nat
  start0 : Nat
  start1 : Nat
  conf : Nat
  listen : Nat
  dlog : Option Nat
  null : Nat

/-- `end_daemonize`, src/server.c:294-319. -/
def endDaemonize (t : FdTab) (start1 null : Nat) : Option FdTab :=
  (t.alloc null ⟨.null, false⟩).map fun t => ((t.dupStd null).clr null).clr start1

/-- `main`, src/server.c:104-148, of the process that becomes the daemon: `create_server_conf` with `tpoll_create` (src/tpoll.c:162-175), `begin_daemonize` (src/server.c:206, 246),
`process_config` (src/server-conf.c:396, 421), `create_listen_socket` (src/server.c:645-650), `open_daemon_logfile` (src/server.c:881-900), `end_daemonize`; `fg` is option -F. -/
def startFds (t0 : FdTab) (fg : Bool) (k : StartFds) : Option FdTab :=
  (t0.alloc k.poll0 ⟨.own .pollPipe 0, FdSite.pollPipe.cloexec⟩).bind fun t =>
  (t.alloc k.poll1 ⟨.own .pollPipe 1, FdSite.pollPipe.cloexec⟩).bind fun t =>
  (if fg then some t else (t.alloc k.start0 ⟨.startPipe, false⟩).bind fun t => (t.alloc k.start1 ⟨.startPipe, false⟩).map fun t => t.clr k.start0).bind fun t =>
  (t.alloc k.conf ⟨.own .conf 0, FdSite.conf.cloexec⟩).bind fun t =>
  (t.alloc k.listen ⟨.own .listen 0, FdSite.listen.cloexec⟩).bind fun t =>
  if fg then some t
  else
    (match k.dlog with
      | some n => t.alloc n ⟨.own .daemonLog 0, FdSite.daemonLog.cloexec⟩
      | none => some t).bind fun t => endDaemonize t k.start1 k.null

/-! ### The running daemon -/

/-- A program that was started. -/
inductive Job
  | prog (con : Nat)
  | reset (con : Nat)
deriving DecidableEq, Repr

structure FdSys where
  tab : FdTab
  /-- the programs started, with their descriptors when they begin to run -/
  kids : List (Job × FdTab) := []

/-- What happens to descriptors. -/
inductive FdEv
  /-- the main thread opens something -/
  | open (s : FdSite) (k n : Nat)
  /-- `accept_client`, src/server.c:975 -/
  | accept (c n : Nat)
  /-- `create_client_obj`, src/server-obj.c:118, by the thread that serves the request -/
  | admit (n : Nat)
  /-- the daemon closes one of its descriptors, in any thread -/
  | close (n : Nat)
  /-- `connect_process_obj` of console `i`; `socketpair` gives `a` and `b` -/
  | prog (i a b : Nat)
  /-- `perform_reset`, one console of it; `/dev/null` has the number `n`, or could not be opened.  (It is opened once for all of them.) -/
  | reset (i : Nat) (n : Option Nat)
deriving DecidableEq, Repr

/-- Descriptors that the daemon closes are its own. -/
def FdFile.mine : FdFile → Bool
  | .own _ _ => true
  | .client _ => true
  | .pair _ _ => true
  | _ => false

/-- The descriptors of a program for a console, src/server-process.c:334-348. -/
def progTab (t : FdTab) (a b : Nat) : FdTab := ((t.clr a).dupStd b).exec

/-- Those of a reset command, src/server-esc.c:470-486. -/
def resetTab (t : FdTab) : Option Nat → FdTab
  | none => (((t.clr 0).clr 1).clr 2).exec
  | some n => (if n > 2 then (t.dupStd n).clr n else t.dupStd n).exec

/-- One event; `none`: a number that is in use. -/
def FdSys.step (s : FdSys) : FdEv → Option FdSys
  | .open site k n => (s.tab.alloc n ⟨.own site k, site.cloexec⟩).map fun t => { s with tab := t }
  | .accept c n => (s.tab.alloc n ⟨.client c, false⟩).map fun t => { s with tab := t }
  | .admit n => match s.tab n with
    | some ⟨.client c, _⟩ => some { s with tab := s.tab.set n ⟨.client c, true⟩ }
    | _ => none
  | .close n => match s.tab n with
    | some f => if f.file.mine then some { s with tab := s.tab.clr n } else none
    | none => none
  | .prog i a b => (s.tab.alloc a ⟨.pair i true, true⟩).bind fun t => (t.alloc b ⟨.pair i false, true⟩).map fun t =>
      { tab := t.clr b, kids := s.kids ++ [(.prog i, progTab t a b)] }
  | .reset i none => some { s with kids := s.kids ++ [(.reset i, resetTab s.tab none)] }
  | .reset i (some n) => (s.tab.alloc n ⟨.null, false⟩).map fun t => { s with kids := s.kids ++ [(.reset i, resetTab t (some n))] }

def FdSys.run : FdSys → List FdEv → Option FdSys
  | s, [] => some s
  | s, e :: es => (s.step e).bind fun s => s.run es

/-! ### Signals and file mode mask -/

/-- What a process does upon a signal. -/
inductive Disp
  | dfl | ign | handler
deriving DecidableEq, Repr

/-- `posix_signal`, src/util.c:49-74. -/
def posixSignal (t : Nat → Disp) (s : Nat) (d : Disp) : Nat → Disp := fun n => if n = s then d else t n

/-- `setup_signals`, src/server.c:353-369, with the numbers of Linux: CHLD 17, HUP 1, INT 2, PIPE 13, TERM 15, ABRT 6, BUS 7, FPE 8, ILL 4, QUIT 3, SEGV 11. -/
def setupSignals (t : Nat → Disp) : Nat → Disp :=
  [(17, Disp.handler), (1, .handler), (2, .handler), (13, .ign), (15, .handler), (6, .handler), (7, .handler), (8, .handler), (4, .handler), (3, .handler), (11, .handler)].foldl
    (fun t p => posixSignal t p.1 p.2) t

/-- Dispositions of the daemon: `begin_daemonize` ignores SIGHUP for a while (src/server.c:258). -/
def daemonSignals (t : Nat → Disp) (fg : Bool) : Nat → Disp := setupSignals (if fg then t else posixSignal t 1 .ign)

/-- `execv`: handlers are lost, signals that are ignored stay so. -/
def execSignals (t : Nat → Disp) : Nat → Disp := fun n => match t n with
  | .handler => .dfl
  | d => d

/-- Calls that change the mask: `begin_daemonize` (src/server.c:199); `write_pidfile` (src/server-conf.c:1543-1554) and `open_daemon_logfile` (src/server.c:871-882), which set it back. -/
inductive MaskCall
  | daemonize | pidfile | daemonLog

/-- The mask after a call. -/
def maskAfter (m : Nat) : MaskCall → Nat
  | .daemonize => 0
  | .pidfile => m
  | .daemonLog => m

end Conman
