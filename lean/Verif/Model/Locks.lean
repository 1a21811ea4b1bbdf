import Verif.Spec.Locks
import Verif.Model.Opts

/-
Locks of files: src/util-file.c:85-158, the start-up of the daemon, src/server-conf.c:384-420 and 474-479, its control, src/server-conf.c:506-580, and the
pid file, src/server-conf.c:1485-1574.

* Of the kernel (fcntl(2)): locks are those of a process and a file; a process has at most one lock of a file (whole files are locked); setting a lock replaces
  it; closing any descriptor of a file releases it; the end of a process releases all of them; the children of `fork` do not have them.
  Of several locks in the way any one is reported.  Locks that belong to an open file description are reported with the process id -1.
* A file is a number.  The daemon opens the configuration file once.
* The pid file has a name (for a daemon by PIDFILE or `-P`; a control command only knows `-P`, see `signalDaemon`), and can be written and removed.
-/
namespace Conman

/-- A lock of a file. -/
structure FLock where
  pid : Int
  ino : Nat
  wr : Bool
deriving DecidableEq, Repr

/-- The locks that are in the way of a lock. -/
def lockConflicts (t : List FLock) (pid : Int) (ino : Nat) (wr : Bool) : List FLock := t.filter fun l => l.pid ≠ pid && l.ino = ino && (l.wr || wr)

/-- `get_file_lock` with F_SETLK, src/util-file.c:127-139. -/
def setLock (t : List FLock) (pid : Int) (ino : Nat) (wr : Bool) : Option (List FLock) :=
  if lockConflicts t pid ino wr = [] then some (t.filter (fun l => ¬ (l.pid = pid ∧ l.ino = ino)) ++ [⟨pid, ino, wr⟩]) else none

/-- `test_file_lock`, src/util-file.c:142-158. -/
def testLock (t : List FLock) (pid : Int) (ino : Nat) (wr : Bool) (pick : Nat) : Int :=
  match (lockConflicts t pid ino wr)[pick % (lockConflicts t pid ino wr).length]? with
  | none => 0
  | some l => l.pid

/-- A descriptor of the file is closed by a process. -/
def closeFile (t : List FLock) (pid : Int) (ino : Nat) : List FLock := t.filter fun l => ¬ (l.pid = pid ∧ l.ino = ino)

/-- The end of a process. -/
def dropLocks (t : List FLock) (pid : Int) : List FLock := t.filter fun l => l.pid ≠ pid

/-- Where a daemon is in `process_config`: after `open`, after `get_read_lock`, after `is_write_lock_blocked` (which found
nobody, or found somebody: then the process is about to write a message and exit), after `write_pidfile`. -/
inductive DPhase where
  | opened (ino : Nat)
  | locked (ino : Nat)
  | checked (ino : Nat)
  | refused (ino : Nat)
  | running (ino : Nat)
deriving DecidableEq, Repr

/-- The daemons, the configuration file, the locks and the pid file. -/
structure Daemons where
  file : Option Nat
  phase : Int → Option DPhase := fun _ => none
  locks : List FLock := []
  pidfile : Option (List UInt8) := none

def Daemons.setPhase (s : Daemons) (pid : Int) (p : Option DPhase) : Daemons := { s with phase := fun q => if q = pid then p else s.phase q }

/-- The end of a process. -/
def Daemons.ended (s : Daemons) (pid : Int) : Daemons := { s.setPhase pid none with locks := dropLocks s.locks pid }

/-- What `write_pidfile` writes, src/server-conf.c:1554. -/
def pidText (pid : Int) : List UInt8 := decInt pid ++ [0x0A]

/-- The next step of the start-up, src/server-conf.c:409-416 and 474-479. -/
def Daemons.advance (s : Daemons) (pid : Int) (pick : Nat) : Daemons :=
  match s.phase pid with
  | some (.opened i) =>
    match setLock s.locks pid i false with
    | none => s.ended pid
    | some t => { s.setPhase pid (some (.locked i)) with locks := t }
  | some (.locked i) => if testLock s.locks pid i true pick > 0 then s.setPhase pid (some (.refused i)) else s.setPhase pid (some (.checked i))
  | some (.refused _) => s.ended pid
  | some (.checked i) => { s.setPhase pid (some (.running i)) with pidfile := some (pidText pid) }
  | _ => s

/-- A daemon that is told to terminate: `destroy_server_conf`, src/server-conf.c:283-288, when it is running; before, the process just ends. -/
def Daemons.stopped (s : Daemons) (pid : Int) : Daemons :=
  match s.phase pid with
  | some (.running _) => { s.ended pid with pidfile := none }
  | _ => s.ended pid

def Daemons.step (s : Daemons) : DEv → Daemons
  | .start pid =>
    if pid ≤ 1 ∨ pid > 2147483647 ∨ s.phase pid ≠ none then s
    else match s.file with
      | none => s
      | some i => { s.setPhase pid (some (.opened i)) with locks := dropLocks s.locks pid }
  | .step pid pick => s.advance pid pick
  | .kill pid => s.ended pid
  | .stop pid => s.stopped pid
  | .replace f => { s with file := f }
  | .other pid i wr =>
    if s.phase pid ≠ none then s
    else match setLock s.locks pid i wr with
      | none => s
      | some t => { s with locks := t }

def Daemons.run (s : Daemons) (h : List DEv) : Daemons := h.foldl Daemons.step s

/-- `read_pidfile`, src/server-conf.c:1485-1515: the process id, or 0; `none` if the number does not fit an `int`. -/
def readPidfile : Option (List UInt8) → Option Int
  | none => some 0
  | some text =>
    match scanD text with
    | none => none
    | some none => some 0
    | some (some (pid, _)) => some (if pid > 1 then pid else 0)

/-- The process a control command is for, src/server-conf.c:527-528: 0 if there is none (or no configuration file, src/server-conf.c:396-398). -/
def Daemons.control (s : Daemons) (self : Int) (pick : Nat) : Option Int :=
  match s.file with
  | none => some 0
  | some i => if testLock s.locks self i true pick ≠ 0 then some (testLock s.locks self i true pick) else readPidfile s.pidfile

/-! ### Logs -/

/-- The locks, and the files that are open as logs: those of consoles, and that of the daemon. -/
structure LogLocks where
  locks : List FLock := []
  console : Nat → Option Nat := fun _ => none
  daemon : Option Nat := none

/-- Closing of the file a log was before. -/
def closeOld (t : List FLock) (me : Int) : Option Nat → List FLock
  | none => t
  | some old => closeFile t me old

/-- Opening of the log of a console with the lock option by the process `me`, src/server-logfile.c:244-250 and 278-289. -/
def LogLocks.openConsole (s : LogLocks) (me : Int) (log ino : Nat) : LogLocks :=
  let t := closeOld s.locks me (s.console log)
  match setLock t me ino true with
  | none => { s with locks := closeFile t me ino, console := fun l => if l = log then none else s.console l }
  | some t => { s with locks := t, console := fun l => if l = log then some ino else s.console l }

/-- Opening of the log of the daemon, src/server.c:880-930. -/
def LogLocks.openDaemon (s : LogLocks) (me : Int) (ino : Nat) : LogLocks :=
  match setLock s.locks me ino true with
  | none => { s with locks := closeOld (closeFile s.locks me ino) me s.daemon, daemon := none }
  | some t => { s with locks := closeOld t me s.daemon, daemon := some ino }

def LogLocks.step (me : Int) (s : LogLocks) : LEv → LogLocks
  | .console log ino => s.openConsole me log ino
  | .daemon ino => s.openDaemon me ino
  | .other pid ino =>
    if pid = me then s
    else match setLock s.locks pid ino true with
      | none => s
      | some t => { s with locks := t }
  | .free pid ino => if pid = me then s else { s with locks := closeFile s.locks pid ino }

def LogLocks.run (me : Int) (s : LogLocks) (h : List LEv) : LogLocks := h.foldl (LogLocks.step me) s

end Conman
