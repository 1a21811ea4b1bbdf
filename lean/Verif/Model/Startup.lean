import Verif.Model.LogMsg
import Verif.Spec.Startup

/-
Starting the daemon: `main`, `begin_daemonize` and `end_daemonize`, src/server.c:90-321, and `log_err`, src/log.c:127-166.
-/
namespace Conman
open Spec

/-- The starting process (child, then grandchild): its log, whether the log is still the standard error, whether `log_fd_daemonize` is set; and what it has written to
the terminal and to the pipe. -/
structure Starter where
  log : LogState := { file := some (6, false) }
  stderr : Bool := true
  errPipe : Bool := true
  term : List UInt8 := []
  pipe : List UInt8 := []
deriving Repr, DecidableEq

/-- A signed char of value at least 0. -/
def nonNeg (b : UInt8) : Bool := b < 128

/-- `log_err`, src/log.c:127-166, up to `exit`; without debugging.  `buf` is the array of `log_aux`. -/
def logErr (s : Starter) (buf : List UInt8) (c : LogCall) : Option Starter :=
  (logAux s.log buf { c with prio := 3 } false).map fun r =>
    let s := { s with log := r.1, term := s.term ++ (if s.stderr then r.2.file else []) }
    if s.errPipe then
      { s with pipe := s.pipe ++ [3] ++ (if r.2.msg ≠ [] ∧ s.stderr = false then r.2.msg.takeWhile (· ≠ 0x0A) ++ [0] else []) }
    else s

/-- How the parts of a start change the process when they succeed.  `logs`: src/server.c:136-147, where `target` is what is logged to (`none`: nothing; a file that cannot be
opened is the same); messages of `greet` go to the new log.  `closeNull` is followed by `log_set_err_pipe(-1)`, src/server.c:312. -/
def Starter.done (target : Option (Int × Bool)) (syslog : Bool) (s : Starter) : SStage → Starter
  | .logs => { s with log := { logSetFile s.log target with syslog := syslog }, stderr := false }
  | .closeNull => { s with errPipe := false }
  | _ => s

/-- The parts of a start, one after the other: the process at its end, and whether all have succeeded. -/
def Starter.go (target : Option (Int × Bool)) (syslog : Bool) (out : SStage → StageRes) (buf : List UInt8) : Starter → List SStage → Option (Starter × Bool)
  | s, [] => some (s, true)
  | s, x :: r =>
    match out x with
    | .ok => Starter.go target syslog out buf (s.done target syslog x) r
    | .fail c => (logErr s buf c).map (·, false)
    | .killed => some (s, false)

/-- What fails in the process that was started from the shell: `pipe`, `fork`, `close`, and the two `read`s, src/server.c:207-237. -/
structure ParentRes where
  pipe : Option LogCall := none
  fork : Option LogCall := none
  close : Option LogCall := none
  read1 : Option LogCall := none
  read2 : Option LogCall := none
deriving Repr, DecidableEq

/-- `log_err` in the process that was started from the shell: it logs to the terminal. -/
def parentErr (buf : List UInt8) (c : LogCall) : Option (List UInt8) := (logAux { file := some (6, false) } buf { c with prio := 3 } false).map (·.2.file)

/-- The parent from `close(fds[1])` on, src/server.c:218-244, with what the other processes have written to the pipe.  `stamp` is the time of day; `ebuf` the array. -/
def parentEnd (p : ParentRes) (buf ebuf stamp pipe : List UInt8) : Option (Nat × List UInt8) :=
  match p.close with
  | some c => (parentErr buf c).map (1, ·)
  | none =>
  match p.read1 with
  | some c => (parentErr buf c).map (1, ·)
  | none =>
  match pipe with
  | [] => some (0, [])
  | b :: rest =>
    if nonNeg b then
      match p.read2 with
      | some c => (parentErr buf c).map (1, ·)
      | none =>
        let got := rest.take ebuf.length
        (pokes ebuf 0 got).bind fun ebuf =>
        if got.length > 0 ∧ ebuf.head? ≠ some 0 then
          (cstr ebuf).bind fun text =>
          (logAux (logSetFile {} (some (b.toNat, false))) buf { stamp := stamp, prio := b.toNat, text := text } false).map fun r => (1, r.2.file)
        else some (1, [])
    else some (0, [])

/-- Starting the daemon from a shell. -/
def startDaemon (target : Option (Int × Bool)) (syslog : Bool) (p : ParentRes) (out : SStage → StageRes) (buf ebuf stamp : List UInt8) : Option StartSeen :=
  match p.pipe with
  | some c => (parentErr buf c).map fun t => ⟨1, t, false⟩
  | none =>
  match p.fork with
  | some c => (parentErr buf c).map fun t => ⟨1, t, false⟩
  | none =>
  (Starter.go target syslog out buf {} SStage.all).bind fun g =>
  (parentEnd p buf ebuf stamp g.1.pipe).map fun q => ⟨q.1, g.1.term ++ q.2, g.2⟩

/-- Limits of open files: soft and hard. -/
abbrev NLimit := Nat × Nat

/-- `setup_nofile_limit`, src/server.c:687-717: the limits afterwards; `none` is the end of the daemon.  `setrlimit` fails if the hard limit is raised without privilege;
`getrlimit` is taken to succeed. -/
def setupNofile (privileged : Bool) (n : Int) (l : NLimit) : Option NLimit :=
  let l' : NLimit := if 0 < n then (n.toNat, if l.2 < n.toNat then n.toNat else l.2) else if n < 0 then (l.2, l.2) else l
  if n ≠ 0 then if l.2 < l'.2 ∧ privileged = false then none else some l' else some l'

end Conman
