/-
The processes the daemon starts and ends: reset commands and the programs of process consoles.

The kernel's part: a process has a number and a process group; a number is given to a new process only when no process has it and no group is called so.
`own` tells what a process belongs to (it is not known to kernel or daemon).  Simplified: a process that ended is gone at once (the handler of SIGCHLD collects it,
src/server.c:373-379); a process that changes its group becomes the leader of a group of its own (`setpgid(0, 0)`, `setsid`); the daemon may signal everybody (it is run by root).
-/
namespace Conman

/-- What a process belongs to: the daemon, the `run`-th command the daemon started, for the reset of console `con` or as the program of console `con`, or something else. -/
inductive Owner where
  | daemon | reset (con run : Nat) | program (con run : Nat) | other
deriving Repr, DecidableEq

/-- A process. -/
structure Proc where
  pid : Nat
  pgid : Nat
  own : Owner
deriving Repr, DecidableEq

/-- Who sent SIGKILL: the timer of the reset command or the closing of the console. -/
inductive Killer where
  | timer (con run : Nat) | close (con run : Nat)
deriving Repr, DecidableEq

/-- Kernel and daemon. -/
structure Procs where
  /-- all processes -/
  ps : List Proc
  /-- the group of the daemon, as kept by `main`: `pgid`, src/server.c:94, 109, 252-275; in the foreground (`-F`) it is -1 -/
  pgid : Option Nat
  /-- `resetCmdPid` of a console; the number of the run is not in the code -/
  reset : Nat → Option (Nat × Nat) := fun _ => none
  /-- `aux.process.pid` of a console -/
  prog : Nat → Option (Nat × Nat) := fun _ => none
  /-- commands started so far -/
  runs : Nat := 0
  /-- processes that were sent SIGKILL, and why -/
  killed : List (Killer × Proc) := []
  /-- processes that were sent SIGTERM when the daemon ended -/
  termed : List Proc := []

/-- What can happen. -/
inductive PEvent where
  /-- a client resets console `con`; `fork` gives `pid` -/
  | reset (con pid : Nat)
  /-- console `con` is opened; `fork` gives `pid` -/
  | open (con pid : Nat)
  /-- process `q`, not the daemon, forks -/
  | fork (q pid : Nat)
  /-- process `q`, not the daemon, becomes the leader of its own group -/
  | group (q : Nat)
  /-- a process with a group of its own that has nothing to do with the daemon -/
  | spawn (pid : Nat)
  /-- process `q`, not the daemon, ends -/
  | exit (q : Nat)
  /-- the timer of the reset command of `con` -/
  | timer (con : Nat)
  /-- console `con` is closed -/
  | close (con : Nat)
  /-- the daemon ends -/
  | stop
deriving Repr, DecidableEq

/-- Whether the kernel may give the number to a new process. -/
def Procs.free (s : Procs) (pid : Nat) : Bool := pid ≠ 0 && s.ps.all fun p => p.pid ≠ pid && p.pgid ≠ pid

/-- The group of the daemon. -/
def Procs.home (s : Procs) : Nat := ((s.ps.find? fun p => p.own = .daemon).map Proc.pgid).getD 0

/-- `kill_reset_cmd`, src/server-esc.c:520-550. -/
def Procs.killReset (s : Procs) (con : Nat) : Procs :=
  match s.reset con with
  | none => s                                                          -- 533
  | some (pid, run) =>
    let s1 : Procs := { s with reset := fun c => if c = con then none else s.reset c }     -- 529-531
    if s.ps.all fun p => p.pid ≠ pid then s1                           -- 536: kill(pid, 0) < 0
    else                                                               -- 539: kill(-pid, SIGKILL)
      { s1 with
        ps := s.ps.filter fun p => p.pgid ≠ pid
        killed := s.killed ++ (s.ps.filter fun p => p.pgid = pid).map fun p => (.timer con run, p) }

/-- `disconnect_process_obj`, src/server-process.c:256-295: line 290 and 291. -/
def Procs.close (s : Procs) (con : Nat) : Procs :=
  match s.prog con with
  | none => s
  | some (pid, run) =>
    { s with
      prog := fun c => if c = con then none else s.prog c
      ps := s.ps.filter fun p => p.pid ≠ pid
      killed := s.killed ++ (s.ps.filter fun p => p.pid = pid).map fun p => (.close con run, p) }

/-- One event; one that cannot happen changes nothing. -/
def Procs.step (s : Procs) : PEvent → Procs
  | .reset con pid =>
    -- `perform_reset`, src/server-esc.c:446-506: nothing while one is noted (450); the child is a group leader (467, 486)
    if (s.reset con).isSome || !s.free pid then s
    else { s with ps := s.ps ++ [⟨pid, pid, .reset con s.runs⟩], reset := fun c => if c = con then some (pid, s.runs) else s.reset c, runs := s.runs + 1 }
  | .open con pid =>
    -- `connect_process_obj`, src/server-process.c:298-386: the child stays in the group of the daemon
    if (s.prog con).isSome || !s.free pid then s
    else { s with ps := s.ps ++ [⟨pid, s.home, .program con s.runs⟩], prog := fun c => if c = con then some (pid, s.runs) else s.prog c, runs := s.runs + 1 }
  | .fork q pid =>
    match s.ps.find? fun p => p.pid = q with
    | some p => if p.own = .daemon || !s.free pid then s else { s with ps := s.ps ++ [⟨pid, p.pgid, p.own⟩] }
    | none => s
  | .group q => { s with ps := s.ps.map fun p => if p.pid = q ∧ p.own ≠ .daemon then { p with pgid := q } else p }
  | .spawn pid => if s.free pid then { s with ps := s.ps ++ [⟨pid, pid, .other⟩] } else s
  | .exit q => { s with ps := s.ps.filter fun p => p.pid ≠ q || p.own = .daemon }
  | .timer con => s.killReset con
  | .close con => s.close con
  | .stop =>
    -- the end of `main`, src/server.c:165-170
    match s.pgid with
    | some g => { s with termed := s.termed ++ s.ps.filter fun p => p.pgid = g }
    | none => s

/-- A history. -/
def Procs.run (s : Procs) : List PEvent → Procs
  | [] => s
  | e :: es => (s.step e).run es

/-- The daemon was started: as process `d`, in group `g`, among others; in the background (`begin_daemonize`, src/server.c:180-280: the leader of the group has ended) or the
foreground. -/
def Procs.start (d g : Nat) (background : Bool) (others : List Proc) : Procs where
  ps := ⟨d, g, .daemon⟩ :: others
  pgid := if background then some g else none

end Conman
