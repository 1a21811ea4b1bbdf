import Verif.Spec.ResetTime

/-
`perform_reset` and `kill_reset_cmd` of src/server-esc.c for one console, with time and failing calls.
-/
namespace Conman
open Spec

/-- The fields of a console, src/server.h:263-265: `resetCmdRef` is set; `resetCmdPid` (0 as `none`; after a failed `fork` it is -1, which all tests treat alike); and the time of the
timer in the list of src/tpoll.c (there is never more than one, see `RI`) whose callback is `kill_reset_cmd` for this console (`resetCmdTimer` itself is never read but for the test at 503). -/
structure ResetCon where
  cmd : Bool
  pid : Option Nat := none
  due : Option Nat := none
deriving Repr, DecidableEq

/-- The body of the loop of `perform_reset`, src/server-esc.c:446-507, in the parent; the timer is made as by src/tpoll.c:458-460, 491-502, 60 seconds later (src/server.h:72). -/
def ResetCon.ask (c : ResetCon) (now : Nat) (t : ResetTry) : ResetCon × ResetAns :=
  if c.cmd = false then (c, .nothing)                                  -- 447
  else match c.pid with
    | some p => (c, .busy p)                                           -- 450
    | none =>
      if t.fits = false then (c, .tooLong)                             -- 456
      else match t.fork with
        | none => (c, .forkFailed)                                     -- 464
        | some p =>                                                    -- 492-507
          ({ c with pid := some p, due := if t.timer then some (now + 60 * 1000) else c.due }, .started p)

/-- Timers that are due are taken from the list and their callbacks called, src/tpoll.c:594-611; `kill_reset_cmd`, src/server-esc.c:521-550.  `ended`: it goes on beyond 533; whom it
kills is in Model/Procs.lean. -/
def ResetCon.look (c : ResetCon) (now : Nat) : ResetCon × ResetAns :=
  match c.due with
  | none => (c, .nothing)
  | some d =>
    if d ≤ now then
      ({ c with pid := none, due := none }, match c.pid with | some p => .ended p | none => .nothing)
    else (c, .nothing)

/-- One event. -/
def ResetCon.step (c : ResetCon) : ResetEvent → ResetCon × ResetAns
  | .ask now t => c.ask now t
  | .look now => c.look now

/-- A history: the console after it, and what was observed. -/
def ResetCon.run (c : ResetCon) : List ResetEvent → ResetCon × List (ResetEvent × ResetAns)
  | [] => (c, [])
  | e :: es => let r := c.step e; let q := r.1.run es; (q.1, (e, r.2) :: q.2)

end Conman
