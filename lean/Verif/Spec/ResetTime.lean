/-
Resets of one console in time, with calls that fail.  (C117)
-/
namespace Conman.Spec

/-- What the system does with a reset: whether the command line fits its array, the process started by `fork` if it does not fail, and whether memory for a timer is there. -/
structure ResetTry where
  fits : Bool := true
  fork : Option Nat := some 100
  timer : Bool := true
deriving Repr, DecidableEq

/-- A client asks for a reset, or the daemon looks for timers that are due; both at a time in milliseconds. -/
inductive ResetEvent where
  | ask (now : Nat) (t : ResetTry)
  | look (now : Nat)
deriving Repr, DecidableEq

/-- What is observed: nothing; "pid still active"; "command too long"; "fork failed"; a command is started; the command is ended. -/
inductive ResetAns where
  | nothing | busy (pid : Nat) | tooLong | forkFailed | started (pid : Nat) | ended (pid : Nat)
deriving Repr, DecidableEq

/-- What is observed if process `p` keeps the console from being reset. -/
def refused (p : Nat) : ResetEvent → ResetAns
  | .ask _ _ => .busy p
  | .look _ => .nothing

/-- Some command was started, and since then the daemon did not look a minute later or more, or there was no memory for the timer. -/
def InForce (tr : List (ResetEvent × ResetAns)) : Prop :=
  ∃ a b s t p, tr = a ++ (.ask s t, .started p) :: b ∧ (t.timer = false ∨ ∀ now x, (.look now, x) ∈ b → now < s + 60000)

end Conman.Spec
