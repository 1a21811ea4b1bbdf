import Verif.Model.Procs

/-
Words for C97.
-/
namespace Conman

/-- The number given to a new process. -/
def PEvent.newPid : PEvent → Option Nat
  | .reset _ pid | .open _ pid | .fork _ pid | .spawn pid => some pid
  | _ => none

/-- No console has noted the number, for its reset command or its program. -/
def Spec.Unnoted (s : Procs) (pid : Nat) : Prop := ∀ con r, s.reset con ≠ some (pid, r) ∧ s.prog con ≠ some (pid, r)

/-- The kernel never gives out a number while a console has it noted. -/
def Spec.NoReuse (s : Procs) : List PEvent → Prop
  | [] => True
  | e :: es => (∀ pid, e.newPid = some pid → Spec.Unnoted s pid) ∧ NoReuse (s.step e) es

/-- What the process was killed for is what it belongs to. -/
def Spec.KilledOwn : Killer × Proc → Prop
  | (.timer con run, p) => p.own = .reset con run
  | (.close con run, p) => p.own = .program con run

/-- No process changes its group. -/
def Spec.NoGroup (es : List PEvent) : Prop := ∀ q, .group q ∉ es

end Conman
