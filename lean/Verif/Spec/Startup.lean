import Verif.Spec.LogMsg

/-
Starting the daemon in the background.  (C78)
-/
namespace Conman.Spec

/-- The parts of a start, in order. -/
inductive SStage where
  | closeRead | setsid | fork | config | coredump | signals | env | consoles | stamps | listen | logs | greet
  | chdir | openNull | dupIn | dupOut | dupErr | closeNull | closePipe | ipmi | nofile | objs
deriving Repr, DecidableEq

def SStage.all : List SStage :=
  [.closeRead, .setsid, .fork, .config, .coredump, .signals, .env, .consoles, .stamps, .listen, .logs, .greet,
    .chdir, .openNull, .dupIn, .dupOut, .dupErr, .closeNull, .closePipe, .ipmi, .nofile, .objs]

/-- The parts that are done before the command returns to the shell. -/
def SStage.early : List SStage :=
  [.closeRead, .setsid, .fork, .config, .coredump, .signals, .env, .consoles, .stamps, .listen, .logs, .greet,
    .chdir, .openNull, .dupIn, .dupOut, .dupErr, .closeNull]

/-- How a part ends: it succeeds, it gives up with a message, or the process is killed in it (or ends without a message). -/
inductive StageRes where
  | ok
  | fail (c : LogCall)
  | killed
deriving Repr, DecidableEq

/-- What the user of the command sees: its exit status and the terminal; and whether the daemon runs. -/
structure StartSeen where
  status : Nat
  term : List UInt8
  runs : Bool
deriving Repr, DecidableEq

/-- `x` is the first part that does not succeed. -/
def firstBad (out : SStage → StageRes) (x : SStage) : Prop :=
  ∃ a b, SStage.all = a ++ x :: b ∧ (∀ y ∈ a, out y = .ok) ∧ out x ≠ .ok

/-- A message that fits into one line. -/
def LogCall.short (c : LogCall) : Prop := c.ok ∧ c.nl = false ∧ c.prio = 3 ∧ c.full.length ≤ 1022 ∧ (0x0A : UInt8) ∉ c.text ∧ (∀ e ∈ c.err, (0x0A : UInt8) ∉ e) ∧ c.text ≠ []

/-- A message on the terminal. -/
def LogCall.shown (c : LogCall) : List UInt8 := bs "ERROR:     " ++ c.text ++ c.errText ++ [0x0A]

end Conman.Spec
