import Verif.Spec.Proto
import Verif.Spec.ClientOut

/-
What a server answers, for C86.
-/
namespace Conman

/-- A client that is connected to a console for writing. -/
structure SrvWriter where
  user : List UInt8
  host : List UInt8
  tty : Option (List UInt8) := none
  /-- it is connected to several consoles and only writes -/
  bcast : Bool := false
  /-- how long it has been idle, in words -/
  idle : Option (List UInt8) := none
deriving Repr, DecidableEq

/-- A console, and who is connected to it for writing. -/
structure SrvCon where
  name : List UInt8
  writers : List SrvWriter := []
deriving Repr, DecidableEq

/-- What the server meets.  Of the C library: `glob` is fnmatch(3); `rex` is regcomp(3), which gives regexec(3) or fails with the text
`rexErr`; regexec gives the first and the last offset of the match; `over` is what the comparison of names gives for numbers that do not fit an `int`. -/
structure SrvWorld where
  /-- TCP-Wrappers let the client in -/
  allowed : Bool := true
  /-- the consoles, in the order of the configuration file -/
  cons : List SrvCon
  resetCmd : Bool := false
  glob : List UInt8 → List UInt8 → Bool
  rex : List UInt8 → Option (List UInt8 → Option (Nat × Nat)) := fun _ => none
  rexErr : List UInt8 → List UInt8 := fun _ => []
  over : List UInt8 → List UInt8 → Int := fun _ _ => 0

namespace Spec

/-- Patterns as one regular expression. -/
def alternation : List (List UInt8) → List UInt8
  | [] => []
  | [p] => p
  | p :: ps => p ++ [0x7C] ++ alternation ps

/-- Whether a name is selected by patterns; no patterns are those that select everything. -/
def selected (sw : SrvWorld) (regex : Bool) (pats : List (List UInt8)) (name : List UInt8) : Bool :=
  if regex then
    match sw.rex (if pats = [] then [0x2E, 0x2A] else alternation pats) with
    | some f => decide (f name = some (0, name.length))
    | none => false
  else (if pats = [] then [[0x2A]] else pats).any fun p => sw.glob p name

/-- The selected consoles. -/
def selection (sw : SrvWorld) (regex : Bool) (pats : List (List UInt8)) : List SrvCon := sw.cons.filter fun c => selected sw regex pats c.name

/-- How many bytes the answer with these names takes. -/
def answerSize (reset : Bool) (names : List (List UInt8)) : Nat := 3 + (if reset then 13 else 0) + (names.map fun n => n.length + 11).sum

/-- What is told about a client that is in the way. -/
def inUse (con : SrvCon) (w : SrvWriter) : List UInt8 :=
  bs "Console [" ++ con.name ++ bs "] open " ++ (if w.bcast then bs "B/C" else bs "R/W") ++ bs " by <" ++ w.user ++ bs "@" ++ w.host ++ bs ">" ++
    (match w.tty with | some t => bs " on " ++ t | none => []) ++ bs " (idle " ++ w.idle.getD (bs "???") ++ bs ").\n"

end Spec
end Conman
