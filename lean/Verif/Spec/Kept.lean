import Verif.Model.World
import Verif.Spec.Session

/-
How a session can end against the will of its client (C116).
-/
namespace Conman
namespace Spec

/-- In state `w` the step `s` takes console `con` from those that write to it: a forced connect request for it is carried
out, or a client attached to it types the command to take it (`&F`, byte 0x46 after an escape). -/
def TakesOver (w : World) (s : Step) (con : Nat) : Prop :=
  (∃ d k q, s = .grant d k ∧ w.wait[k]? = some q ∧ q.cmd = .connect ∧ q.force = true ∧ con ∈ q.consoles) ∨
  (∃ d up b wr, s = .poll d up (some (.data b)) wr ∧ (w.obj d).kind = .client ∧ con ∈ (w.obj d).writers ∧
    0x46 ∈ wireCommands (w.obj d).gotEscape (b.take 8191))

/-- The step is none of client `c` itself, and nobody can take a console with it: no forced request is made, and no byte
`F` is read. -/
def leavesAlone (c : Nat) : Step → Bool
  | .check q => !q.force
  | .poll i _ (some (.data b)) _ => i != c && !b.contains 0x46
  | .poll i _ _ _ => i != c
  | _ => true

end Spec
end Conman
