import Verif.Model.World

/-
Specification for C114: what a step says about the output of one client, and being connected all the time.
-/
namespace Conman
namespace Spec

/-- Bytes sent to `m`. -/
def isSentTo (m : Nat) : Fx → Bool
  | .sent i _ => i = m
  | _ => false

/-- A step without what it says about the output of `m`: how much of its waiting output `m` takes, and when. -/
def sansOutput (m : Nat) : Step → Step
  | .poll i up rd wr =>
    if i = m then
      match rd with
      | none => .check { cmd := .connect, consoles := [] }
      | some r => .poll m up (some r) none
    else .poll i up rd wr
  | s => s

/-- The step is not the end of the connection of `m`. -/
def keepsOpen (m : Nat) : Step → Bool
  | .poll i _ rd wr => !(i = m && (rd = some .eof || rd = some .err || wr = some .err))
  | _ => true

/-- `m` is a connected client all the time. -/
def StaysConnected (env : Env) (m : Nat) (w : World) (h : List Step) : Prop :=
  ∀ h1 h2 w1, h = h1 ++ h2 → w.run env h1 = some w1 → m ∈ w1.live ∧ (w1.obj m).kind = .client ∧ (w1.obj m).eof = false

end Spec

end Conman
