import Verif.Spec.LogBook

/-
Vocabulary for the statements about what comes from a telnet console (C99).
-/
namespace Conman

/-- The bytes a step reads from the connection of telnet console `k`, as the peer sent them. -/
def gotOf (w : World) (k : Nat) : Step → List UInt8
  | .poll i _ (some (.data d)) _ =>
    if i = k ∧ ((w.obj k).pin = true ∨ (w.obj k).pout = true) ∧ (w.obj k).conn = .up then d else []
  | _ => []

/-- The same for a history. -/
def gotAll (env : Env) (w : World) (k : Nat) : List Step → List UInt8
  | [] => []
  | s :: ss =>
    gotOf w k s ++
    match w.step env s with
    | none => []
    | some w => gotAll env { w with tick := w.tick + 1 } k ss

/-- Client `c` watches console `k` and no other, before every step. -/
def watches (env : Env) (w : World) (c k : Nat) : List Step → Bool
  | [] => true
  | s :: ss =>
    decide ((w.obj c).writers = [k]) &&
    match w.step env s with
    | none => true
    | some w => watches env { w with tick := w.tick + 1 } c k ss

end Conman
