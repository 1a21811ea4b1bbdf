/-
Exponential backoff, independent of the model.
-/
namespace Conman.Spec

/-- Parameters: first delay, floor and cap of the doubling, and the delay used
right after a stable connection (0: at once). -/
structure BackoffPar where
  first : Nat
  floor : Nat
  cap : Nat
  afterStable : Nat

/-- The delay after a delay of `d`. -/
def BackoffPar.next (p : BackoffPar) (d : Nat) : Nat := if d = 0 then p.floor else min (2 * d) p.cap

/-- What happened. -/
inductive BackoffEv where
  | retry (d : Nat) | stable | hint

/-- The history follows the backoff rule when the next delay due is `d`. -/
def BackoffPar.follows (p : BackoffPar) (d : Nat) : List BackoffEv → Prop
  | [] => True
  | .retry x :: h => x = d ∧ p.follows (p.next d) h
  | .stable :: h => p.follows p.afterStable h
  | .hint :: h => p.follows p.floor h

end Conman.Spec
