import Verif.Model.World

/-
Specification of C113: which steps and effects concern a chosen set of objects.
-/
namespace Conman.Spec

/-- The outside effects at the objects chosen by `A`. -/
def fxAt (A : Nat → Bool) : Fx → Bool
  | .sent i _ => A i
  | .brk c => A c
  | .resetStart c _ => A c
  | .kill c _ => A c

/-- A step that concerns the objects chosen by `A`: a request for consoles that are all
among them, a new client among them, anything that happens to one of them. -/
def stepAt (A : Nat → Bool) : Step → Bool
  | .check q => !q.consoles.isEmpty && q.consoles.all A
  | .grant c _ => A c
  | .poll i _ _ _ => A i
  | .connUp i => A i
  | .connPend i => A i
  | .connDown i => A i
  | .connFail i => A i
  | .resetTimeout con => A con
  | .childExit con _ => A con
  | .logOpen i _ => A i
  | .logStamp i => A i

/-- Time passes and nothing happens (a request that names no console is refused). -/
def idle : Step := .check { cmd := .connect, consoles := [] }

/-- A step without the place of the request among the waiting ones. -/
def dropIdx : Step → Step
  | .grant c _ => .grant c 0
  | s => s

/-- The steps of a history that concern `A`, in order. -/
def stepsAt (A : Nat → Bool) (h : List Step) : List Step := (h.filter (stepAt A)).map dropIdx

/-- No link leads from an object chosen by `A` to one that is not, or back. -/
def LinksWithin (A : Nat → Bool) (w : World) : Prop := ∀ i,
  (∀ j ∈ (w.obj i).readers, A j = A i) ∧ (∀ j ∈ (w.obj i).writers, A j = A i) ∧ ∀ j, (w.obj i).log = some j → A j = A i

/-- Every client is chosen by `A` if all its consoles are, and none of its consoles is if it is not. -/
def GrantsApart (env : Env) (A : Nat → Bool) (w : World) (h : List Step) : Prop :=
  ∀ h1 c k h2 w1 q, h = h1 ++ .grant c k :: h2 → w.run env h1 = some w1 → w1.wait[k]? = some q →
    ∀ x ∈ q.consoles, A x = A c

end Conman.Spec
