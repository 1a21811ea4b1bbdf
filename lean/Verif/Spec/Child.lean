import Verif.Model.Child

/-! What is said of the programs started by the daemon. -/
namespace Conman.Spec
open Conman

/-- The connections of clients that are being set up: accepted, and neither taken into the list of objects nor closed since; with the numbers of their descriptors. -/
def settingUp (es : List FdEv) : List (Nat × Nat) :=
  es.foldl (fun l e => match e with
    | .accept c n => l ++ [(c, n)]
    | .admit n => l.filter fun x => x.2 ≠ n
    | .close n => l.filter fun x => x.2 ≠ n
    | _ => l) []

/-- An event at which a program is started. -/
def startsProg : FdEv → Bool
  | .prog _ _ _ => true
  | .reset _ _ => true
  | _ => false

/-- The descriptors that the process had when it was started: with stdin, stdout and stderr, and maybe others. -/
structure Given (t0 : FdTab) : Prop where
  std : ∀ n, n < 3 → t0 n = some ⟨.given n, false⟩
  all : ∀ n f, t0 n = some f → f = ⟨.given n, false⟩

/-- A program that was given the connection `c` of a client. -/
def Holds (c : Nat) (kids : List (Job × FdTab)) : Prop := ∃ x, x ∈ kids ∧ ∃ n f, x.2 n = some f ∧ f.file = .client c

/-- A process does not begin with handlers of its own. -/
def FreshSignals (t : Nat → Disp) : Prop := ∀ s, t s ≠ .handler

end Conman.Spec
