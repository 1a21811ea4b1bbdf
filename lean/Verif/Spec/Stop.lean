import Verif.Model.Stop

/-! What is said of the end of the daemon. -/
namespace Conman.Spec
open Conman

/-- The log `l` is not written at this event. -/
def noWrite (l : Nat) : DiskEv → Bool
  | .step (.poll i _ _ (some _)) => decide (i ≠ l)
  | _ => true

end Conman.Spec
