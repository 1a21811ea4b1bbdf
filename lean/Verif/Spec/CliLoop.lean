import Verif.Model.CliLoop

/-
Specification for C112.
-/
namespace Conman

/-- The client at the start of its loop. -/
def CLoop.start (cs : CState) : CLoop := { cs := cs }

/-- What was typed in a history. -/
def Spec.typedIn (h : List CLEv) : List (Option UInt8) := h.filterMap fun | .key k => some k | _ => none

end Conman
