import Verif.Spec.Session
import Verif.Spec.ClientOut

/-
Vocabulary for the statements from the terminal of a client to the console and back (C94).
-/
namespace Conman.Spec

/-- The key in what is read from the terminal, if there is one. -/
def keyOf : Option (Option UInt8) → List UInt8
  | some (some c) => [c]
  | _ => []

/-- The keys the client reads in a session: until its terminal or the connection is at its end, it is told to terminate, or fails. -/
def keysTyped : List CEvent → List UInt8
  | [] => []
  | .round k d :: es =>
    keyOf k ++ (if k = some none ∨ d = some [] then [] else keysTyped es)
  | _ :: _ => []

/-- The text among keys. -/
def typedText (ks : List Key) : List UInt8 := ks.flatMap fun k => match k with | .data b => [b] | .cmd _ => []

/-- Text, or one of the commands E ? I L Q R Z: those that send nothing to the console and leave the session as it is. -/
def keepsOn : Key → Bool
  | .data _ => true
  | .cmd c => [0x45, 0x3F, 0x49, 0x4C, 0x51, 0x52, 0x5A].contains c

end Conman.Spec
