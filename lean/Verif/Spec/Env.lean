import Verif.Model.Basic

/-
Environments.
-/
namespace Conman
namespace Spec

/-- The value of a variable in an environment (a list of strings `name=value`): that of the first entry with this name. -/
def valueIn (env : List (List UInt8)) (k : List UInt8) : Option (List UInt8) :=
  (env.find? fun s => (k ++ [0x3D]).isPrefixOf s).map (·.drop (k.length + 1))

/-- Values the daemon uses whatever the caller's environment is. -/
def fixedVars (stdpath : List UInt8) : List (List UInt8 × List UInt8) :=
  [(bs "IFS", [0x20, 0x09, 0x0A]), (bs "PATH", stdpath), (bs "TERM", bs "dumb")]

/-- Variables taken over. -/
def keptVars : List (List UInt8) := [bs "DEBUG", bs "TZ"]

end Spec
end Conman
