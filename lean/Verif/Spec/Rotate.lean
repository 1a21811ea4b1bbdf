import Verif.Spec.Disk

/-! What is said of the rotation of log files. -/
namespace Conman.Spec
open Conman

/-- The parts that the log file `nm` was renamed to, oldest first, after an event, if they were `fam` before it.  `none`: another process did something else to `nm` or to one
of its parts than to give it a name that no file has - replaced, removed or wrote to it -, or a log was opened by the name of a part. -/
def partsStep (c : SConf) (pid : Int) (nm : List UInt8) (d : Disk) (fam : List (List UInt8)) : DiskEv → Option (List (List UInt8))
  | .rename a b =>
    if a = b ∨ d.fs.ino a = none then some fam
    else if b ∈ nm :: fam then none
    else if a ∈ nm :: fam then
      if d.fs.ino b ≠ none then none
      else if a = nm then some (fam ++ [b])
      else some (fam.map fun y => if y = a then b else y)
    else some fam
  | .remove a => if a ∈ nm :: fam then none else some fam
  | .other i _ => if ∃ y ∈ nm :: fam, d.fs.ino y = some i then none else some fam
  | .openLog m _ tm => match c.logName pid tm m with
    | some (some x) => if x ∈ fam then none else some fam
    | _ => some fam
  | _ => some fam

/-- ... after a history. -/
def parts (c : SConf) (pid : Int) (env : Env) (nm : List UInt8) : Disk → List (List UInt8) → List DiskEv → Option (List (List UInt8))
  | _, fam, [] => some fam
  | d, fam, e :: es => (partsStep c pid nm d fam e).bind fun fam => match d.step c pid env e with
    | some d => parts c pid env nm d fam es
    | none => some fam

end Conman.Spec
