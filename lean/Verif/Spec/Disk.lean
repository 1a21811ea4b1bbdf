import Verif.Model.Disk

/-! What is said of the log files on disk. -/
namespace Conman.Spec
open Conman

/-- The contents of the file of a name; nothing if there is none. -/
def fileAt (fs : LDir) (nm : List UInt8) : List UInt8 := match fs.ino nm with
  | some i => fs.data i
  | none => []

/-- The file has no other name. -/
def oneName (fs : LDir) (nm : List UInt8) : Prop := ∀ x i, fs.ino nm = some i → fs.ino x = some i → x = nm

/-- No other process renames, replaces, removes or writes to the file `nm` at this event. -/
def quietOn (nm : List UInt8) (d : Disk) : DiskEv → Bool
  | .rename a b => decide (a ≠ nm ∧ b ≠ nm)
  | .remove a => decide (a ≠ nm)
  | .other i _ => decide (d.fs.ino nm ≠ some i)
  | _ => true

/-- ... during a history. -/
def leftAlone (c : SConf) (pid : Int) (env : Env) (nm : List UInt8) : Disk → List DiskEv → Bool
  | _, [] => true
  | d, e :: es => quietOn nm d e && match d.step c pid env e with
    | some d => leftAlone c pid env nm d es
    | none => true

/-- Whenever a log is opened, its name is `nm` if and only if it is the log `l` (a name too long is not opened). -/
def onlyLog (c : SConf) (pid : Int) (nm : List UInt8) (l : Option Nat) (es : List DiskEv) : Prop :=
  ∀ m ok tm x, DiskEv.openLog m ok tm ∈ es → c.logName pid tm m = some (some x) → (x = nm ↔ l = some m)

/-- What the daemon does at an event. -/
def daemonStep (c : SConf) (pid : Int) (d : Disk) : DiskEv → List Step
  | .step s => if s.isOpen then [] else [s]
  | .openLog m ok tm => if (d.w.obj m).kind ≠ .logfile then [] else match d.open c pid m ok tm with
    | some o => [.logOpen m o.ok]
    | none => []
  | _ => []

/-- What the daemon does in a history. -/
def daemonSteps (c : SConf) (pid : Int) (env : Env) : Disk → List DiskEv → List Step
  | _, [] => []
  | d, e :: es => daemonStep c pid d e ++ match d.step c pid env e with
    | some d => daemonSteps c pid env d es
    | none => []

end Conman.Spec
