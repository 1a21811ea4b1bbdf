import Verif.Model.Whole
import Verif.Model.LogFiles

/-
The objects (`Model/World.lean`) and the files of their logs (`Model/LogFiles.lean`) put together: `open_logfile_obj`, src/server-logfile.c:222-311, and
`write_to_obj`, src/server-obj.c:1078-1182, for logs.

* Whether the file of a log is opened is not an event here but follows from its name, the files there are and the locks others hold; only whether `open` fails is one.
* Directories (`create_dirs`), modes, and the log of the daemon are not modelled: what the daemon writes to its own log is a write by another.
* Names are those the code gives to `open`; two names of one file (links, `..`) are in `LDir`.
-/
namespace Conman
open Spec

/-- The log file of object `m` as configured: that of console `m / 2` if `m` is odd. -/
def SConf.logAt (c : SConf) (m : Nat) : Option (Console × List UInt8 × LogOpt) :=
  if m % 2 = 1 then (c.consoles[m / 2]?).bind fun k => k.log.map fun l => (k, l) else none

/-- The name the log `m` is opened by, src/server-logfile.c:252-268, at the time `tm`: `none` is undefined behaviour, `some none` a name too long. -/
def SConf.logName (c : SConf) (pid : Int) (tm : UInt8 → List UInt8) (m : Nat) : Option (Option (List UInt8)) :=
  match c.logAt m with
  | none => some none
  | some (k, l) => openName pid tm ⟨k.fobj, l.1⟩

/-- `enableLock` of the log `m`, src/server-conf.c:937-941. -/
def SConf.logLock (c : SConf) (m : Nat) : Bool :=
  match c.logAt m with
  | none => false
  | some (_, l) => l.2.lock

/-- Objects and files; `held` are the files others have locked, `file` the file a log has open, `trunc` is `gotTruncate`. -/
structure Disk where
  w : World
  fs : LDir
  held : Nat → Bool
  file : Nat → Option Nat
  trunc : Nat → Bool

/-- After the configuration was read; `zero` is option `-z`, src/server-logfile.c:162. -/
def Disk.boot (c : SConf) (fs : LDir) (held : Nat → Bool) (zero : Bool) : Disk where
  w := c.world
  fs := fs
  held := held
  file := fun _ => none
  trunc := fun _ => zero

/-- Things that happen: a step of the daemon other than opening a log, the opening of a log (at start or by SIGHUP, `ok` if `open` succeeds), and what others do. -/
inductive DiskEv
  | step (s : Step)
  | openLog (m : Nat) (ok : Bool) (tm : UInt8 → List UInt8)
  | rename (a b : List UInt8)
  | remove (a : List UInt8)
  | other (i : Nat) (d : List UInt8)
  | hold (i : Nat) (b : Bool)

/-- A write at the end of a file. -/
def LDir.append (d : LDir) (i : Nat) (x : List UInt8) : LDir := { d with data := fun j => if j = i then d.data j ++ x else d.data j }

/-- `writev` to the descriptor of a log, src/server-obj.c:1135; other objects have no file. -/
def diskPut (file : Nat → Option Nat) (fs : LDir) : Fx → LDir
  | .sent i d => match file i with
    | some j => fs.append j d
    | none => fs
  | _ => fs

/-- The objects after a step: what was written goes to the files; logs that were shut down (src/server-obj.c:807-857) have no file any more. -/
def Disk.take (d : Disk) (w : World) : Disk :=
  { d with
    w := { w with tick := w.tick + 1 }
    fs := (w.fx.drop d.w.fx.length).foldl (diskPut d.file) d.fs
    file := fun m => if (w.obj m).fd then d.file m else none }

/-- The outcome of `open_logfile_obj`. -/
structure Opened where
  ok : Bool
  fs : LDir
  file : Option Nat
  trunc : Bool

/-- `open_logfile_obj`, src/server-logfile.c:222-311: the name (250-266), `gotTruncate` (273-277), `open` (278), the lock (283-288). -/
def Disk.open (c : SConf) (pid : Int) (d : Disk) (m : Nat) (ok : Bool) (tm : UInt8 → List UInt8) : Option Opened :=
  match c.logName pid tm m with
  | none => none
  | some none => some ⟨false, d.fs, none, d.trunc m⟩
  | some (some nm) =>
    if ok = false then some ⟨false, d.fs, none, false⟩
    else if c.logLock m = true ∧ d.held (d.fs.open nm (d.trunc m)).2 = true then some ⟨false, (d.fs.open nm (d.trunc m)).1, none, false⟩
    else some ⟨true, (d.fs.open nm (d.trunc m)).1, some (d.fs.open nm (d.trunc m)).2, false⟩

def Step.isOpen : Step → Bool
  | .logOpen _ _ => true
  | _ => false

/-- One event; `none` is undefined behaviour. -/
def Disk.step (c : SConf) (pid : Int) (env : Env) (d : Disk) : DiskEv → Option Disk
  | .step s => if s.isOpen then some d else (d.w.step env s).map d.take
  | .openLog m ok tm =>
    if (d.w.obj m).kind ≠ .logfile then some d
    else (d.open c pid m ok tm).bind fun o => (d.w.step env (.logOpen m o.ok)).map fun w =>
      ({ d with fs := o.fs, file := fun i => if i = m then o.file else d.file i, trunc := fun i => if i = m then o.trunc else d.trunc i } : Disk).take w
  | .rename a b => some { d with fs := d.fs.rename a b }
  | .remove a => some { d with fs := { d.fs with ino := fun x => if x = a then none else d.fs.ino x } }
  | .other i x => some (if i < d.fs.next then { d with fs := d.fs.append i x } else d)
  | .hold i b => some { d with held := fun j => if j = i then b else d.held j }

def Disk.run (c : SConf) (pid : Int) (env : Env) : Disk → List DiskEv → Option Disk
  | d, [] => some d
  | d, e :: es => (d.step c pid env e).bind fun d => d.run c pid env es

end Conman
