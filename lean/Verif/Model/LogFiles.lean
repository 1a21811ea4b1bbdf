import Verif.Spec.LogFiles
import Verif.Model.World

/-
The files of logs: `open_logfile_obj`, src/server-logfile.c:222-311, `open_daemon_logfile`, src/server.c:829-930, `reopen_logfiles`, src/server.c:933-953 (a sequence of
these), and the writes to them, src/server-obj.c:961-1182 and src/log.c:248-256.

* A file is a number; names are those of files, or of none.  Descriptors are open for appending, so that a write adds to the end of the file.
* Whether a file can be opened is decided by an event; directories (`create_dirs`) and modes are not modelled.
* The lock of a file is refused if another process holds one (see `Model/Locks.lean`).
* Names are those after the expansion of conversion specifiers (`Model/Format.lean`).
-/
namespace Conman
open Spec

/-- Names and contents of files; `next` is the number of the next new file. -/
structure LDir where
  ino : List UInt8 → Option Nat
  data : Nat → List UInt8
  next : Nat

/-- Names are those of files that there are. -/
structure LDir.Ok (d : LDir) : Prop where
  names : ∀ nm i, d.ino nm = some i → i < d.next
  fresh : ∀ i, d.next ≤ i → d.data i = []

/-- `open` with O_APPEND | O_CREAT, and O_TRUNC if `tr`. -/
def LDir.open (d : LDir) (nm : List UInt8) (tr : Bool) : LDir × Nat :=
  match d.ino nm with
  | some i => ({ d with data := fun j => if j = i ∧ tr = true then [] else d.data j }, i)
  | none => ({ ino := fun x => if x = nm then some d.next else d.ino x, data := fun j => if j = d.next then [] else d.data j, next := d.next + 1 }, d.next)

/-- A log: `fd`, the waiting bytes, `gotTruncate` and `enableLock`. -/
structure LogF where
  fd : Option Nat := none
  pend : List UInt8 := []
  trunc : Bool
  lock : Bool

/-- Logs, the log of the daemon (`logFilePtr`, `once`), and files; `held` are those locked by other processes.  `trace` (the writes to files so far) is not part
of the program. -/
structure LogSys where
  fs : LDir
  held : Nat → Bool
  logs : Nat → LogF
  dfd : Option Nat := none
  once : Bool := true
  zero : Bool
  alive : Bool := true
  trace : List Wr := []

/-- At the beginning: `gotTruncate` of all logs is that of `-z`, src/server-logfile.c:162. -/
def LogSys.init (fs : LDir) (held : Nat → Bool) (lock : Nat → Bool) (zero : Bool) : LogSys :=
  { fs, held, zero, logs := fun l => { trunc := zero, lock := lock l } }

def LogSys.modLog (s : LogSys) (l : Nat) (f : LogF → LogF) : LogSys := { s with logs := fun k => if k = l then f (s.logs k) else s.logs k }

/-- A write to a file. -/
def LogSys.append (s : LogSys) (w : Who) (i : Nat) (d : List UInt8) : LogSys :=
  { s with fs := { s.fs with data := fun j => if j = i then s.fs.data j ++ d else s.fs.data j }, trace := s.trace ++ [⟨w, i, d⟩] }

/-- `write_obj_data`, src/server-obj.c:961-1075, see `enq`; it does not matter whether the log is open. -/
def LogSys.put (s : LogSys) (l : Nat) (d : List UInt8) : LogSys :=
  s.modLog l fun o => { o with pend := enq o.pend d }

/-- `write_to_obj`, src/server-obj.c:1078-1182, when `writev` takes at most `k` bytes. -/
def LogSys.flush (s : LogSys) (l k : Nat) : LogSys :=
  match (s.logs l).fd with
  | none => s
  | some i => if (s.logs l).pend.take k = [] then s else (s.append (.log l) i ((s.logs l).pend.take k)).modLog l fun o => { o with pend := o.pend.drop k }

/-- `write_to_obj` when `writev` fails: `shutdown_obj`, src/server-obj.c:807-857. -/
def LogSys.werr (s : LogSys) (l : Nat) : LogSys :=
  if (s.logs l).fd = none ∨ (s.logs l).pend = [] then s else s.modLog l fun o => { o with fd := none, pend := [] }

/-- `open_logfile_obj`, src/server-logfile.c:222-311. -/
def LogSys.openLog (s : LogSys) (l : Nat) (o : LogOpen) : LogSys :=
  let s := s.modLog l fun x => { x with fd := none }
  match o.name with
  | none => s
  | some nm =>
    let tr := (s.logs l).trunc
    let s := s.modLog l fun x => { x with trunc := false }
    if o.ok = false then s
    else
      let r := s.fs.open nm tr
      let s := { s with fs := r.1 }
      if (s.logs l).lock = true ∧ s.held r.2 = true then s
      else (s.modLog l fun x => { x with fd := some r.2 }).put l o.msg

/-- `open_daemon_logfile`, src/server.c:829-930. -/
def LogSys.openDaemon (s : LogSys) (o : LogOpen) : LogSys :=
  let tr := s.once && s.zero
  let s := { s with once := false }
  match o.name with
  | none => { s with dfd := none }
  | some nm =>
    if o.ok = false then { s with dfd := none }
    else
      let r := s.fs.open nm tr
      let s := { s with fs := r.1 }
      if s.held r.2 = true then { s with dfd := none } else { s with dfd := some r.2 }

/-- A message, src/log.c:250-256: the stream has no buffer. -/
def LogSys.say (s : LogSys) (d : List UInt8) : LogSys :=
  match s.dfd with
  | none => s
  | some i => s.append .daemon i d

/-- `rename` by others. -/
def LDir.rename (d : LDir) (a b : List UInt8) : LDir :=
  if a = b then d
  else match d.ino a with
    | none => d
    | some i => { d with ino := fun x => if x = b then some i else if x = a then none else d.ino x }

/-- The daemon does nothing any more when it has stopped: `destroy_server_conf`, src/server-conf.c:277-320, with `destroy_obj`, src/server-obj.c:141-260, closes logs and frees what waits. -/
def LogSys.step (s : LogSys) : FEv → LogSys
  | .put l d => if s.alive then s.put l d else s
  | .flush l k => if s.alive then s.flush l k else s
  | .werr l => if s.alive then s.werr l else s
  | .say d => if s.alive then s.say d else s
  | .openLog l o => if s.alive then s.openLog l o else s
  | .openDaemon o => if s.alive then s.openDaemon o else s
  | .stop => { s with alive := false, dfd := none, logs := fun l => { s.logs l with fd := none, pend := [] } }
  | .rename a b => { s with fs := s.fs.rename a b }
  | .remove a => { s with fs := { s.fs with ino := fun x => if x = a then none else s.fs.ino x } }
  | .other i d => if i < s.fs.next then s.append .other i d else s
  | .hold i b => { s with held := fun j => if j = i then b else s.held j }

def LogSys.run (s : LogSys) (h : List FEv) : LogSys := h.foldl LogSys.step s

end Conman
