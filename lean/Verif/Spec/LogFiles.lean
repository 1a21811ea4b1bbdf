import Verif.Model.Basic

/-
Files of logs over time.  (C88)
-/
namespace Conman.Spec

/-- How a log is opened: by a name (`none`: it is too long to be made), with success or not, and with a message. -/
structure LogOpen where
  name : Option (List UInt8)
  ok : Bool := true
  msg : List UInt8 := []
deriving DecidableEq, Repr

/-- What happens to logs. -/
inductive FEv where
  /-- data or a message for the log `l` -/
  | put (l : Nat) (d : List UInt8)
  /-- at most `k` bytes of the log `l` are written -/
  | flush (l k : Nat)
  /-- writing to the log `l` fails -/
  | werr (l : Nat)
  /-- a message of the daemon -/
  | say (d : List UInt8)
  /-- opening, for the first time or again, of the log `l` and the log of the daemon -/
  | openLog (l : Nat) (o : LogOpen)
  | openDaemon (o : LogOpen)
  /-- SIGTERM -/
  | stop
  /-- by others: a file is renamed or removed, data is appended to a file, a file is locked or unlocked -/
  | rename (a b : List UInt8)
  | remove (a : List UInt8)
  | other (i : Nat) (d : List UInt8)
  | hold (i : Nat) (b : Bool)
deriving DecidableEq, Repr

/-- What is done at the start, and on SIGHUP, with `n` logs. -/
def startEvs (n : Nat) (o : Nat → LogOpen) (dm : LogOpen) : List FEv := .openDaemon dm :: (List.range n).map fun l => .openLog l (o l)
def hupEvs (n : Nat) (o : Nat → LogOpen) (dm : LogOpen) : List FEv := ((List.range n).map fun l => .openLog l (o l)) ++ [.openDaemon dm]

/-- Who writes. -/
inductive Who where
  | log (l : Nat)
  | daemon
  | other
deriving DecidableEq, Repr

/-- A write to a file. -/
structure Wr where
  who : Who
  ino : Nat
  bytes : List UInt8
deriving DecidableEq, Repr

/-- What was written by somebody, and to a file. -/
def wroteBy (w : Who) (t : List Wr) : List UInt8 := ((t.filter fun x => x.who = w).map (·.bytes)).flatten
def wroteTo (i : Nat) (t : List Wr) : List UInt8 := ((t.filter fun x => x.ino = i).map (·.bytes)).flatten

/-- What is for the log `l` in a history: data, and the messages of openings. -/
def offered (l : Nat) (h : List FEv) : List UInt8 :=
  (h.map fun e => match e with
    | .put k d => if k = l then d else []
    | .openLog k o => if k = l then o.msg else []
    | _ => []).flatten

/-- The log `l`, or that of the daemon, is opened in a history. -/
def TriedLog (l : Nat) (h : List FEv) : Prop := ∃ o, FEv.openLog l o ∈ h ∧ o.name ≠ none
def TriedDaemon (h : List FEv) : Prop := ∃ o, FEv.openDaemon o ∈ h

end Conman.Spec
