import Verif.Model.Basic

/-
What happens to the main loop of the daemon.
-/
namespace Conman

/-- What can happen between two steps of the main loop. -/
inductive MEv where
  /-- the loop makes its next step, unless it is blocked -/
  | go
  /-- a descriptor gets ready -/
  | ready
  /-- SIGHUP -/
  | hup
  /-- SIGTERM or SIGINT -/
  | term
  /-- another signal that is caught, such as SIGCHLD -/
  | chld
deriving DecidableEq, Repr

/-! ### One round -/

/-- What `poll` has reported of a descriptor: something to read (or an error), something to write. -/
structure Revents where
  rd : Bool := false
  wr : Bool := false
deriving DecidableEq, Repr

/-- What was reported of the descriptors, and the descriptors of the objects (none: -1). -/
structure MState where
  table : Nat → Revents
  fd : Nat → Option Nat

/-- What reading from and writing to an object does, and whether the object is kept: any functions. -/
structure MHandlers where
  read : Nat → MState → MState × Bool
  write : Nat → MState → MState × Bool

/-- What was done for an object. -/
inductive Served where
  | read (id : Nat)
  | write (id : Nat)
deriving DecidableEq, Repr

/-- What was reported of an object. -/
def MState.rev (s : MState) (id : Nat) : Revents :=
  match s.fd id with
  | none => {}
  | some fd => s.table fd

/-- All objects get their turn: what is done, and which objects are left. -/
def Spec.serveAll (hd : MHandlers) (s : MState) : List Nat → List Served × List Nat
  | [] => ([], [])
  | o :: os =>
    let r := s.rev o
    let a := if r.rd then hd.read o s else (s, true)
    let b := if r.wr && a.2 then hd.write o a.1 else a
    let q := Spec.serveAll hd b.1 os
    ((if r.rd then [.read o] else []) ++ (if r.wr && a.2 then [.write o] else []) ++ q.1, if b.2 then o :: q.2 else q.2)

end Conman
