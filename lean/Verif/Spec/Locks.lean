import Verif.Model.Basic

/-
Daemons that are started and stopped, and logs that are opened.
-/
namespace Conman

/-- What can happen to the processes of daemons that are started with the same command line. -/
inductive DEv where
  /-- a daemon is started, and opens the configuration file -/
  | start (pid : Int)
  /-- a daemon makes the next step of its start-up; if several locks are in its way, `pick` says which one it is told of -/
  | step (pid : Int) (pick : Nat)
  /-- a process ends without any cleaning up -/
  | kill (pid : Int)
  /-- a daemon is told to terminate -/
  | stop (pid : Int)
  /-- the name of the configuration file now stands for another file, or none -/
  | replace (file : Option Nat)
  /-- another program locks a file; programs that lock with open file descriptions are process -1 -/
  | other (pid : Int) (ino : Nat) (wr : Bool)
deriving DecidableEq, Repr

/-- What can happen to the logs of a daemon. -/
inductive LEv where
  /-- the log of a console is opened or reopened, and is then this file -/
  | console (log : Nat) (ino : Nat)
  /-- the log of the daemon is opened or reopened -/
  | daemon (ino : Nat)
  /-- another process locks a file, if it can -/
  | other (pid : Int) (ino : Nat)
  /-- another process closes a file -/
  | free (pid : Int) (ino : Nat)
deriving DecidableEq, Repr

end Conman
