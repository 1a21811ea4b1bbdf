import Verif.Model.Opening

/-! Calls on one object that do not overlap. -/
namespace Conman.Spec
open Conman

/-- No call on an object is being executed. -/
def Idle (s : XSys) (i : Nat) : Prop := ∀ th ∈ s.threads, th.obj ≠ i

/-- An event begins no call on an object while another one on it is being executed. -/
def Apart (s : XSys) : XEv → Prop
  | .call i _ => Idle s i
  | .fire t => ∀ a ∈ s.armed, a.1 = t → Idle s a.2.1
  | _ => True

/-- Histories of a daemon in which calls on one object never overlap; those on different objects may. -/
inductive XCalm (kind : Nat → XKind) (given : Nat → Bool) : XSys → Prop
  | start : XCalm kind given (XSys.start kind given)
  | step {s s' : XSys} {e : XEv} : XCalm kind given s → Apart s e → s.step e = some s' → XCalm kind given s'

/-- Step of a call, answered as given. -/
def go (k : Nat) (x : XAns := {}) : XEv := .step k x

/-- The console is opened when the daemon starts: the address is not found, or no pair of sockets is to be had.  It will be tried again. -/
def telnetFails : List XEv := [.call 0 .open, go 0, go 0, go 0, go 0 { ok := false }, go 0, go 0]
def processFails : List XEv := [.call 0 .open, go 0, go 0, go 0, go 0 { ok := false }, go 0, go 0]

/-- Two clients ask for the console at the same time: both threads get a socket, and then connect. -/
def telnetTwice : List XEv := telnetFails ++ [.call 0 .check, .call 0 .check] ++ List.replicate 5 (go 0) ++ [go 0 { n := 10 }] ++ List.replicate 5 (go 1) ++ [go 1 { n := 11 }]
def telnetBothUp : List XEv := telnetTwice ++ List.replicate 4 (go 0) ++ List.replicate 4 (go 0)

/-- Both are refused; between the two `close` another client connects. -/
def telnetBothFail : List XEv := telnetTwice ++ [go 0 { conn := .fail }, go 0, go 0, go 1 { conn := .fail }, go 1, go 1, go 0, .accept 7 11, go 1]

/-- The second thread looks at the console while the first one is about to connect. -/
def telnetLate : List XEv := telnetFails ++ [.call 0 .check, .call 0 .check, go 1, go 1] ++ List.replicate 5 (go 0) ++ [go 0 { n := 10 }] ++ List.replicate 4 (go 0) ++ [go 0, go 0, go 0]

/-- Two clients ask for a console that is a program. -/
def processTwice : List XEv := processFails ++ [.call 0 .check, .call 0 .check] ++ List.replicate 4 (go 0) ++ [go 0 { n := 10, m := 11 }, go 0 { n := 100 }] ++
  List.replicate 4 (go 1) ++ [go 1 { n := 12, m := 13 }, go 1 { n := 101 }] ++ [go 0, go 1, go 0, go 1, go 0, go 0]

end Conman.Spec
