import Verif.Spec.Conf
import Verif.Spec.Serve
import Verif.Model.World
import Verif.Model.Dec

/-
What the notices of the daemon say, for C101.
-/
namespace Conman

/-- Why the program of a console was not started. -/
inductive FailWhy where
  | socketpair | fork | stat | notFile | notExec
deriving Repr, DecidableEq

/-- What the notices speak of. -/
structure Facts where
  /-- the name of a console; for a log, of its console -/
  name : Nat → List UInt8
  /-- what a console is connected to -/
  dev : Nat → ConDev
  /-- who a client says it is, and where it comes from -/
  who : Nat → SrvWriter
  /-- the time, as `MM-DD HH:MM` and as `YYYY-MM-DD HH:MM:SS ZZZ` -/
  short : List UInt8
  long : List UInt8
  /-- how long a program was running -/
  up : List UInt8
  /-- process number of the program of a console, or of its reset command -/
  pid : Nat → Nat
  /-- strerror(3) -/
  err : List UInt8
  why : FailWhy

/-- The strings of a device that appear in notices. -/
def ConDev.strs : ConDev → List (List UInt8)
  | .unixsock p => [p]
  | .telnet h _ => [h]
  | .serial p _ => [p]
  | .process args => args
  | .ipmi h _ => [h]
  | .test _ => []

/-- All strings that appear in notices consist of characters with the property `p`. -/
structure Facts.All (f : Facts) (p : UInt8 → Prop) : Prop where
  name : ∀ i, ∀ b ∈ f.name i, p b
  dev : ∀ i, ∀ s ∈ (f.dev i).strs, ∀ b ∈ s, p b
  user : ∀ i, ∀ b ∈ (f.who i).user, p b
  host : ∀ i, ∀ b ∈ (f.who i).host, p b
  tty : ∀ i, ∀ t ∈ (f.who i).tty, ∀ b ∈ t, p b
  short : ∀ b ∈ f.short, p b
  long : ∀ b ∈ f.long, p b
  up : ∀ b ∈ f.up, p b
  err : ∀ b ∈ f.err, p b

namespace Spec

/-- A client: `<user@host> on tty`. -/
def clientText (w : SrvWriter) : List UInt8 :=
  bs "<" ++ w.user ++ bs "@" ++ w.host ++ bs ">" ++ match w.tty with | some t => bs " on " ++ t | none => []

/-- The part of a path behind the last slash. -/
def lastPart (s : List UInt8) : List UInt8 := (s.reverse.takeWhile (· ≠ 0x2F)).reverse

/-- What a console is connected to: a file, a program, a host, a host and a port. -/
def peerName : ConDev → List UInt8
  | .unixsock p => bs "\"" ++ p ++ bs "\""
  | .serial p _ => bs "\"" ++ p ++ bs "\""
  | .process args => bs "\"" ++ lastPart (args.headD []) ++ bs "\""
  | .telnet h p => bs "<" ++ h ++ bs ":" ++ decInt p ++ bs ">"
  | .ipmi h _ => bs "<" ++ h ++ bs ">"
  | .test _ => []

/-- The process number, for a program. -/
def pidOf (f : Facts) (con : Nat) : List UInt8 :=
  match f.dev con with
  | .process _ => bs " (pid " ++ dec (f.pid con) ++ bs ")"
  | _ => []

/-- How long it ran, for a program. -/
def runTime (f : Facts) (con : Nat) : List UInt8 :=
  match f.dev con with
  | .process _ => bs " after " ++ f.up
  | _ => []

/-- Why a program was not started. -/
def failReason (f : Facts) (con : Nat) : List UInt8 :=
  match f.why with
  | .socketpair => bs "socketpair error: " ++ f.err
  | .fork => bs "fork error: " ++ f.err
  | .stat => peerName (f.dev con) ++ bs " stat error: " ++ f.err
  | .notFile => peerName (f.dev con) ++ bs " not a regular file"
  | .notExec => peerName (f.dev con) ++ bs " not executable"

/-- `Console [name]` -/
def theCon (f : Facts) (i : Nat) : List UInt8 := bs "Console [" ++ f.name i ++ bs "]"

/-- The sentence that stands in a notice. -/
def sentence (f : Facts) : Note → List UInt8
  | .stolenBy s d => theCon f d ++ bs " stolen" ++ (if (f.who s).bcast then bs " for B/C" else []) ++ bs " by " ++ clientText (f.who s) ++ bs " at " ++ f.short
  | .joinedBy s d => theCon f d ++ bs " joined" ++ (if (f.who s).bcast then bs " for B/C" else []) ++ bs " by " ++ clientText (f.who s) ++ bs " at " ++ f.short
  | .stolenFrom w d => theCon f d ++ bs " stolen from " ++ clientText (f.who w) ++ bs " at " ++ f.short
  | .joinedWith w d => theCon f d ++ bs " joined with " ++ clientText (f.who w) ++ bs " at " ++ f.short
  | .departed s d => theCon f d ++ bs " departed by " ++ clientText (f.who s) ++ bs " at " ++ f.short
  | .isDown d => theCon f d ++ bs " is currently disconnected from " ++ peerName (f.dev d)
  | .connected d => theCon f d ++ bs " connected to " ++ peerName (f.dev d) ++ pidOf f d
  | .disconnected d => theCon f d ++ bs " disconnected from " ++ peerName (f.dev d) ++ pidOf f d ++ runTime f d
  | .connFailed d => theCon f d ++ bs " connection failed: " ++ failReason f d
  | .resetBusy d => bs "Ignoring reset of console [" ++ f.name d ++ bs "]: pid " ++ dec (f.pid d) ++ bs " still active"
  | .resetLong d => bs "Unable to reset console [" ++ f.name d ++ bs "]: command too long"
  | .resetFork d => bs "Unable to reset console [" ++ f.name d ++ bs "]: fork failed: " ++ f.err
  | .resetBy c d => theCon f d ++ bs " reset by <" ++ (f.who c).user ++ bs "@" ++ (f.who c).host ++ bs "> (pid " ++ dec (f.pid d) ++ bs ")"
  | .quietOn => bs "Quiet-mode enabled -- info msgs will be suppressed"
  | .quietOff => bs "Quiet-mode disabled -- info msgs will be displayed"
  | .logOpened l => theCon f l ++ bs " log opened at " ++ f.long
  | .logStamp l => theCon f l ++ bs " log at " ++ f.long

/-- `t` is one line, with an empty line before it: CR LF, a text without line ends, CR LF. -/
def OneLine (t : List UInt8) : Prop := ∃ s, t = bs "\r\n" ++ s ++ bs "\r\n" ∧ ∀ b ∈ s, b ≠ 0x0D ∧ b ≠ 0x0A

end Spec
end Conman
