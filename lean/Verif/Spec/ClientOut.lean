import Verif.Model.Basic

/-
What the client shows, logs and reports.  (C83, C84, C85)
-/
namespace Conman.Spec

/-- What the client writes to the terminal by one call: data of the server, or a text of its own. -/
inductive OutPiece where
  | data (d : List UInt8)
  | note (t : List UInt8)
deriving Repr, DecidableEq

def OutPiece.bytes : OutPiece → List UInt8
  | .data d => d
  | .note t => t

/-- What of the output came from the server. -/
def dataOf (ps : List OutPiece) : List UInt8 := (ps.map fun p => match p with | .data d => d | .note _ => []).flatten

/-- What of the output did not. -/
def notesOf (ps : List OutPiece) : List (List UInt8) := ps.filterMap fun p => match p with | .data _ => none | .note t => some t

/-- What happens in a session. -/
inductive CEvent where
  /-- the terminal, the server, or both are ready: what is read from the terminal (`none` is its end) and from the server (nothing is its end) -/
  | round (k : Option (Option UInt8)) (d : Option (List UInt8))
  /-- the client is told to terminate -/
  | term
  /-- a system call fails -/
  | fail
deriving Repr, DecidableEq

/-- The data that was received. -/
def received (es : List CEvent) : List UInt8 := (es.map fun e => match e with | .round _ (some d) => d | _ => []).flatten

/-- A message of the client about the session: a line of its own that says where it comes from. -/
def IsMsg (t : List UInt8) : Prop := ∃ x, t = bs "\r\n<ConMan> " ++ x ++ bs "\r\n"

/-- Events that end a session: the server has closed the connection, the terminal is gone, the client is told to, or a key after the user closed the session. -/
def Ends (closed : Bool) : CEvent → Prop
  | .round k d => d = some [] ∨ k = some none ∨ (closed = true ∧ ∃ c, k = some (some c))
  | .term => True
  | .fail => False

/-- How a character is shown. -/
def shown (c : UInt8) : List UInt8 := if c < 0x20 then [0x5E, c + 0x40] else if c = 0x7F then bs "^?" else [c]

/-- Texts of the client in a session: a message, the command that was typed, or the help. -/
def IsNote (e : UInt8) (t : List UInt8) : Prop :=
  IsMsg t ∨ t = shown (e &&& 0x7F) ++ bs "." ∨ t = shown (e &&& 0x7F) ++ bs "Z" ∨ ∃ x, t = bs "\r\nSupported ConMan Escape Sequences:\r\n" ++ x

/-- A line of the help: the escape character and the character that follows. -/
def helpRow (e c : UInt8) (d : List UInt8) : List UInt8 :=
  bs "  " ++ List.replicate (2 - (shown e).length) 0x20 ++ shown e ++ shown c ++ List.replicate (2 - (shown c).length) 0x20 ++ bs " -  " ++ d ++ bs "\r\n"

/-- The answer to a request or greeting as it is read: a line, the end of the connection, or an error with this text. -/
inductive RspIn where
  | line (s : List UInt8)
  | eof
  | err (t : List UInt8)
deriving Repr, DecidableEq

/-- What is left when the client has ended (`exit`) or while it runs. -/
structure COutcome where
  exit : Option Nat
  out : List OutPiece := []
  err : List UInt8 := []
  /-- the contents of the log file -/
  log : Option (List UInt8) := none
  sent : List UInt8 := []
deriving Repr, DecidableEq

end Conman.Spec
