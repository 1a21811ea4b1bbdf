/-
Specification of what a user's keystrokes mean (man/conman.1.in, section
ESCAPE SEQUENCES), independent of the wire protocol.
-/
namespace Conman.Spec

/-- What the user asks for. -/
inductive Key where
  /-- a byte for the console -/
  | data (b : UInt8)
  /-- escape character followed by a command letter -/
  | cmd (c : UInt8)
deriving Repr, DecidableEq

/-- The command letters: B . D E F ? I J L M Q R Z -/
def cmdLetters : List UInt8 :=
  [0x42, 0x2E, 0x44, 0x45, 0x46, 0x3F, 0x49, 0x4A, 0x4C, 0x4D, 0x51, 0x52, 0x5A]

/-- Split keystrokes into data and commands for the escape character `e`.
A final lone escape character has no meaning yet. -/
def parseKeys (e : UInt8) : List UInt8 → List Key
  | [] => []
  | [b] => if b = e then [] else [.data b]
  | b :: c :: rest =>
    if b = e then
      if c ∈ cmdLetters then .cmd c :: parseKeys e rest
      else if c = e then .data e :: parseKeys e rest
      else .data e :: .data c :: parseKeys e rest
    else .data b :: parseKeys e (c :: rest)

/-- The user's view of a session. -/
structure View where
  /-- read-write (as opposed to read-only) -/
  rw : Bool
  /-- writing to several consoles -/
  bcast : Bool
  /-- the server offers console reset -/
  canReset : Bool
  /-- the user closed the connection -/
  closed : Bool := false
deriving Repr, DecidableEq

/-- Effect of one key: new view, bytes for the console, commands for the
server. -/
def View.step (v : View) : Key → View × List UInt8 × List UInt8
  | .data b => (v, if v.rw ∧ ¬ v.closed then [b] else [], [])
  | .cmd c =>
    if v.closed then (v, [], [])
    else if c = 0x42 ∨ c = 0x44 then (v, [], if v.rw then [c] else [])      -- B D
    else if c = 0x46 ∨ c = 0x4A then                                         -- F J
      if v.rw then (v, [], []) else ({ v with rw := true }, [], [c])
    else if c = 0x4D then                                                    -- M
      if v.rw ∧ ¬ v.bcast then ({ v with rw := false }, [], [c]) else (v, [], [])
    else if c = 0x4C then (v, [], if v.bcast then [] else [c])               -- L
    else if c = 0x51 then (v, [], [c])                                       -- Q
    else if c = 0x52 then (v, [], if v.rw ∧ v.canReset then [c] else [])     -- R
    else if c = 0x5A then (v, [], [c, c])                                    -- Z
    else if c = 0x2E then ({ v with closed := true }, [], [])                -- .
    else (v, [], [])                                                         -- E ? I

/-- A whole session: final view, bytes for the console, commands. -/
def View.run (v : View) : List Key → View × List UInt8 × List UInt8
  | [] => (v, [], [])
  | k :: ks =>
    let (v1, d, a) := v.step k
    let (v2, ds, as) := v1.run ks
    (v2, d ++ ds, a ++ as)

/-- The commands in a piece of the byte stream from client to server: a byte that
follows an unpaired 0xFF, unless it is 0xFF itself.  `esc`: the piece starts after
an unpaired 0xFF. -/
def wireCommands (esc : Bool) : List UInt8 → List UInt8
  | [] => []
  | b :: rest =>
    if esc then (if b = 0xFF then [] else [b]) ++ wireCommands false rest
    else wireCommands (b = 0xFF) rest

/-- The data bytes in such a piece. -/
def wireData (esc : Bool) : List UInt8 → List UInt8
  | [] => []
  | b :: rest =>
    if esc then (if b = 0xFF then [b] else []) ++ wireData false rest
    else (if b = 0xFF then [] else [b]) ++ wireData (b = 0xFF) rest

/-- Whether the piece ends after an unpaired 0xFF. -/
def wireEsc (esc : Bool) : List UInt8 → Bool
  | [] => esc
  | b :: rest => wireEsc (!esc && b = 0xFF) rest

/-- Commands that switch between read-write and read-only: F, J and M. -/
def modeSwitch (a : UInt8) : Bool := a = 0x46 || a = 0x4A || a = 0x4D

end Conman.Spec
