import Verif.Model.Basic

/-
What a message of the daemon looks like in its log.  (C79)
-/
namespace Conman.Spec

/-- A call: the time of day as text, the priority, the formatted text, the text of the error if there is one, and whether the format string ends in a newline. -/
structure LogCall where
  stamp : List UInt8
  prio : Int
  text : List UInt8
  err : Option (List UInt8) := none
  nl : Bool := false
deriving Repr, DecidableEq

/-- The names of the priorities, padded to eleven columns. -/
def logHead : Int → List UInt8
  | 0 => bs "EMERGENCY: "
  | 1 => bs "ALERT:     "
  | 2 => bs "CRITICAL:  "
  | 3 => bs "ERROR:     "
  | 4 => bs "WARNING:   "
  | 5 => bs "NOTICE:    "
  | 6 => bs "INFO:      "
  | 7 => bs "DEBUG:     "
  | _ => bs "UNKNOWN:   "

/-- The text of the error, if there is one. -/
def LogCall.errText (c : LogCall) : List UInt8 := match c.err with | some e => bs ": " ++ e | none => []

/-- All that is to be written. -/
def LogCall.full (c : LogCall) : List UInt8 :=
  c.stamp ++ logHead c.prio ++ c.text ++ (if c.nl then [] else c.errText)

/-- What is written: the first 1022 bytes, and a newline unless the format string has its own. -/
def LogCall.line (c : LogCall) : List UInt8 := c.full.take 1022 ++ (if c.nl then [] else [0x0A])

/-- The texts are C strings, and the time of day fits. -/
def LogCall.ok (c : LogCall) : Prop :=
  c.stamp ≠ [] ∧ c.stamp.length ≤ 1000 ∧ (0 : UInt8) ∉ c.stamp ∧ (0 : UInt8) ∉ c.text ∧ ∀ e ∈ c.err, (0 : UInt8) ∉ e

/-- `l` is one of the lines of a text. -/
def IsLine (s l : List UInt8) : Prop := (0x0A : UInt8) ∉ l ∧ ∃ a b, s = a ++ l ++ 0x0A :: b ∧ (a = [] ∨ a.getLast? = some 0x0A)

/-- What a file has after some messages: those that are important enough, in order, until the first that cannot be written. -/
def logFile (level : Int) (stamps : Bool) : List (LogCall × Bool) → List UInt8
  | [] => []
  | (c, failed) :: r =>
    if c.prio ≤ level then
      if failed then [] else (if stamps then c.line else c.line.drop c.stamp.length) ++ logFile level stamps r
    else logFile level stamps r

end Conman.Spec
