import Verif.Model.Basic
import Verif.Model.Ring

/-
C102: what a user sees who asks for a replay of the log.
-/
namespace Conman.Spec

/-- What was written to the buffer of a log, byte by byte; `none` stands for each time the log was closed for good and its buffer emptied. -/
def opsHist (ops : List RingOp) : List (Option UInt8) :=
  ops.flatMap fun op => match op with
    | .write d => (d.take 16383).map some
    | .flush _ => []
    | .reset => [none]

/-- What was written since the buffer was emptied last (`cur`: before). -/
def lifeOf (cur : List UInt8) : List (Option UInt8) → List UInt8
  | [] => cur
  | some b :: h => lifeOf (cur ++ [b]) h
  | none :: h => lifeOf [] h

/-- Whenever the buffer was emptied, less than its size had been written to it since the last time (`n`: written before). -/
def shortLives (n : Nat) : List (Option UInt8) → Bool
  | [] => true
  | some _ :: h => shortLives (n + 1) h
  | none :: h => n < 16384 && shortLives 0 h

/-- What a user gets. -/
def replayOf (name log : List UInt8) : List UInt8 :=
  bs "\r\n<ConMan> Begin log replay of console [" ++ name ++ bs "].\r\n" ++ log ++ bs "\r\n<ConMan> End log replay of console [" ++ name ++ bs "].\r\n"

/-- What a user gets if there is no log, or it is closed. -/
def noReplayOf (name : List UInt8) : List UInt8 := bs "\r\n<ConMan> Console [" ++ name ++ bs "] is not being logged -- cannot replay.\r\n"

end Conman.Spec
