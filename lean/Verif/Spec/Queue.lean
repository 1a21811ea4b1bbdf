/-
Specification: a bounded first-in-first-out byte queue that drops its oldest
bytes on overflow.  Nothing here refers to the model.
-/
namespace Conman.Spec

/-- The last `k` elements of a list. -/
def lastN (k : Nat) (l : List α) : List α := l.drop (l.length - k)

/-- Largest number of bytes waiting for a descriptor. -/
def queueCap : Nat := 16383

/-- What happens to a queue. -/
inductive QOp where
  | put (data : List UInt8)
  | take (n : Nat)
  | clear

/-- The new queue and the bytes taken out. -/
def qstep (q : List UInt8) : QOp → List UInt8 × List UInt8
  | .put d => (lastN queueCap (q ++ d), [])
  | .take n => (q.drop n, q.take n)
  | .clear => ([], [])

/-- The queue after a history and the bytes each operation took out. -/
def qrun (q : List UInt8) : List QOp → List UInt8 × List (List UInt8)
  | [] => (q, [])
  | op :: ops =>
    let (q1, o) := qstep q op
    let (q2, os) := qrun q1 ops
    (q2, o :: os)

end Conman.Spec
