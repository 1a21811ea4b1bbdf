/-
Clock times, timers and descriptor interests, as a caller of the poll module sees them.
-/
namespace Conman

/-- `struct timeval`. -/
structure TV where
  sec : Int
  usec : Int
deriving DecidableEq, Repr

/-- A timer: its identifier, what its callback is and its deadline. -/
structure Timer where
  id : Int
  arg : Nat
  tv : TV
deriving DecidableEq, Repr

namespace Spec

/-- Microseconds since the epoch. -/
def TV.us (t : TV) : Int := t.sec * 1000000 + t.usec

/-- A time as the system gives it. -/
def TV.Normal (t : TV) : Prop := 0 ≤ t.usec ∧ t.usec < 1000000

/-- Earlier than. -/
def TV.before (a b : TV) : Prop := a.sec < b.sec ∨ (a.sec = b.sec ∧ a.usec < b.usec)

/-- For times as the system gives them that is a comparison of microseconds. -/
theorem TV.before_us {a b : TV} (ha : TV.Normal a) (hb : TV.Normal b) : TV.before a b ↔ TV.us a < TV.us b := by
  unfold TV.before TV.us TV.Normal at *; omega

/-- What happens to timers, as the caller sees it. -/
inductive TEv where
  /-- a timer was created -/
  | made (t : Timer)
  /-- `cancel id` was called and returned `rc` -/
  | cancelled (id : Int) (rc : Int)
  /-- all timers were cancelled -/
  | zeroed
  /-- the callback of `t` was called; `now` is the clock reading it is judged by -/
  | fired (t : Timer) (now : TV)
  /-- going to wait, `now` being the clock reading timers are judged by -/
  | waits (now : TV)
deriving DecidableEq, Repr

/-- The timers pending after a history, oldest first. -/
def pendStep (l : List Timer) : TEv → List Timer
  | .made t => l ++ [t]
  | .cancelled id _ => l.filter (fun t => t.id ≠ id)
  | .zeroed => []
  | .fired t _ => l.filter (fun u => u.id ≠ t.id)
  | .waits _ => l

def pending (h : List TEv) : List Timer := h.foldl pendStep []

/-- The number of timers ever created. -/
def creations (h : List TEv) : Nat := (h.filter (fun e => match e with | .made _ => true | _ => false)).length

/-- What the caller asks of the descriptor table. -/
inductive FOp where
  | set (fd : Nat) (ev : UInt16)
  | clear (fd : Nat) (ev : UInt16)
  | zero

/-- The interests registered. -/
def fdStep (m : Nat → UInt16) : FOp → Nat → UInt16
  | .set fd ev => fun i => if i = fd then m i ||| ev else m i
  | .clear fd ev => fun i => if i = fd then m i &&& ~~~ ev else m i
  | .zero => fun _ => 0

/-- The interests after a history. -/
def interest (h : List FOp) : Nat → UInt16 := h.foldl fdStep (fun _ => 0)

end Spec
end Conman
