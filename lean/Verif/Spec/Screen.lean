import Verif.Spec.Flow

/-
Vocabulary for the statements about what a client is sent (C93).
-/
namespace Conman

/-- What is sent to a client: output of a console, a message of the daemon, or the replay of a log. -/
inductive ShowEv where
  | out (d : List UInt8)
  | note (t : List UInt8)
  | replay (t : List UInt8)
deriving Repr, DecidableEq

def ShowEv.bytes : ShowEv → List UInt8
  | .out d => d
  | .note t => t
  | .replay t => t

/-- The console output in it. -/
def ShowEv.outs : ShowEv → List UInt8
  | .out d => d
  | _ => []

def ShowEv.isReplay : ShowEv → Bool
  | .replay _ => true
  | _ => false

/-- Messages are those of the daemon, replays those of logs. -/
def ShowEv.Ok (env : Env) : ShowEv → Prop
  | .out _ => True
  | .note t => ∃ n k, t = env.txt n k
  | .replay t => ∃ con h, t = env.replay con h

/-- Messages and replays fit into a buffer (C49: messages have less than 1024 bytes; C04: a replay has at most 4096, and a header). -/
structure ShowEnv (env : Env) : Prop where
  txt : ∀ n k, (env.txt n k).length ≤ Spec.queueCap
  replay : ∀ con h, (env.replay con h).length ≤ Spec.queueCap

/-- In every step, what is sent to `c` and what waits for it after the step is less than the buffer holds. -/
def keepsUp (env : Env) (w : World) (c : Nat) : List Step → Bool
  | [] => true
  | s :: ss =>
    match w.step env s with
    | none => true
    | some w1 =>
      decide ((sentTo c w1.fx).length + (w1.obj c).pend.length < (sentTo c w.fx).length + Spec.queueCap) &&
      keepsUp env { w1 with tick := w1.tick + 1 } c ss

end Conman
