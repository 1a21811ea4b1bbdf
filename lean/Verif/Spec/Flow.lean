import Verif.Model.World

/-
Vocabulary for the statements about data on its way through the daemon.
-/
namespace Conman

/-- All bytes that left by the descriptor of object `i`. -/
def sentTo (i : Nat) (fx : List Fx) : List UInt8 :=
  fx.flatMap (fun e => match e with | .sent j d => if j = i then d else [] | _ => [])

/-- Data read by the step from client `c`. -/
def readFrom (c : Nat) : Step → List UInt8
  | .poll i _ (some (.data d)) _ => if i = c then d else []
  | _ => []

/-- Steps that do not create a client at address `c`. -/
def noGrant (c : Nat) : Step → Bool
  | .grant c' _ => c' ≠ c
  | _ => true

/-- Commands that write to the client itself or change its quiet mode. -/
def isSelf (a : UInt8) : Bool := a = 0x4C || a = 0x51

/-- Whether output is suspended after some commands. -/
def suspAfter (s : Bool) (cmds : List UInt8) : Bool := cmds.foldl (fun s a => if a = 0x5A then !s else s) s

/-- The console output client `c` is to see of a step: what is read from a console it is attached to (without the
telnet protocol, if that is a telnet console); nothing if the console is not being polled. -/
def heard (w : World) (c : Nat) : Step → List UInt8
  | .poll i _ (some (.data d)) _ =>
    if i ∈ (w.obj c).writers ∧ ((w.obj i).pin = true ∨ (w.obj i).pout = true) then
      if (w.obj i).kind = .telnet then
        if (w.obj i).conn = .up then
          match telChunks (w.obj i).iac [d] with
          | some (_, app, _) => app
          | none => []
        else []
      else d
    else []
  | _ => []

/-- The same for a history. -/
def heardAll (env : Env) (w : World) (c : Nat) : List Step → List UInt8
  | [] => []
  | s :: ss =>
    heard w c s ++
    match w.step env s with
    | none => []
    | some w => heardAll env { w with tick := w.tick + 1 } c ss

/-- The backlog of `c` never exceeds the buffer. -/
def noOverflow (env : Env) (w : World) (c : Nat) : List Step → Bool
  | [] => true
  | s :: ss =>
    decide ((w.obj c).pend.length + (heard w c s).length ≤ Spec.queueCap) &&
    match w.step env s with
    | none => true
    | some w => noOverflow env { w with tick := w.tick + 1 } c ss

end Conman
