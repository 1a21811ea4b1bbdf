import Verif.Spec.Input

/-
Vocabulary for the statements about what is typed to a telnet console (C98).
-/
namespace Conman

/-- The text that a step brings for console `k`: what a client connected to it types, and DEL.  The break of a telnet connection and
the telnet protocol are no text (a break is one only for a connection that is up). -/
def textOf (w : World) (k : Nat) : Step → List UInt8
  | .poll i _ (some (.data d)) _ =>
    if i ∈ w.live ∧ ((w.obj i).pin = true ∨ (w.obj i).pout = true) ∧ (w.obj i).kind = .client then
      let r := cmdsInput { w.obj k with conn := .down } (!(w.obj i).bcast && (w.obj i).writers.contains k) ((w.obj i).readers.contains k)
        (Spec.wireCommands (w.obj i).gotEscape d)
      r.1 ++ if r.2 then Spec.wireData (w.obj i).gotEscape d else []
    else []
  | _ => []

/-- The same for a history. -/
def textAll (env : Env) (w : World) (k : Nat) : List Step → List UInt8
  | [] => []
  | s :: ss =>
    textOf w k s ++
    match w.step env s with
    | none => []
    | some w => textAll env { w with tick := w.tick + 1 } k ss

/-- What the daemon may send to a telnet console: data, the negotiation when a connection comes up, refusals and BREAK. -/
def Spec.telSends (t : Spec.TelTok) : Bool :=
  match t with
  | .data _ => true
  | .wont _ => true
  | .dont _ => true
  | .do_ o => o = 0 || o = 1 || o = 3
  | .will o => o = 0 || o = 3
  | .cmd c => c = 243
  | .sub _ => false

end Conman
