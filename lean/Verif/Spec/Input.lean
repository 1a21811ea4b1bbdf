import Verif.Spec.Flow
import Verif.Spec.Session
import Verif.Spec.Telnet

/-
Vocabulary for the statements about what clients type on its way to a console (C91).
-/
namespace Conman

/-- What a command of a client puts into the input of the console `o`: DEL for D, the break of a process console ("&B") or of a
telnet connection (IAC BREAK) for B.  A break of a serial or IPMI console is no input. -/
def cmdInput (o : Obj) (a : UInt8) : List UInt8 :=
  if a = 0x44 then [0x7F]
  else if a = 0x42 then
    if o.kind = .process then [0x26, 0x42]
    else if o.kind = .telnet ∧ o.conn = .up then [255, 243]
    else []
  else []

/-- The input from the commands `as`, and whether the client writes to the console after them.  `own`: it is the one console of the
client; then F, J and M let it write, or only read. -/
def cmdsInput (o : Obj) (own : Bool) : Bool → List UInt8 → List UInt8 × Bool
  | writes, [] => ([], writes)
  | writes, a :: as =>
    let r := cmdsInput o own (if Spec.modeSwitch a && own then !writes else writes) as
    ((if writes then cmdInput o a else []) ++ r.1, r.2)

/-- The replies of a telnet console to what its peer sent. -/
def telReplies (o : Obj) (d : List UInt8) : List UInt8 :=
  match telChunks o.iac [d] with
  | some (_, _, replies) => replies
  | none => []

/-- The input of console `k` that a step brings: what a client wrote that is connected to it; for a telnet console also the
telnet protocol. -/
def typed (w : World) (k : Nat) : Step → List UInt8
  | .poll i _ (some (.data d)) _ =>
    if i ∈ w.live ∧ ((w.obj i).pin = true ∨ (w.obj i).pout = true) then
      if (w.obj i).kind = .client then
        let r := cmdsInput (w.obj k) (!(w.obj i).bcast && (w.obj i).writers.contains k) ((w.obj i).readers.contains k)
          (Spec.wireCommands (w.obj i).gotEscape d)
        r.1 ++ if r.2 then Spec.wireData (w.obj i).gotEscape d else []
      else if i = k ∧ (w.obj k).kind = .telnet ∧ (w.obj k).conn = .up then telReplies (w.obj k) d
      else []
    else []
  | .connUp i =>
    if i = k ∧ k ∈ w.live ∧ (w.obj k).kind = .telnet ∧ ((w.obj k).fd = false ∨ (w.obj k).conn = .pending) then telHello else []
  | _ => []

/-- The same for a history. -/
def typedAll (env : Env) (w : World) (k : Nat) : List Step → List UInt8
  | [] => []
  | s :: ss =>
    typed w k s ++
    match w.step env s with
    | none => []
    | some w => typedAll env { w with tick := w.tick + 1 } k ss

/-- The input that waits never exceeds the buffer. -/
def typedFits (env : Env) (w : World) (k : Nat) : List Step → Bool
  | [] => true
  | s :: ss =>
    decide ((w.obj k).pend.length + (typed w k s).length ≤ Spec.queueCap) &&
    match w.step env s with
    | none => true
    | some w => typedFits env { w with tick := w.tick + 1 } k ss

/-- Commands that put nothing into the input of a console and leave alone who writes to it: all but B, D, F, J and M. -/
def inert (a : UInt8) : Bool := !(a = 0x42 || a = 0x44 || Spec.modeSwitch a)

/-- How a client sends text: 0xFF is doubled. -/
def wireText (t : List UInt8) : List UInt8 := t.flatMap Spec.iacDouble

end Conman
