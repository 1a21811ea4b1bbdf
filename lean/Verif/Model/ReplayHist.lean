import Verif.Model.Replay
import Verif.Model.NoticeText

/-
What `perform_log_replay` (src/server-esc.c:262-391) writes, from what was written to the buffer of a log (`Obj.hist` in `Model/World.lean`).
The part of the buffer read by the replay does not depend on how the bytes were cut into writes, nor on what was sent to the file (C102_chunks), so `Obj.hist` has bytes.
-/
namespace Conman

/-- The operations on the buffer: one write for each byte, and `shutdown_obj` (src/server-obj.c:835-839). -/
def histOps (h : List (Option UInt8)) : List RingOp :=
  h.map fun x => match x with
    | some b => .write [b]
    | none => .reset

/-- The buffer of a log (`malloc` returned `mem`), src/server-obj.c:79-87. -/
def histRing (mem : List UInt8) (h : List (Option UInt8)) : Option Ring := ((Ring.create mem).run (histOps h)).map (·.1)

/-- What `perform_log_replay` writes to the client; `none`: the console has no open log (`get_console_logfile_obj`, src/server-logfile.c:314-351, used at
src/server-esc.c:295). -/
def replayText (mem name : List UInt8) : Option (List (Option UInt8)) → List UInt8
  | none => match performLogReplay name none with
    | .wrote d => d
    | _ => []
  | some h => match (histRing mem h).map (fun r => performLogReplay name (some r)) with
    | some (.wrote d) => d
    | _ => []

/-- The replays of a daemon with the configuration `c`: the name is that of the console (src/server-esc.c:290-300), `mem` what `malloc` returned for each log. -/
def SConf.replay (c : SConf) (mem : Nat → List UInt8) (con : Nat) (h : Option (List (Option UInt8))) : List UInt8 :=
  replayText (mem con) ((c.consoles[con / 2]?.map (·.name)).getD []) h

end Conman
