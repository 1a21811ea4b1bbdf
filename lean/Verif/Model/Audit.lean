import Verif.Model.Stop
import Verif.Spec.Audit

/-
Messages of the daemon about sessions: `perform_monitor_cmd`, `perform_connect_cmd` (src/server-sock.c:825-904) and `destroy_obj` (src/server-obj.c:161-168).
-/
namespace Conman
open Spec

/-- src/server-sock.c:847-848, 884-885, 899-901. Clients and consoles stand for their names. -/
def auditGrant (c : Nat) (q : Req) : List Audit :=
  match q.cmd, q.consoles with
  | .monitor, con :: _ => [.readOnly c con]
  | .connect, [con] => [.readWrite c con]
  | .connect, cons => [.broadcast c cons.length]
  | .monitor, [] => []

/-- The messages of one step that leads from `w` to `w'`. A client that is closed is deleted from the list of objects (`mux_io`, src/server.c:805-825), by which it is destroyed
(`destroy_obj`, src/server-obj.c:161-168). -/
def World.audit (w w' : World) : Step → List Audit
  | .grant c k => if c ∈ w.live then [] else (w.wait[k]?.map (auditGrant c)).getD []
  | .poll i _ _ _ => if i ∈ w.live ∧ (w.obj i).kind = .client ∧ i ∉ w'.live then [.gone i] else []
  | _ => []

/-- The messages of a history. -/
def World.audits (w : World) (env : Env) : List Step → List Audit
  | [] => []
  | s :: ss =>
    match w.step env s with
    | none => []
    | some w' => w.audit w' s ++ ({ w' with tick := w'.tick + 1 } : World).audits env ss

/-- `destroy_obj` again, src/server-obj.c:161-168. -/
def EndFx.audit : EndFx → Option Audit
  | .left c => some (.gone c)
  | _ => none

/-- The messages about clients at the end of the daemon: every object is destroyed by `destroy_server_conf` (src/server-conf.c:277-320, C107). -/
def World.auditEnd (w : World) (pidFile : Bool) (pgid : Option Nat) : List Audit := (w.stop pidFile pgid).filterMap EndFx.audit

end Conman
