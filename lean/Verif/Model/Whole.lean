import Verif.Model.Conf
import Verif.Model.Serve
import Verif.Model.World

/-
The parts put together: the configuration (`Model/Conf.lean`), the threads that take clients (`Model/Serve.lean`) and the objects (`Model/World.lean`).
Console number `n` of the configuration is object `2 * n`, its log object `2 * n + 1`.
-/
namespace Conman

/-- `obj->type` of a console made by `process_console`, src/server-conf.c:822-917. -/
def ConDev.kind : ConDev → OKind
  | .unixsock _ => .unixsock
  | .telnet _ _ => .telnet
  | .serial _ _ => .serial
  | .process _ => .process
  | .ipmi _ _ => .ipmi
  | .test _ => .test

/-- A console as it is when the configuration was read: `process_console`, src/server-conf.c:918-950; the reset command is the same for all consoles,
`open_objs`, src/server.c:737-739. -/
def SConf.entry (c : SConf) (k : Console) : ConConf where
  kind := k.dev.kind
  reset := c.resetCmd.isSome
  log := k.log.map fun l => ⟨l.2.sanitize, l.2.timestamp⟩

/-- The objects after the configuration was read. -/
def SConf.world (c : SConf) : World := World.boot (c.consoles.map c.entry)

/-- What a thread that takes a client finds in `conf->objs`, src/server-sock.c:418-705: the consoles with their names, and their writers; `who` is what is known of a
client (its name, host, terminal and idle time), `lib` the C library.  `resetCmd`: src/server-sock.c:129-131. -/
def World.view (w : World) (c : SConf) (lib : SrvWorld) (who : Nat → SrvWriter) : SrvWorld :=
  { lib with
    cons := c.consoles.mapIdx fun n k => ⟨k.name, (w.obj (2 * n)).writers.map who⟩
    resetCmd := c.resetCmd.isSome }

/-- The request of a session, as it is stored in the object of the client (`create_client_obj`, src/server-obj.c:102-138); a query begins no session. -/
def SrvSession.req {sw : SrvWorld} (s : SrvSession sw) : Req where
  cmd := if s.cmd = .monitor then .monitor else .connect
  consoles := s.cons.map fun i => 2 * i.val
  force := s.force
  join := s.join
  bcast := s.bcast
  quiet := s.quiet

end Conman
