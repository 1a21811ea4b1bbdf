import Verif.Model.Disk

/-
The end of the daemon: what `main` does when `mux_io` returns after SIGINT or SIGTERM, src/server.c:153-176, with
`destroy_server_conf`, src/server-conf.c:277-320, and `destroy_obj`, src/server-obj.c:141-262.

* Freeing memory, the daemon's own log other than the two notices below, and FreeIPMI are left out.
* Threads of clients (`process_client`) that still run then are left out; they are not waited for by the code.
-/
namespace Conman

/-- What is done at the end, in order: the pid file is removed, the listening socket is closed, it is reported that `n` bytes for object `i` were not written,
it is reported that client `i` is disconnected, the terminal settings of a serial line are restored, the descriptor of `i` is closed, SIGTERM is sent to a process group. -/
inductive EndFx where
  | pidFile
  | listen
  | unwritten (i n : Nat)
  | left (i : Nat)
  | restore (i : Nat)
  | close (i : Nat)
  | term (group : Nat)
deriving Repr, DecidableEq

/-- `destroy_obj`, src/server-obj.c:141-262: the notice (153-158), clients (161-170), serial lines (183-199), the descriptor (247-254).
The number of waiting bytes (`num_bytes_buffered`, src/server-obj.c:1185-1205) is the length of `pend` (C01). -/
def Obj.bye (o : Obj) (i : Nat) : List EndFx :=
  (if o.pend.length > 0 then [.unwritten i o.pend.length] else []) ++
  (match o.kind with
    | .client => [.left i]
    | .serial => if o.fd then [.restore i] else []
    | _ => []) ++
  (if o.fd then [.close i] else [])

/-- src/server.c:161-170: `destroy_server_conf` (src/server-conf.c:277-320), then SIGTERM to the group of the daemon, `pgid`, which is known if it runs in the background
(src/server.c:105). `list_destroy` (src/list.c) destroys the objects in the order of the list. -/
def World.stop (w : World) (pidFile : Bool) (pgid : Option Nat) : List EndFx :=
  (if pidFile then [.pidFile] else []) ++ [.listen] ++ w.live.flatMap (fun i => (w.obj i).bye i) ++
  (pgid.map EndFx.term).toList

/-- The process group of a reset command: `setpgid(pid, 0)` is called by the child and the parent, src/server-esc.c:471,492. -/
def resetGroup (pid : Nat) : Nat := pid

/-- The files and what was done, after the end; nothing of the above writes to the file of a log. -/
def Disk.stop (d : Disk) (pidFile : Bool) (pgid : Option Nat) : LDir × List EndFx := (d.fs, d.w.stop pidFile pgid)

end Conman
