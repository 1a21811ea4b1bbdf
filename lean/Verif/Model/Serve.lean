import Verif.Model.Request
import Verif.Model.Proto
import Verif.Model.Name
import Verif.Spec.List
import Verif.Spec.Serve

/-
The thread that takes a client: `process_client`, src/server-sock.c:89-822.

* Consoles are the indices into `sw.cons`: the objects of `conf->objs` that are not consoles are skipped by the code (487, 549).
* Lists are those that src/list.c implements (C29, C30).
* That writing to the client fails is left out: nobody would receive what follows.
* Messages to the log of the server are left out (C76).
* `stk` is what arrays that are not initialised contain.
-/
namespace Conman
open Spec

abbrev SrvWorld.Con (sw : SrvWorld) := Fin sw.cons.length

def SrvWorld.name (sw : SrvWorld) (i : sw.Con) : List UInt8 := sw.cons[i].name

/-- A session that begins, with the consoles in the order of `req->consoles`: `create_client_obj` gets the request. -/
structure SrvSession (sw : SrvWorld) where
  cmd : MsgCmd
  user : Option (List UInt8)
  tty : Option (List UInt8)
  quiet : Bool
  force : Bool
  join : Bool
  bcast : Bool
  cons : List sw.Con
deriving Repr, DecidableEq

/-- How far the thread gets: what it writes, whether the connection is closed then or still read from, and otherwise the session that begins. -/
structure SrvOut (sw : SrvWorld) where
  out : List UInt8 := []
  waiting : Bool := false
  closed : Bool := true
  session : Option (SrvSession sw) := none
deriving Repr, DecidableEq

/-- The loop of src/server-sock.c:524-527. -/
def joinMore (buf : List UInt8) : List (List UInt8) → Option (List UInt8)
  | [] => some buf
  | p :: ps => (strlcat buf (bs "|") maxSockLine).bind fun r => (strlcat r.1 p maxSockLine).bind fun r => joinMore r.1 ps

/-- The regular expression of a request, src/server-sock.c:515-528. -/
def joinPats (stk : List UInt8) (pats : List (List UInt8)) : Option (List UInt8) :=
  match (if pats = [] then [bs ".*"] else pats) with
  | [] => none
  | p :: ps => (strlcpy (stk.take maxSockLine) 0 p maxSockLine).bind fun r => (joinMore r.1 ps).bind cstr

/-- `compare_objs`, src/server-obj.c:450-482. -/
def SrvWorld.cmp (sw : SrvWorld) (i j : sw.Con) : Int := (compareObjs (sw.name i) (sw.name j)).getD (sw.over (sw.name i) (sw.name j))

/-- `query_consoles`, src/server-sock.c:418-457, with `query_consoles_via_globbing`, 460-497, and `query_consoles_via_regex`, 500-559: the consoles of
the request, in order, or the text of an error in the regular expression. -/
def srvQuery (sw : SrvWorld) (stk : List UInt8) (q : SrvReq) : Option (Sum (List UInt8) (List sw.Con)) :=
  if q.consoles = [] ∧ q.cmd ≠ some .query then some (.inr [])
  else if q.regex then
    (joinPats stk q.consoles).map fun pat =>
    match sw.rex pat with
    | none => .inl ((sw.rexErr pat).take (maxSockLine - 1))
    | some f => .inr (Seq.sorted sw.cmp ((List.finRange sw.cons.length).filter fun i => f (sw.name i) = some (0, (sw.name i).length)))
  else some (.inr (Seq.sorted sw.cmp (queryGlob (fun p i => sw.glob p (sw.name i)) (bs "*") (List.finRange sw.cons.length) q.consoles)))

/-- `send_rsp` with an error, src/server-sock.c:767-793. -/
def srvErr (n : Nat) (msg : List UInt8) : Option (List UInt8) := (rspErr maxSockLine n (some msg)).map (·.getD [])

/-- A line of the list of `check_too_many_consoles`, src/server-sock.c:609-611. -/
def nameLine (stk name : List UInt8) : Option (List UInt8) :=
  (strlcpy (stk.take maxSockLine) 0 name maxSockLine).bind fun r => (strlcat r.1 (bs "\n") maxSockLine).bind fun r => cstr r.1

/-- A line of the list of `check_busy_consoles`, src/server-sock.c:678-695. -/
def busyLine (stk : List UInt8) (con : SrvCon) (w : SrvWriter) : Option (List UInt8) :=
  (snprintf (stk.take maxLine) 0 maxLine
    (bs "Console [" ++ con.name ++ bs "] open " ++ (if w.bcast then bs "B/C" else bs "R/W") ++ bs " by <" ++ w.user ++ bs "@" ++ w.host ++ bs ">" ++
      (match w.tty with | some t => bs " on " ++ t | none => []) ++ bs " (idle " ++ w.idle.getD (bs "???") ++ bs ").\n")).bind fun r =>
  (pokes r.1 (maxLine - 2) [0x0A, 0]).bind cstr

/-- `check_too_many_consoles`, src/server-sock.c:580-619: whether the request is refused. -/
def srvTooMany (q : SrvReq) (n : Nat) : Bool :=
  if q.cmd = some .query then false
  else if n = 1 then false
  else if q.cmd = some .connect ∧ q.bcast then false
  else true

/-- `check_busy_consoles`, src/server-sock.c:640-653: the list `busy`. -/
def srvBusy (sw : SrvWorld) (q : SrvReq) (ns : List sw.Con) : List sw.Con :=
  if q.cmd = some .query ∨ q.cmd = some .monitor then []
  else if q.force ∨ q.join then []
  else ns.filter fun i => !sw.cons[i].writers.isEmpty

/-- src/server-sock.c:660-666 -/
def busyMsg (n : Nat) : List UInt8 := if n = 1 then bs "Found console already in use" else bs "Found " ++ dec n ++ bs " consoles already in use"

/-- `validate_req`, src/server-sock.c:562-577: what is sent if the request is refused. -/
def srvValidate (sw : SrvWorld) (stk : List UInt8) (q : SrvReq) (ns : List sw.Con) : Option (Option (List UInt8)) :=
  if ns = [] then (srvErr 5 (bs "Found no matching consoles")).map some
  else if srvTooMany q ns.length then
    (srvErr 6 (bs "Found " ++ dec ns.length ++ bs " matching consoles")).bind fun m =>
    (ns.mapM fun i => nameLine stk (sw.name i)).map fun ls => some (m ++ ls.flatten)
  else if srvBusy sw q ns ≠ [] then
    (srvErr 7 (busyMsg (srvBusy sw q ns).length)).bind fun m =>
    ((srvBusy sw q ns).mapM fun (i : sw.Con) => sw.cons[i].writers.mapM fun w => busyLine stk sw.cons[i] w).map fun ls => some (m ++ ls.flatten.flatten)
  else some none

/-- The rest of `process_client` after `recv_req`, src/server-sock.c:121-155, with `perform_query_cmd`, 802-822. -/
def srvAnswer (sw : SrvWorld) (stk : List UInt8) (q : SrvReq) : Option (SrvOut sw) :=
  (srvQuery sw stk q).bind fun
  | .inl t => (srvErr 3 t).map fun m => { out := m }
  | .inr ns =>
    let q := if ns.length = 1 then { q with bcast := false } else q
    (srvValidate sw stk q ns).bind fun
    | some m => some { out := m }
    | none =>
      match q.cmd with
      | none => some {}
      | some cmd =>
        (rspOk maxSockLine sw.resetCmd (ns.map sw.name)).map fun
        | none => {}
        | some m => if cmd = .query then { out := m } else { out := m, closed := false, session := some ⟨cmd, q.user, q.tty, q.quiet, q.force, q.join, q.bcast, ns⟩ }

/-- What comes from the kernel and the stack in a run of the thread. -/
structure SrvIn where
  sched1 : List Sys
  sched2 : List Sys
  stk1 : List UInt8
  stk2 : List UInt8
  stk3 : List UInt8

/-- `recv_req`, src/server-sock.c:318-371, and what follows it. -/
def srvRequest (sw : SrvWorld) (i : SrvIn) (q : SrvReq) (sent inp : List UInt8) : Option (SrvOut sw) :=
  (readLine i.sched2 inp (i.stk2.take maxSockLine) maxSockLine).bind fun r =>
  match r.fin with
  | .blocked => some { out := sent, waiting := true, closed := false }
  | .err => some { out := sent }
  | .ret 0 => some { out := sent }
  | .ret (_ + 1) => (recvReq r.buf q).bind fun q => (srvAnswer sw i.stk3 q).map fun a => { a with out := sent ++ a.out }

/-- `process_client`, src/server-sock.c:89-156, with the end of `resolve_addr`, 198-211, and `recv_greeting`, 220-276, on what arrives from the client. -/
def serve (sw : SrvWorld) (i : SrvIn) (inp : List UInt8) : Option (SrvOut sw) :=
  if sw.allowed = false then some {}
  else
    (readLine i.sched1 inp (i.stk1.take maxSockLine) maxSockLine).bind fun r =>
    match r.fin with
    | .blocked => some { waiting := true, closed := false }
    | .err => some {}
    | .ret 0 => some {}
    | .ret (_ + 1) =>
      (recvGreeting r.buf).bind fun q =>
      match q.user with
      | none => (srvErr 2 (bs "Invalid greeting: no user specified")).map fun m => { out := m }
      | some _ =>
        (rspOk maxSockLine false []).bind fun
        | none => some {}
        | some m => srvRequest sw i q m r.rest

end Conman
