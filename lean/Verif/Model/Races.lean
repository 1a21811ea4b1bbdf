import Verif.Spec.Races

/-
  Setting up and closing of sessions by threads, step by step: a step is an
  operation on a list under its mutex, or the use of an object.  The sequential
  model of the same functions is Model/Session.lean.

  Simplifications: buffers, descriptors and texts of messages are left out: a
  message is a use of the object it is written to.  A new client is `live` from
  the start of its thread; nobody else can know it before `pub`.
-/

namespace Conman

open Spec

/-- What a thread still has to do. -/
inductive RcI where
  /-- use of an object or of its request -/
  | deref (x : Nat)
  /-- the loops over readers and writers of notify_console_objs, at position `p` -/
  | noteR (d p : Nat)
  | noteW (d p : Nat)
  /-- the writer `x` of `d` gets the notice, if it is no reader -/
  | noteX (d x : Nat)
  /-- the loop over the writers of `d` that tells the client `s` of them -/
  | tellW (s d p : Nat)
  /-- the loop over the writers of `d` that unlinks them -/
  | stealW (d p : Nat)
  /-- link_objs, and its two operations on lists -/
  | link (a b : Nat) (f : Bool)
  | add1 (a b : Nat)
  | add2 (a b : Nat)
  /-- unlink_objs: its two operations on lists -/
  | cut1 (a b : Nat)
  | cut2 (a b : Nat)
  /-- the two loops of unlink_obj -/
  | drainW (x : Nat)
  | drainR (x : Nat)
  /-- check_busy_consoles: the consoles still to look at, and the busy ones -/
  | ask (r : RcReq) (down : Nat → Nat) (rest busy : List Nat)
  /-- its loop over the writers of a busy console -/
  | tellBusy (o p : Nat)
  /-- the client is known to the main thread -/
  | born (c : Nat)
  /-- check_console_state -/
  | state (o c k : Nat)
  /-- the client is taken off the master list and its memory given back -/
  | retire (c : Nat)
  /-- perform_console_writer_linkage -/
  | toggle (c : Nat) (f : Bool)

/-- notify_console_objs: src/server-obj.c:575-602. -/
def rcNotify (d : Nat) : List RcI := [.noteR d 0, .noteW d 0]

/-- perform_connect_cmd and perform_monitor_cmd: src/server-sock.c:825-904, with
    create_client_obj: src/server-obj.c:102-138. -/
def rcPerform (down : Nat → Nat) : RcReq → List RcI
  | .connect c [o] f _ =>
    [.born c, .link c o f, .link o c f, .state o c (down o), .deref c]
  | .connect c os f _ =>
    .born c :: os.flatMap (fun o => [.link c o f, .state o c (down o)]) ++ [.deref c]
  | .monitor c o => [.born c, .link o c false, .state o c (down o), .deref c]

/-- The part of process_client from validate_req on: src/server-sock.c:119-150.
    Only a request to connect without force or join is refused if consoles are
    busy (src/server-sock.c:641-645). -/
def rcServe (down : Nat → Nat) : RcReq → List RcI
  | .connect c os false false => [.ask (.connect c os false false) down os []]
  | r => rcPerform down r

/-- What the main thread does: read_from_obj with its loop
    (src/server-obj.c:941-954), notices (src/server-obj.c:515-572), shutdown_obj
    of a client with its removal (src/server-obj.c:798-845,
    src/server.c:809-819), perform_console_writer_linkage
    (src/server-esc.c:224-259). -/
def rcActs : RcAct → List RcI
  | .feed x => [.noteR x 0]
  | .notice o => rcNotify o
  | .close c => [.deref c, .drainW c, .drainR c, .retire c]
  | .toggle c f => [.toggle c f]

/-- An object is changed. -/
def rcUpd (σ : RcStore) (x : Nat) (f : RcObj → RcObj) : RcStore :=
  fun y => if y = x then f (σ y) else σ y

/-- One step: what there is to do instead.  `none`: memory is used that was
    given back (or a null pointer).
    notify_console_objs src/server-obj.c:575-602, link_objs 605-680,
    unlink_objs 683-740, unlink_obj 743-757; check_busy_consoles
    src/server-sock.c:622-705, check_console_state 907-980 (any number of
    notices, from opening the console); perform_console_writer_linkage
    src/server-esc.c:224-259; destroy_obj src/server-obj.c:141-260. -/
def rcStep (σ : RcStore) : RcI → Option (RcStore × List RcI)
  | .deref x => if (σ x).live then some (σ, []) else none
  | .noteR d p =>
    if (σ d).live then
      match (σ d).rd[p]? with
      | some x => some (σ, [.deref x, .noteR d (p + 1)])
      | none => some (σ, [])
    else none
  | .noteW d p =>
    if (σ d).live then
      match (σ d).wr[p]? with
      | some x => some (σ, [.noteX d x, .noteW d (p + 1)])
      | none => some (σ, [])
    else none
  | .noteX d x =>
    if (σ d).live then some (σ, if x ∈ (σ d).rd then [] else [.deref x]) else none
  | .tellW s d p =>
    if (σ d).live then
      match (σ d).wr[p]? with
      | some x => some (σ, [.deref x, .deref s, .tellW s d (p + 1)])
      | none => some (σ, [])
    else none
  | .stealW d p =>
    if (σ d).live then
      match (σ d).wr[p]? with
      | some x => some (σ, [.drainW x, .drainR x, .stealW d (p + 1)])
      | none => some (σ, [])
    else none
  | .link a b f =>
    if (σ a).live ∧ (σ b).live then
      if (σ a).kind = .client ∧ (σ b).kind = .console then
        some (σ, rcNotify b ++ [.tellW a b 0] ++
          (if f = true ∧ (σ b).wr ≠ [] then [.stealW b 0] else []) ++ [.add1 a b])
      else some (σ, [.add1 a b])
    else none
  | .add1 a b =>
    if (σ a).live then
      some (rcUpd σ a fun o => { o with rd := o.rd ++ [b] }, [.add2 a b])
    else none
  | .add2 a b =>
    if (σ b).live then some (rcUpd σ b fun o => { o with wr := o.wr ++ [a] }, [])
    else none
  | .cut1 a b =>
    if (σ a).live then
      some (rcUpd σ a fun o => { o with rd := o.rd.filter (· ≠ b) }, [.cut2 a b])
    else none
  | .cut2 a b =>
    if (σ b).live then
      some (rcUpd σ b fun o => { o with wr := o.wr.filter (· ≠ a) },
        if a ∈ (σ b).wr ∧ (σ a).kind = .client ∧ (σ b).kind = .console then
          .deref a :: rcNotify b ++ [.deref a, .deref b]
        else [.deref a, .deref b])
    else none
  | .drainW x =>
    if (σ x).live then
      match (σ x).wr with
      | y :: _ => some (σ, [.cut1 y x, .drainW x])
      | [] => some (σ, [])
    else none
  | .drainR x =>
    if (σ x).live then
      match (σ x).rd with
      | y :: _ => some (σ, [.cut1 x y, .drainR x])
      | [] => some (σ, [])
    else none
  | .ask r down (o :: rest) busy =>
    if (σ o).live then
      some (σ, [.ask r down rest (if (σ o).wr = [] then busy else busy ++ [o])])
    else none
  | .ask r down [] [] => some (σ, rcPerform down r)
  | .ask _ _ [] busy => some (σ, busy.map fun o => .tellBusy o 0)
  | .tellBusy o p =>
    if (σ o).live then
      match (σ o).wr[p]? with
      | some x => some (σ, [.deref x, .tellBusy o (p + 1)])
      | none => some (σ, [])
    else none
  | .born c =>
    if (σ c).live then some (rcUpd σ c fun o => { o with pub := true }, []) else none
  | .state o c k =>
    if (σ o).live then
      some (σ, if k = 0 then [] else
        .deref c :: (List.replicate (k - 1) (rcNotify o)).flatten ++ [.deref o])
    else none
  | .retire c =>
    if (σ c).live then some (rcUpd σ c fun o => { o with live := false, pub := false }, [])
    else none
  | .toggle c f =>
    if (σ c).live then
      match (σ c).wr with
      | [] => none
      | o :: _ =>
        if (σ c).rd ≠ [] then some (σ, [.cut1 c o]) else some (σ, [.link c o f])
    else none

/-- The place of a loop after items were removed from its list: the iterators of
    a list are moved back by list_node_destroy, src/list.c:601-632. -/
def rcPos (l : List Nat) (x p : Nat) : Nat := ((l.take p).filter (· ≠ x)).length

/-- What another loop becomes by a step. -/
def rcAdj (σ : RcStore) : RcI → RcI → RcI
  | .cut1 a b, .noteR d p => .noteR d (if d = a then rcPos (σ a).rd b p else p)
  | .cut2 a b, .noteW d p => .noteW d (if d = b then rcPos (σ b).wr a p else p)
  | .cut2 a b, .tellW s d p => .tellW s d (if d = b then rcPos (σ b).wr a p else p)
  | .cut2 a b, .stealW d p => .stealW d (if d = b then rcPos (σ b).wr a p else p)
  | .cut2 a b, .tellBusy d p => .tellBusy d (if d = b then rcPos (σ b).wr a p else p)
  | _, j => j

/-- The thread that serves a request. -/
structure RcTh where
  req : RcReq
  todo : List RcI

/-- All of it: the objects, the main thread, the threads of clients. -/
structure RcSys where
  σ : RcStore
  main : List RcI
  ths : List RcTh

/-- The requests that are being served. -/
def RcSys.serving (s : RcSys) : List RcReq :=
  (s.ths.filter fun t => !t.todo.isEmpty).map RcTh.req

/-- `i` is the removal of a client. -/
def RcI.isRetire : RcI → Bool
  | .retire _ => true
  | _ => false

/-- The main thread is closing a client. -/
def RcSys.closing (s : RcSys) : Bool := s.main.any RcI.isRetire

/-- The main thread may do this: it does things only to objects it knows.
    Nothing is changed for a client of several consoles (src/server-esc.c:234). -/
def RcSys.can (s : RcSys) : RcAct → Prop
  | .feed x => (s.σ x).pub = true ∨ ((s.σ x).kind ≠ .client ∧ (s.σ x).live = true)
  | .notice o => (s.σ o).kind = .console ∧ (s.σ o).live = true
  | .close c => (s.σ c).kind = .client ∧ (s.σ c).pub = true
  | .toggle c _ => (s.σ c).kind = .client ∧ (s.σ c).pub = true ∧
      ∀ t ∈ s.ths, t.req.client = c → t.req.broad = false

instance (s : RcSys) (a : RcAct) : Decidable (s.can a) := by
  cases a <;> unfold RcSys.can <;> infer_instance

/-- One event.  What is not possible does not happen.  `none`: undefined
    behaviour.  mux_io: src/server.c:749-826 for the main thread; accept_client:
    src/server.c:956-1018 and process_client: src/server-sock.c:89-156 for a new
    thread. -/
def RcSys.step (s : RcSys) : RcEv → Option RcSys
  | .start r down =>
    if rcPossible s.σ r then
      some { s with
        σ := rcUpd s.σ r.client fun o => { o with used := true, live := true, rd := [], wr := [] }
        ths := s.ths ++ [⟨r, rcServe down r⟩] }
    else some s
  | .act a => if s.main = [] ∧ s.can a then some { s with main := rcActs a } else some s
  | .main =>
    match s.main with
    | [] => some s
    | i :: k => (rcStep s.σ i).map fun r =>
        { σ := r.1, main := r.2 ++ k.map (rcAdj s.σ i),
          ths := s.ths.map fun t => { t with todo := t.todo.map (rcAdj s.σ i) } }
  | .run n =>
    match s.ths[n]? with
    | none => some s
    | some t =>
      match t.todo with
      | [] => some s
      | i :: k => (rcStep s.σ i).map fun r =>
          { σ := r.1, main := s.main.map (rcAdj s.σ i),
            ths := (s.ths.map fun t => { t with todo := t.todo.map (rcAdj s.σ i) }).set n
              { t with todo := r.2 ++ k.map (rcAdj s.σ i) } }

/-- A history. -/
def RcSys.run : RcSys → List RcEv → Option RcSys
  | s, [] => some s
  | s, e :: h => (s.step e).bind fun s' => s'.run h

/-- A history in which everything is kept apart that has to be. -/
def RcSys.calm : RcSys → List RcEv → Prop
  | _, [] => True
  | s, e :: h => rcCalm s.serving s.closing e ∧ ∀ s', s.step e = some s' → s'.calm h

end Conman
