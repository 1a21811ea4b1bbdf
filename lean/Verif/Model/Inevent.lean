import Verif.Spec.Inevent

/-
File watches, src/inevent.c.

* Of the kernel (inotify(7)): a watch belongs to a directory, not to its name; adding one for a directory that has one gives the same descriptor; descriptors are not
  used again; an event equal to the last one in the queue is not queued; the end of a watch is announced by IN_IGNORED.  The queue has no limit.
* A directory is a number; `dirs` is what names of directories mean.
* Callbacks (of which there is only `open_unixsock_obj_via_inotify`) do not call functions of this file.  Allocations succeed.
-/
namespace Conman

/-- `struct inotify_event`, as far as it matters here: IN_CREATE and IN_MOVED_TO, or IN_IGNORED. -/
inductive INote where
  | created (wd : Nat) (name : List UInt8)
  | ignored (wd : Nat)
deriving DecidableEq, Repr

/-- An inotify instance: the directories descriptors were given out for, the watches (descriptor and directory), the queue. -/
structure Inot where
  issued : List Nat := []
  watches : List (Nat × Nat) := []
  queue : List INote := []
deriving DecidableEq, Repr

/-- An event is put into the queue. -/
def Inot.post (k : Inot) (e : INote) : Inot := if k.queue.getLast? = some e then k else { k with queue := k.queue ++ [e] }

/-- `inotify_add_watch`. -/
def Inot.add (k : Inot) (ino : Nat) : Inot × Nat :=
  match k.watches.find? (fun w => w.2 = ino) with
  | some w => (k, w.1)
  | none => ({ k with issued := k.issued ++ [ino], watches := k.watches ++ [(k.issued.length, ino)] }, k.issued.length)

/-- The end of a watch: `inotify_rm_watch`, or the directory was removed. -/
def Inot.stop (k : Inot) (wd : Nat) : Inot :=
  if k.watches.any (fun w => w.1 = wd) then { k with watches := k.watches.filter (fun w => w.1 ≠ wd) }.post (.ignored wd) else k

/-- A file is created in a directory, or moved to it. -/
def Inot.onCreate (k : Inot) (ino : Nat) (name : List UInt8) : Inot :=
  match k.watches.find? (fun x => x.2 = ino) with
  | none => k
  | some x => k.post (.created x.1 name)

/-- A directory is removed. -/
def Inot.onGone (k : Inot) (ino : Nat) : Inot :=
  match k.watches.find? (fun x => x.2 = ino) with
  | none => k
  | some x => k.stop x.1

/-- `struct inevent`, src/inevent.c:125-132; `dirname` is not used after the creation. -/
structure Inevent where
  path : List UInt8
  file : List UInt8
  cb : Nat
  wd : Nat
deriving DecidableEq, Repr

/-- The directory and file name of a path, src/inevent.c:429-443. -/
def splitPath (p : List UInt8) : List UInt8 × List UInt8 :=
  let f := (p.reverse.takeWhile (· ≠ 0x2F)).reverse
  let d := p.take (p.length - f.length - 1)
  (if d = [] then [0x2F] else d, f)

/-- `inevent_fd` and `inevent_list`: both are set or none is.  `log` is a record of callbacks called, with the path they were registered for. -/
structure Watcher where
  st : Option (List Inevent × Inot) := none
  dirs : List UInt8 → Option Nat
  log : List (List UInt8 × Nat) := []

/-- `_inevent_init`, src/inevent.c:352-381, if it has to be called, src/inevent.c:199-205. -/
def Watcher.opened (w : Watcher) (ok : Bool) : Option (List Inevent × Inot) :=
  match w.st with
  | some s => some s
  | none => if ok then some ([], {}) else none

/-- `inevent_add`, src/inevent.c:177-218, and `_inevent_create`, src/inevent.c:405-466. -/
def Watcher.add (w : Watcher) (path : List UInt8) (cb : Nat) (ok : Bool) : Watcher × Bool :=
  if path.head? ≠ some 0x2F then (w, false)
  else
    match w.opened ok with
    | none => (w, false)
    | some (l, k) =>
      if l.any (fun e => e.path = path) then ({ w with st := some (l, k) }, false)
      else match w.dirs (splitPath path).1 with
        | none => ({ w with st := some (l, k) }, false)
        | some ino => ({ w with st := some (l ++ [⟨path, (splitPath path).2, cb, (k.add ino).2⟩], (k.add ino).1) }, true)

/-- `inevent_remove`, src/inevent.c:221-273. -/
def Watcher.remove (w : Watcher) (path : List UInt8) : Watcher :=
  match w.st with
  | none => w
  | some (l, k) =>
    match l.find? (fun e => e.path = path) with
    | none => w
    | some e =>
      let l := l.eraseP (fun e => e.path = path)
      let k := if l.any (fun e' => e'.wd = e.wd) then k else k.stop e.wd
      if l = [] then { w with st := none } else { w with st := some (l, k) }

/-- One event, src/inevent.c:322-339. -/
def handle (l : List Inevent) (log : List (List UInt8 × Nat)) : INote → List Inevent × List (List UInt8 × Nat)
  | .ignored wd => (l.filter (fun e => e.wd ≠ wd), log)
  | .created wd name =>
    match l.find? (fun e => e.wd = wd && e.file = name) with
    | none => (l, log)
    | some e => (l, log ++ [(e.path, e.cb)])

/-- The loop of `inevent_process`, src/inevent.c:311-342. -/
def handles (l : List Inevent) (log : List (List UInt8 × Nat)) : List INote → List Inevent × List (List UInt8 × Nat)
  | [] => (l, log)
  | e :: es => handles (handle l log e).1 (handle l log e).2 es

/-- `inevent_process`, src/inevent.c:286-345, when `read` gives the first `n` events. -/
def Watcher.process (w : Watcher) (n : Nat) : Watcher :=
  match w.st with
  | none => w
  | some (l, k) => { w with st := some ((handles l w.log (k.queue.take n)).1, { k with queue := k.queue.drop n }), log := (handles l w.log (k.queue.take n)).2 }

def Watcher.step (w : Watcher) : WEv → Watcher
  | .add path cb ok => (w.add path cb ok).1
  | .remove path => w.remove path
  | .process n => w.process n
  | .created ino name => { w with st := w.st.map fun s => (s.1, s.2.onCreate ino name) }
  | .gone ino => { w with st := w.st.map fun s => (s.1, s.2.onGone ino) }
  | .dirs f => { w with dirs := f }

def Watcher.run (w : Watcher) (h : List WEv) : Watcher := h.foldl Watcher.step w

end Conman
