/-
  Vocabulary for the threads of the daemon and the mutexes they share: what a
  thread does to the mutexes, and how any number of threads interleave.  Nothing
  here mentions how the daemon works.
-/

namespace Conman.Spec

/-- The mutexes of the daemon.  The number names an object (or, for `lst`, a
    list that belongs to one request).  Each guards what is said beside it. -/
inductive Lk where
  /-- the master list of objects -/
  | objs
  /-- the list of watched paths -/
  | inev
  /-- the state of the connection of an IPMI console -/
  | ipmi (o : Nat)
  /-- the buffer of an object -/
  | buf (o : Nat)
  /-- the list of those who read from an object -/
  | readers (o : Nat)
  /-- the list of those who write to an object -/
  | writers (o : Nat)
  /-- a list made for one request -/
  | lst (n : Nat)
  /-- spare list headers -/
  | freeLists
  /-- spare list nodes -/
  | freeNodes
  /-- spare list iterators -/
  | freeIters
  /-- the table of descriptors and timers -/
  | tpoll
  /-- the answer of the resolver -/
  | hostent
  /-- the broken-down local time -/
  | localtime
deriving DecidableEq, Repr

/-- What a thread can wait for outside the daemon. -/
inductive Ext where
  /-- a client, a console, a timer, the IPMI engine -/
  | peer
  /-- an answer of the name service -/
  | lookup
deriving DecidableEq, Repr

/-- What a thread does next. -/
inductive LAct where
  /-- lock a mutex -/
  | acq (m : Lk)
  /-- unlock a mutex -/
  | rel (m : Lk)
  /-- wait for something outside the daemon -/
  | wait (e : Ext)
  /-- read or change what a mutex guards -/
  | use (m : Lk)
  /-- read or change the same without the mutex, on purpose of the code -/
  | raw (m : Lk)
deriving DecidableEq, Repr

/-- A thread: what it still has to do, and the mutexes it holds. -/
structure Th where
  todo : List LAct
  held : List Lk
deriving DecidableEq, Repr

/-- A thread that has done nothing yet. -/
def fresh (tr : List LAct) : Th := ⟨tr, []⟩

/-- Nobody holds the mutex. -/
def nobody (s : List Th) (m : Lk) : Prop := ∀ t ∈ s, m ∉ t.held

instance (s : List Th) (m : Lk) : Decidable (nobody s m) := by
  unfold nobody; infer_instance

/-- One thread takes one step that needs nothing from outside: it locks a mutex
    that nobody holds (not even itself), it unlocks a mutex it holds, or it
    touches data. -/
inductive Inner : List Th → List Th → Prop where
  | acq {a b r h m} : nobody (a ++ ⟨.acq m :: r, h⟩ :: b) m →
      Inner (a ++ ⟨.acq m :: r, h⟩ :: b) (a ++ ⟨r, m :: h⟩ :: b)
  | rel {a b r h m} : m ∈ h →
      Inner (a ++ ⟨.rel m :: r, h⟩ :: b) (a ++ ⟨r, h.erase m⟩ :: b)
  | use {a b r h m} :
      Inner (a ++ ⟨.use m :: r, h⟩ :: b) (a ++ ⟨r, h⟩ :: b)
  | raw {a b r h m} :
      Inner (a ++ ⟨.raw m :: r, h⟩ :: b) (a ++ ⟨r, h⟩ :: b)

/-- One thread takes one step, of its own or because what it waited for came. -/
inductive Thr : List Th → List Th → Prop where
  | inner {s s'} : Inner s s' → Thr s s'
  | came {a b r h e} : Thr (a ++ ⟨.wait e :: r, h⟩ :: b) (a ++ ⟨r, h⟩ :: b)

/-- Any number of steps, in any order of the threads. -/
inductive Threads : List Th → List Th → Prop where
  | refl {s} : Threads s s
  | step {s s' s''} : Threads s s' → Thr s' s'' → Threads s s''

/-- A number of steps that need nothing from outside. -/
inductive Inners : Nat → List Th → List Th → Prop where
  | refl {s} : Inners 0 s s
  | step {n s s' s''} : Inners n s s' → Inner s' s'' → Inners (n + 1) s s''

/-- No thread can take a step until something comes from outside. -/
def stuck (s : List Th) : Prop := ∀ s', ¬ Inner s s'

/-- The thread has nothing left to do. -/
def finished (t : Th) : Prop := t.todo = []

/-- The thread waits for something outside. -/
def awaits (t : Th) (e : Ext) : Prop := ∃ r, t.todo = .wait e :: r

/-- The thread is about to lock `m`. -/
def wants (t : Th) (m : Lk) : Prop := ∃ r, t.todo = .acq m :: r

/-- The thread is at the data that `m` guards. -/
def inside (t : Th) (m : Lk) : Prop := ∃ r, t.todo = .use m :: r

/-- The thread is at the data that `m` guards, without the mutex. -/
def bare (t : Th) (m : Lk) : Prop := ∃ r, t.todo = .raw m :: r

end Conman.Spec
