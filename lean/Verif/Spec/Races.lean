/-
  Sessions that are set up and closed by several threads at once.  (C90)
-/
namespace Conman.Spec

/-- Kinds of objects. -/
inductive RcK where
  | client
  | console
  | log
deriving DecidableEq, Repr

/-- An object: what data read from it goes to (`rd`), and what data written to it
    comes from (`wr`).  `live`: its memory has not been given back.  `used`: it
    was allocated once.  `pub`: the main thread knows it. -/
structure RcObj where
  kind : RcK
  used : Bool
  live : Bool
  pub : Bool
  rd : List Nat
  wr : List Nat
deriving DecidableEq, Repr

/-- All objects. -/
abbrev RcStore := Nat → RcObj

/-- The data of `a` goes to `b`, as both of them know. -/
def rcLinked (σ : RcStore) (a b : Nat) : Prop := b ∈ (σ a).rd ∧ a ∈ (σ b).wr

/-- Whatever one end of a connection knows, the other knows as well. -/
def rcSym (σ : RcStore) : Prop := ∀ a b, b ∈ (σ a).rd ↔ a ∈ (σ b).wr

/-- No object refers to memory that was given back. -/
def rcTidy (σ : RcStore) : Prop :=
  ∀ a, (∀ b ∈ (σ a).rd, (σ b).live = true) ∧ (∀ b ∈ (σ a).wr, (σ b).live = true)

/-- Which kinds can be connected. -/
def rcFits (σ : RcStore) (a b : Nat) : Prop :=
  ((σ a).kind = .client ∧ (σ b).kind = .console) ∨
  ((σ a).kind = .console ∧ (σ b).kind = .client) ∨
  ((σ a).kind = .console ∧ (σ b).kind = .log)

/-- The objects of a daemon without clients. -/
structure RcStart (σ : RcStore) : Prop where
  sym : rcSym σ
  fits : ∀ a b, b ∈ (σ a).rd → rcFits σ a b ∧ (σ a).live = true ∧ (σ b).live = true
  noClients : ∀ a, (σ a).kind = .client → (σ a).used = false
  live : ∀ a, (σ a).live = true → (σ a).used = true
  pub : ∀ a, (σ a).pub = true → (σ a).live = true

/-- A request for a session of the client `c` with consoles. -/
inductive RcReq where
  /-- to read and write one console, or to write to several -/
  | connect (c : Nat) (os : List Nat) (force join : Bool)
  /-- to read one console -/
  | monitor (c o : Nat)
deriving DecidableEq, Repr

/-- The client of a request. -/
def RcReq.client : RcReq → Nat
  | .connect c _ _ _ => c
  | .monitor c _ => c

/-- Its consoles. -/
def RcReq.consoles : RcReq → List Nat
  | .connect _ os _ _ => os
  | .monitor _ o => [o]

/-- It takes consoles away from other clients. -/
def RcReq.forced : RcReq → Bool
  | .connect _ _ f _ => f
  | .monitor _ _ => false

/-- It is for several consoles. -/
def RcReq.broad : RcReq → Bool
  | .connect _ [_] _ _ => false
  | .connect _ _ _ _ => true
  | .monitor _ _ => false

/-- The connections that a request asks for. -/
def RcReq.pairs : RcReq → List (Nat × Nat)
  | .connect c [o] _ _ => [(c, o), (o, c)]
  | .connect c os _ _ => os.map fun o => (c, o)
  | .monitor c o => [(o, c)]

/-- A request can come: the client is new, the consoles are consoles of the
    daemon, each named once. -/
def rcPossible (σ : RcStore) (r : RcReq) : Prop :=
  (σ r.client).kind = .client ∧ (σ r.client).used = false ∧
  r.consoles ≠ [] ∧ r.consoles.Nodup ∧
  ∀ o ∈ r.consoles, (σ o).kind = .console ∧ (σ o).live = true

instance (σ : RcStore) (r : RcReq) : Decidable (rcPossible σ r) := by
  unfold rcPossible; infer_instance

/-- What the main thread does with an object. -/
inductive RcAct where
  /-- data was read from it and goes to its readers -/
  | feed (x : Nat)
  /-- its readers and writers get a notice -/
  | notice (o : Nat)
  /-- a client is closed: it hung up, or there was an error, or it has been
      unlinked from all consoles -/
  | close (c : Nat)
  /-- a client asks to be read-only or not any more (`force`: as it first asked
      for its session) -/
  | toggle (c : Nat) (force : Bool)
deriving DecidableEq, Repr

/-- What happens. -/
inductive RcEv where
  /-- a thread for a request starts; each of the consoles is found to be down, or
      not, and causes so many notices -/
  | start (r : RcReq) (down : Nat → Nat)
  /-- the main thread, if it has nothing left to do, does something -/
  | act (a : RcAct)
  /-- the main thread goes on -/
  | main
  /-- the thread of number `i` goes on -/
  | run (i : Nat)

/-- The event keeps apart what the daemon does not keep apart itself, when the
    requests `rs` are being served and the main thread is closing a client or
    not: the closing of clients (and the change between read-only and
    read-write) from serving requests, and forced requests from requests for
    several consoles. -/
def rcCalm (rs : List RcReq) (closing : Bool) : RcEv → Prop
  | .start r _ => closing = false ∧
      ∀ q ∈ rs, ¬ (r.broad = true ∧ q.forced = true) ∧ ¬ (q.broad = true ∧ r.forced = true)
  | .act (.close _) => rs = []
  | .act (.toggle _ _) => False
  | _ => True

/-- The event is no forced request. -/
def rcMild : RcEv → Prop
  | .start r _ => r.forced = false
  | _ => True

end Conman.Spec
