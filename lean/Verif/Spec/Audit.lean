/-
What the log of the daemon says about sessions, independent of the model.
-/
namespace Conman.Spec

/-- Messages about clients: connected to a console, read-only or not; connected to `n` consoles; disconnected. -/
inductive Audit where
  | readOnly (c con : Nat) | readWrite (c con : Nat) | broadcast (c n : Nat) | gone (c : Nat)
deriving Repr, DecidableEq

/-- The client a message is about. -/
def Audit.who : Audit → Nat
  | .readOnly c _ | .readWrite c _ | .broadcast c _ | .gone c => c

/-- The message tells the end of a session. -/
def Audit.ends : Audit → Bool
  | .gone _ => true
  | _ => false

/-- The last message about a client. -/
def lastOf (c : Nat) (log : List Audit) : Option Audit := log.reverse.find? (fun a => a.who = c)

/-- By the log the client is connected. -/
def OnRecord (c : Nat) (log : List Audit) : Prop := ∃ a, lastOf c log = some a ∧ a.ends = false

/-- Sessions begin and end in turn: the end of a session is told exactly of clients that are on record as connected. -/
def Regular (log : List Audit) : Prop := ∀ l a r, log = l ++ a :: r → (a.ends = true ↔ OnRecord a.who l)

/-- What a client is linked to is what is on record: it writes to the consoles `to` and reads from the consoles `fr`. -/
def Covers (to fr : List Nat) : Audit → Prop
  | .readOnly _ con | .readWrite _ con => (∀ x ∈ to, x = con) ∧ ∀ x ∈ fr, x = con
  | .broadcast _ n => to.length ≤ n ∧ fr = []
  | .gone _ => False

/-- By the log the client has a read-only session. -/
def OnRecordReadOnly (c : Nat) (log : List Audit) : Prop := ∃ con, lastOf c log = some (.readOnly c con)

end Conman.Spec
