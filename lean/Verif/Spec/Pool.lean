import Verif.Model.Pool

/-! Lists of a process, each a sequence of its own. -/
namespace Conman.Spec
open Conman
variable {α : Type}

/-- The lists there are, by address. -/
abbrev Lists (α : Type) := List (Nat × Seq α)

def Lists.at (v : Lists α) (l : Nat) : Option (Seq α) := (v.find? fun e => e.1 == l).map (·.2)

def Lists.put (v : Lists α) (l : Nat) (q : Seq α) : Lists α := (l, q) :: v.filter fun e => e.1 ≠ l

/-- The number of items in all lists. -/
def Lists.total (v : Lists α) : Nat := (v.map fun e => e.2.items.length).sum

/-- Whether an iterator exists, of any list. -/
def Lists.hasIter (v : Lists α) (k : Nat) : Prop := ∃ e ∈ v, k ∈ e.2.curs.map (·.1)

/-- The iterator that an operation uses. -/
def usesIter : LOp α → Option Nat
  | .iterReset k => some k
  | .iterDestroy k => some k
  | .next k => some k
  | .insert k _ _ => some k
  | .find k _ => some k
  | .remove k => some k
  | _ => none

/-- What a caller must see to: lists and iterators that it uses exist, and the iterator is one of the list. -/
def LegalCall (v : Lists α) : LCall α → Prop
  | .create _ => True
  | .destroy l => (v.at l).isSome
  | .op l o _ => ∃ q, v.at l = some q ∧ ∀ k, usesIter o = some k → k ∈ q.curs.map (·.1)

/-- Operations other than the creation of an iterator. -/
def ordinary : LOp α → Bool
  | .iterNew _ => false
  | _ => true

/-- What a call does, given what it answered: every operation acts on its list alone; new lists and iterators have addresses that are not in use; appending and inserting does that or, if
`malloc` was asked and had no memory, nothing. -/
inductive Explains : Lists α → LCall α → LRes α → Lists α → Prop
  | noList {v : Lists α} : Explains v (.create none) (.made none) v
  | newList {v : Lists α} {m : Option Nat} {l : Nat} : v.at l = none → Explains v (.create m) (.made (some l)) ((l, ⟨[], []⟩) :: v)
  | gone {v : Lists α} {l : Nat} {q : Seq α} : v.at l = some q → Explains v (.destroy l) (.gone q.items) (v.filter fun e => e.1 ≠ l)
  | noIter {v : Lists α} {l k : Nat} : Explains v (.op l (.iterNew k) none) (.made none) v
  | newIter {v : Lists α} {l k k' : Nat} {m : Option Nat} {q : Seq α} : v.at l = some q → ¬ v.hasIter k → Explains v (.op l (.iterNew k') m) (.made (some k)) (v.put l (q.step (.iterNew k)).1)
  | did {v : Lists α} {l : Nat} {o : LOp α} {m a : Option Nat} {q : Seq α} : ordinary o = true → v.at l = some q → (a = none → takesNode o = true → m = none) →
      Explains v (.op l o m) (.did (q.step (withNode o a)).2) (v.put l (q.step (withNode o a)).1)

/-- `malloc` gives memory that it has not given before.  (Blocks are never handed back.) -/
def FreshBlocks (t : ListSys α) : LCall α → Prop
  | .create m => ∀ b, m = some b → b ∉ t.ls.blocks
  | .destroy _ => True
  | .op _ o m => ∀ b, m = some b → if takesNode o then b ∉ t.ns.blocks else b ∉ t.is.blocks

/-- The items that a stock still holds: what can be reached from the first free one. -/
inductive IsFree (p : Pool) : Nat → Prop
  | first {a : Nat} : p.free = some a → IsFree p a
  | next {a b : Nat} : IsFree p a → p.link a = some b → IsFree p b

/-- A history of calls from the start of the process: the state, what the lists hold, and the largest number of items there were at any time. -/
inductive LReach : ListSys α → Lists α → Nat → Prop
  | start : LReach {} [] 0
  | call {t t' : ListSys α} {v v' : Lists α} {n : Nat} {c : LCall α} {r : LRes α} : LReach t v n → LegalCall v c → FreshBlocks t c → t.step c = some (t', r) → Explains v c r v' →
      LReach t' v' (max n v'.total)

end Conman.Spec
