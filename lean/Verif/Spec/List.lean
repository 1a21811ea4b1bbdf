/-
What a list with iterators is: a sequence of items, and for each iterator a position in it.
-/
namespace Conman.Spec

/-- An iterator: how many items are before its position, and whether the item just before it is the one it returned last. -/
structure Cursor where
  passed : Nat
  last : Bool
  deriving Repr, DecidableEq

/-- Where insertion and removal through an iterator happen: at the item returned last, if it has one. -/
def Cursor.slot (c : Cursor) : Nat := if c.last then c.passed - 1 else c.passed

/-- The position of an iterator after an insertion at index `j`: an item inserted at or before its slot is behind it, any other is yet to come. -/
def Cursor.inserted (j : Nat) (c : Cursor) : Cursor := if j ≤ c.slot then { c with passed := c.passed + 1 } else c

/-- The position of an iterator after the removal of the item at index `j`.  If that was the item returned last or the next one, there is no item
returned last any more. -/
def Cursor.removed (j : Nat) (c : Cursor) : Cursor :=
  if j < c.slot then { c with passed := c.passed - 1 }
  else if j < c.passed then { passed := c.passed - 1, last := false }
  else if j = c.passed then { c with last := false }
  else c

/-- A list with its iterators (by handle). -/
structure Seq (α : Type) where
  items : List α
  curs : List (Nat × Cursor)

namespace Seq
variable {α : Type}

def map (q : Seq α) (f : Cursor → Cursor) : List (Nat × Cursor) := q.curs.map (fun e => (e.1, f e.2))

def insertAt (q : Seq α) (j : Nat) (x : α) : Seq α := ⟨q.items.insertIdx j x, q.map (Cursor.inserted j)⟩

def removeAt (q : Seq α) (j : Nat) : Seq α := ⟨q.items.eraseIdx j, q.map (Cursor.removed j)⟩

/-- Removal of all items that satisfy `f`, from index `j` on. -/
def removeAll (f : α → Bool) : Nat → Seq α → Nat → Seq α
  | 0, q, _ => q
  | n + 1, q, j =>
    match q.items[j]? with
    | none => q
    | some v => if f v then removeAll f n (q.removeAt j) j else removeAll f n q (j + 1)

/-- The iterator `k`. -/
def cur (q : Seq α) (k : Nat) : Cursor := ((q.curs.find? (fun e => e.1 == k)).map (·.2)).getD ⟨0, false⟩

def setCur (q : Seq α) (k : Nat) (c : Cursor) : Seq α := { q with curs := q.curs.map (fun e => if e.1 = k then (k, c) else e) }

/-- What is yet to come for the iterator `k`. -/
def todo (q : Seq α) (k : Nat) : List α := q.items.drop (q.cur k).passed

/-- The iterator `k` goes on by one item. -/
def next (q : Seq α) (k : Nat) : Seq α × Option α :=
  let c := q.cur k
  match q.items[c.passed]? with
  | none => (q.setCur k { c with last := false }, none)
  | some v => (q.setCur k ⟨c.passed + 1, true⟩, some v)

/-- The iterator `k` goes on to the first item that satisfies `f`, or to the end. -/
def find (f : α → Bool) (k : Nat) : Nat → Seq α → Seq α × Option α
  | 0, q => (q, none)
  | n + 1, q =>
    let r := q.next k
    match r.2 with
    | none => (r.1, none)
    | some v => if f v then (r.1, some v) else find f k n r.1

/-- Removal of the item returned last. -/
def remove (q : Seq α) (k : Nat) : Seq α × Option α :=
  let c := q.cur k
  if c.last then (q.removeAt c.slot, q.items[c.slot]?) else (q, none)

/-- Insertion of `x` before the first item that is greater. -/
def insertSorted (f : α → α → Int) (x : α) : List α → List α
  | [] => [x]
  | y :: l => if f x y < 0 then x :: y :: l else y :: insertSorted f x l

/-- Where the next item goes: it stays behind the items that are sorted already unless it is smaller than the last of them. -/
def place (f : α → α → Int) (l : List α) (x : α) : List α :=
  match l.getLast? with
  | none => [x]
  | some y => if f x y < 0 then insertSorted f x l else l ++ [x]

/-- Sorting by insertion from left to right. -/
def sorted (f : α → α → Int) (l : List α) : List α := l.foldl (place f) []

end Seq

/-- The operations on a list.  `a` is the address that the allocator returns for a new node, `none` if there is no memory. -/
inductive LOp (α : Type) where
  | append (x : α) (a : Option Nat)
  | prepend (x : α) (a : Option Nat)
  | pop
  | peek
  | count
  | findFirst (f : α → Bool)
  | deleteAll (f : α → Bool)
  | sort (f : α → α → Int)
  | iterNew (k : Nat)
  | iterReset (k : Nat)
  | iterDestroy (k : Nat)
  | next (k : Nat)
  | insert (k : Nat) (x : α) (a : Option Nat)
  | find (k : Nat) (f : α → Bool)
  | remove (k : Nat)

/-- Their results. -/
inductive LOut (α : Type) where
  | unit
  | item (v : Option α)
  | ok (b : Bool)
  | num (n : Int)
  | items (l : List α)
  deriving Repr, DecidableEq

/-- What the operations do. -/
def Seq.step {α : Type} (q : Seq α) : LOp α → Seq α × LOut α
  | .append x a => if a.isSome then (q.insertAt q.items.length x, .ok true) else (q, .ok false)
  | .prepend x a => if a.isSome then (q.insertAt 0 x, .ok true) else (q, .ok false)
  | .pop => (q.removeAt 0, .item q.items.head?)
  | .peek => (q, .item q.items.head?)
  | .count => (q, .num q.items.length)
  | .findFirst f => (q, .item (q.items.find? f))
  | .deleteAll f => (Seq.removeAll f q.items.length q 0, .items (q.items.filter f))
  | .sort f => (if q.items.length > 1 then ⟨Seq.sorted f q.items, q.map (fun _ => ⟨0, false⟩)⟩ else q, .unit)
  | .iterNew k => ({ q with curs := (k, ⟨0, false⟩) :: q.curs }, .unit)
  | .iterReset k => (q.setCur k ⟨0, false⟩, .unit)
  | .iterDestroy k => ({ q with curs := q.curs.filter (fun e => e.1 ≠ k) }, .unit)
  | .next k => ((q.next k).1, .item (q.next k).2)
  | .insert k x a => if a.isSome then (q.insertAt (q.cur k).slot x, .ok true) else (q, .ok false)
  | .find k f => ((Seq.find f k (q.items.length + 1) q).1, .item (Seq.find f k (q.items.length + 1) q).2)
  | .remove k => ((q.remove k).1, .item (q.remove k).2)

/-- The items an operation adds. -/
def LOp.adds {α : Type} : LOp α → List α
  | .append x _ | .prepend x _ | .insert _ x _ => [x]
  | _ => []

/-- The items an operation takes out of the list. -/
def Seq.takes {α : Type} (q : Seq α) : LOp α → List α
  | .pop => q.items.take 1
  | .deleteAll f => q.items.filter f
  | .remove k => (q.remove k).2.toList
  | _ => []

/-- The items that the iterator `k` goes over in an operation. -/
def Seq.passes {α : Type} (q : Seq α) (k : Nat) : LOp α → List α
  | .next k' => if k' = k then (q.todo k).take 1 else []
  | .find k' f =>
    if k' = k then
      if (q.todo k).find? f = none then q.todo k else (q.todo k).takeWhile (fun v => !f v) ++ ((q.todo k).find? f).toList
    else []
  | _ => []

/-- Operations that put the iterator `k` elsewhere or end it. -/
def LOp.moves {α : Type} (k : Nat) : LOp α → Prop
  | .sort _ => True
  | .iterNew k' | .iterReset k' | .iterDestroy k' => k' = k
  | _ => False

/-- The item that the iterator `k` returned last, if it remembers it. -/
def Seq.lastItem {α : Type} (q : Seq α) (k : Nat) : Option α := if (q.cur k).last then q.items[(q.cur k).slot]? else none

end Conman.Spec
