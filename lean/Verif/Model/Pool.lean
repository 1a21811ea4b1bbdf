import Verif.Model.List

/-
The memory of lists, src/list.c:635-726: lists, nodes and iterators are taken from three stocks, each of which gets blocks of ten from `malloc` and never gives one back.  Every list of the
daemon - objects, readers, writers, consoles of a request, watched files - takes from them.

* Memory of one stock: the item `i` of the block `b` has the address `10 * b + i`.  What `malloc` answers is an argument: the number of a block, or `none` if there is no memory.
* A list is a `CList`, whose `data` and `next` are those of its own nodes; to use any other node is undefined (`none`) there.  So no list writes to a node of another one or to a free one, and
  keeping the pointers `next` of each list apart is the same as having one memory.
* The locks of the stocks (`freeListsLock` and so on) make a call that takes or gives back one step; calls on one list are serialised by its own lock (C89).
-/
namespace Conman

/-- A stock: first free item (`freeLists`, `freeListNodes`, `freeListIterators`, src/list.c:119-121), the pointers that chain the free items, and the blocks that `malloc` gave. -/
structure Pool where
  free : Option Nat := none
  link : Nat → Option Nat := fun _ => none
  blocks : List Nat := []

/-- The pointers in a new block, src/list.c:666-669: `LIST_ALLOC` is 10, src/list.c:62. -/
def Pool.chainBlock (p : Pool) (b : Nat) : Nat → Option Nat := fun a => if a / 10 = b then (if a < 10 * b + 9 then some (a + 1) else none) else p.link a

/-- `list_node_alloc`, src/list.c:657-676, and in the same way `list_alloc`, :635-654, and `list_iterator_alloc`, :679-698; `m` is the answer of `malloc`. -/
def Pool.alloc (p : Pool) (m : Option Nat) : Pool × Option Nat :=
  let p1 : Pool := if p.free = none then
      match m with
      | none => p
      | some b => { free := some (10 * b), link := p.chainBlock b, blocks := b :: p.blocks }
    else p
  match p1.free with
  | none => (p1, none)
  | some a => ({ p1 with free := p1.link a }, some a)

/-- `list_node_free`, src/list.c:711-718, and in the same way `list_free`, :701-708, and `list_iterator_free`, :721-728. -/
def Pool.release (p : Pool) (a : Nat) : Pool := { p with free := some a, link := fun x => if x = a then p.free else p.link x }

def Pool.releaseAll (p : Pool) (l : List Nat) : Pool := l.foldl Pool.release p

/-- All lists of a process and the stocks. -/
structure ListSys (α : Type) where
  lists : List (Nat × CList α) := []
  ls : Pool := {}
  ns : Pool := {}
  is : Pool := {}

variable {α : Type}

/-- The nodes of a list, from the head on. -/
def CList.nodesFrom (s : CList α) : Nat → Option Nat → List Nat
  | 0, _ => []
  | _ + 1, none => []
  | n + 1, some p => p :: nodesFrom s n (s.next p)

def CList.nodes (s : CList α) : List Nat := s.nodesFrom s.count.toNat s.head

/-- Calls; the addresses within `o` are not used, they come from the stocks. -/
inductive LCall (α : Type)
  | create (m : Option Nat)
  | destroy (l : Nat)
  | op (l : Nat) (o : Spec.LOp α) (m : Option Nat)

/-- Results: a new list or iterator (`none` is NULL), the result of an operation, the items handed to `fDel` by `list_destroy`. -/
inductive LRes (α : Type)
  | made (a : Option Nat)
  | did (out : Spec.LOut α)
  | gone (l : List α)
deriving DecidableEq

/-- The list at an address; any other address is undefined. -/
def ListSys.at (t : ListSys α) (l : Nat) : Option (CList α) := (t.lists.find? fun e => e.1 == l).map (·.2)

def ListSys.put (t : ListSys α) (l : Nat) (s : CList α) : List (Nat × CList α) := (l, s) :: t.lists.filter fun e => e.1 ≠ l

/-- `list_append`, `list_prepend`, `list_insert` with the node `a`. -/
def withNode (o : Spec.LOp α) (a : Option Nat) : Spec.LOp α := match o with
  | .append x _ => .append x a
  | .prepend x _ => .prepend x a
  | .insert k x _ => .insert k x a
  | o => o

/-- Operations that take a node from the stock, in `list_node_create`, src/list.c:582. -/
def takesNode : Spec.LOp α → Bool
  | .append _ _ => true
  | .prepend _ _ => true
  | .insert _ _ _ => true
  | _ => false

/-- The nodes that an operation gives back, in `list_node_destroy`, src/list.c:630. -/
def freedNodes (s s' : CList α) : List Nat := s.nodes.filter fun a => (s'.data a).isNone

/-- The iterator that an operation gives back, src/list.c:488. -/
def freedIters : Spec.LOp α → List Nat
  | .iterDestroy k => [k]
  | _ => []

/-- One call.  `list_iterator_create` is src/list.c:438-455, `list_destroy` :191-220. -/
def ListSys.step (t : ListSys α) : LCall α → Option (ListSys α × LRes α)
  | .create m =>
    let r := t.ls.alloc m
    match r.2 with
    | none => some ({ t with ls := r.1 }, .made none)
    | some l => some ({ t with ls := r.1, lists := (l, CList.create) :: t.lists }, .made (some l))
  | .destroy l => (t.at l).bind fun s => s.destroy.map fun items =>
      ({ lists := t.lists.filter (fun e => e.1 ≠ l), ls := t.ls.release l, ns := t.ns.releaseAll s.nodes, is := t.is.releaseAll (s.iters.map (·.1)) }, .gone items)
  | .op l (.iterNew _) m => (t.at l).bind fun s =>
      let r := t.is.alloc m
      match r.2 with
      | none => some ({ t with is := r.1 }, .made none)
      | some k => (s.step (.iterNew k)).map fun x => ({ t with is := r.1, lists := t.put l x.1 }, .made (some k))
  | .op l o m => (t.at l).bind fun s =>
      let r := if takesNode o then t.ns.alloc m else (t.ns, none)
      (s.step (withNode o r.2)).map fun x =>
        ({ t with lists := t.put l x.1, ns := r.1.releaseAll (freedNodes s x.1), is := t.is.releaseAll (freedIters o) }, .did x.2)

end Conman
