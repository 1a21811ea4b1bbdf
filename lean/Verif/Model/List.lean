import Verif.Spec.List

/-
The generic list with iterators, src/list.c, at the level of its pointers.

Memory: a node is an address (`Nat`); `data a = none` means that no node of this list is allocated at `a`, and reading or writing through such an
address is undefined behaviour, outcome `none`.  A `ListNode *` is a slot: `none` is `&l->head` and `some p` is `&p->next`.  The allocator
(`list_node_alloc`, src/list.c:657-676, `list_iterator_alloc`, :679-698) is not modelled: the address it returns is an argument (`none` if it
failed), about which only that it is not in use is assumed where needed.  The free lists are not modelled.  Items are values that stand for
non-NULL `void *`; a returned `none` is NULL.  The deletion function `fDel` is represented by the list of items it is called with.  `count` is an
unbounded integer.  Loops over the list have as fuel one more than `count`; running out of fuel is also `none`.  Mutexes are not modelled (conman
uses its lists from one thread).
-/
namespace Conman

/-- `struct listIterator`, src/list.c:75-83 (the list and the chain are represented by `CList.iters`). -/
structure Iter where
  pos : Option Nat
  prev : Option Nat
  deriving Repr, DecidableEq

/-- `struct list`, src/list.c:85-97, its nodes and its iterators (by handle, in the order of the chain `iNext`). -/
structure CList (α : Type) where
  head : Option Nat
  next : Nat → Option Nat
  data : Nat → Option α
  tail : Option Nat
  count : Int
  iters : List (Nat × Iter)

namespace CList
variable {α : Type}

/-- `list_create`, src/list.c:174-189. -/
def create : CList α := ⟨none, fun _ => none, fun _ => none, none, 0, []⟩

/-- `*pp`. -/
def get (s : CList α) : Option Nat → Option (Option Nat)
  | none => some s.head
  | some p => if (s.data p).isSome then some (s.next p) else none

/-- `*pp = v`. -/
def put (s : CList α) (pp : Option Nat) (v : Option Nat) : Option (CList α) :=
  match pp with
  | none => some { s with head := v }
  | some p => if (s.data p).isSome then some { s with next := fun q => if q = p then v else s.next q } else none

/-- `p->next` unless `p` is NULL, src/list.c:501-502. -/
def nextOf (s : CList α) : Option Nat → Option (Option Nat)
  | none => some none
  | some p => s.get (some p)

/-- `p ? p->data : NULL`, src/list.c:506. -/
def itemOf (s : CList α) : Option Nat → Option (Option α)
  | none => some none
  | some p => (s.data p).map some

/-- The update of an iterator in `list_node_create`, src/list.c:591-594. -/
def createIter (pp : Option Nat) (p : Nat) (nx : Option Nat) (i : Iter) : Iter :=
  if i.prev = pp then { i with prev := some p }
  else if i.pos = nx then { i with pos := some p }
  else i

/-- `list_node_create`, src/list.c:568-598; the result is false for NULL. -/
def nodeCreate (s : CList α) (pp : Option Nat) (x : α) : Option Nat → Option (CList α × Bool)
  | none => some (s, false)
  | some p =>
    (s.get pp).bind fun nx =>
      let s1 : CList α := { s with data := fun q => if q = p then some x else s.data q, next := fun q => if q = p then nx else s.next q }
      let s2 : CList α := if nx = none then { s1 with tail := some p } else s1
      (s2.put pp (some p)).map fun s3 =>
        ({ s3 with count := s3.count + 1, iters := s3.iters.map (fun e => (e.1, createIter pp p nx e.2)) }, true)

/-- The update of an iterator in `list_node_destroy`, src/list.c:624-627. -/
def destroyIter (p : Nat) (pp nx : Option Nat) (i : Iter) : Iter :=
  if i.pos = some p then { pos := nx, prev := pp }
  else if i.prev = some p then { i with prev := pp }
  else i

/-- `list_node_destroy`, src/list.c:601-632. -/
def nodeDestroy (s : CList α) (pp : Option Nat) : Option (CList α × Option α) :=
  (s.get pp).bind fun c =>
    match c with
    | none => some (s, none)
    | some p =>
      (s.data p).bind fun v =>
        let nx := s.next p
        (s.put pp nx).map fun s1 =>
          let s2 : CList α := if nx = none then { s1 with tail := pp } else s1
          ({ s2 with count := s2.count - 1, iters := s2.iters.map (fun e => (e.1, destroyIter p pp nx e.2)),
                     data := fun q => if q = p then none else s2.data q }, some v)

/-- `list_append`, src/list.c:249-260, and `list_enqueue`, :411-422. -/
def append (s : CList α) (x : α) (a : Option Nat) : Option (CList α × Bool) := s.nodeCreate s.tail x a

/-- `list_prepend`, src/list.c:263-274, and `list_push`, :371-382. -/
def prepend (s : CList α) (x : α) (a : Option Nat) : Option (CList α × Bool) := s.nodeCreate none x a

/-- `list_pop`, src/list.c:385-395, and `list_dequeue`, :425-435. -/
def pop (s : CList α) : Option (CList α × Option α) := s.nodeDestroy none

/-- `list_peek`, src/list.c:398-408. -/
def peek (s : CList α) : Option (Option α) := s.itemOf s.head

/-- The loop of `list_find_first`, src/list.c:287-292. -/
def findFrom (s : CList α) (f : α → Bool) : Nat → Option Nat → Option (Option α)
  | 0, _ => none
  | _ + 1, none => some none
  | n + 1, some p => (s.data p).bind fun v => if f v then some (some v) else findFrom s f n (s.next p)

/-- `list_find_first`, src/list.c:277-295. -/
def findFirst (s : CList α) (f : α → Bool) : Option (Option α) := s.findFrom f (s.count.toNat + 1) s.head

/-- The loop of `list_delete_all`, src/list.c:310-321; `acc` are the items deleted so far. -/
def deleteFrom (f : α → Bool) : Nat → CList α → Option Nat → List α → Option (CList α × List α)
  | 0, _, _, _ => none
  | n + 1, s, pp, acc =>
    (s.get pp).bind fun c =>
      match c with
      | none => some (s, acc)
      | some p =>
        (s.data p).bind fun v =>
          if f v then
            (s.nodeDestroy pp).bind fun r =>
              match r.2 with
              | some w => deleteFrom f n r.1 pp (acc ++ [w])
              | none => deleteFrom f n r.1 pp acc
          else deleteFrom f n s (some p) acc

/-- `list_delete_all`, src/list.c:298-324; the result is the list of the deleted items (C: their number). -/
def deleteAll (s : CList α) (f : α → Bool) : Option (CList α × List α) := deleteFrom f (s.count.toNat + 1) s none []

/-- `f((*pp)->data, (*qq)->data)`. -/
def cmpAt (s : CList α) (f : α → α → Int) (pp qq : Option Nat) : Option Int :=
  (s.get pp).bind fun a => a.bind fun a => (s.data a).bind fun x =>
    (s.get qq).bind fun b => b.bind fun b => (s.data b).map fun y => f x y

/-- `&(*pp)->next`. -/
def slotOf (s : CList α) (pp : Option Nat) : Option (Option Nat) := (s.get pp).bind fun a => a.map some

/-- The inner loop of `list_sort`, src/list.c:345-346. -/
def sortPos (s : CList α) (f : α → α → Int) (pp : Option Nat) : Nat → Option Nat → Option (Option Nat)
  | 0, _ => none
  | n + 1, pos => (s.cmpAt f pp pos).bind fun c => if c ≥ 0 then (s.slotOf pos).bind fun pos' => sortPos s f pp n pos' else some pos

/-- The relinking in `list_sort`, src/list.c:347-350: the node `*pp` moves to the slot `pos`. -/
def sortMove (s : CList α) (pp pos : Option Nat) : Option (CList α) :=
  (s.get pp).bind fun c => c.bind fun c => (s.get (some c)).bind fun tmp =>
    (s.get pos).bind fun d => (s.put (some c) d).bind fun s1 =>
      (s1.get pp).bind fun c' => (s1.put pos c').bind fun s2 => s2.put pp tmp

/-- The outer loop of `list_sort`, src/list.c:342-358: the list and the last `pp`. -/
def sortLoop (f : α → α → Int) : Nat → CList α → Option Nat → Option Nat → Option (CList α × Option Nat)
  | 0, _, _, _ => none
  | n + 1, s, prev, pp =>
    (s.get pp).bind fun c =>
      match c with
      | none => some (s, pp)
      | some _ =>
        (s.cmpAt f pp prev).bind fun r =>
          if r < 0 then
            (s.sortPos f pp (s.count.toNat + 1) none).bind fun pos =>
              (s.sortMove pp pos).bind fun s' =>
                if prev = pos then (s'.slotOf prev).bind fun prev' => sortLoop f n s' prev' pp
                else sortLoop f n s' prev pp
          else (s.slotOf pp).bind fun pp' => sortLoop f n s pp pp'

/-- `list_sort`, src/list.c:327-368. -/
def sort (s : CList α) (f : α → α → Int) : Option (CList α) :=
  if s.count > 1 then
    (s.slotOf none).bind fun pp =>
      (sortLoop f (s.count.toNat + 1) s none pp).map fun r =>
        { r.1 with tail := r.2, iters := r.1.iters.map (fun e => (e.1, { pos := r.1.head, prev := none })) }
  else some s

/-- The iterator with the handle `k`; a handle that was not created or was destroyed is undefined behaviour. -/
def iter (s : CList α) (k : Nat) : Option Iter := (s.iters.find? (fun e => e.1 == k)).map (·.2)

/-- Storing the fields of an iterator. -/
def setIter (s : CList α) (k : Nat) (i : Iter) : CList α := { s with iters := s.iters.map (fun e => if e.1 = k then (k, i) else e) }

/-- `list_iterator_create`, src/list.c:438-455, where `k` is the handle. -/
def iterCreate (s : CList α) (k : Nat) : CList α := { s with iters := (k, { pos := s.head, prev := none }) :: s.iters }

/-- `list_iterator_reset`, src/list.c:458-468. -/
def iterReset (s : CList α) (k : Nat) : Option (CList α) := (s.iter k).map fun _ => s.setIter k { pos := s.head, prev := none }

/-- `list_iterator_destroy`, src/list.c:471-490: the first entry of the chain that is the iterator is taken out. -/
def iterDestroy (s : CList α) (k : Nat) : Option (CList α) :=
  (s.iter k).map fun _ => { s with iters := s.iters.eraseP (fun e => e.1 == k) }

/-- `list_next`, src/list.c:493-507. -/
def nextItem (s : CList α) (k : Nat) : Option (CList α × Option α) :=
  (s.iter k).bind fun i =>
    (s.nextOf i.pos).bind fun pos' =>
    (s.get i.prev).bind fun c =>
    (if c = i.pos then some i.prev else c.map some).bind fun prev' =>
    (s.itemOf i.pos).map fun v =>
    (s.setIter k { pos := pos', prev := prev' }, v)

/-- `list_insert`, src/list.c:510-522. -/
def insert (s : CList α) (k : Nat) (x : α) (a : Option Nat) : Option (CList α × Bool) :=
  (s.iter k).bind fun i => s.nodeCreate i.prev x a

/-- The loop of `list_find`, src/list.c:533. -/
def findLoop (f : α → Bool) (k : Nat) : Nat → CList α → Option (CList α × Option α)
  | 0, _ => none
  | n + 1, s =>
    (s.nextItem k).bind fun r =>
      match r.2 with
      | none => some (r.1, none)
      | some v => if f v then some (r.1, some v) else findLoop f k n r.1

/-- `list_find`, src/list.c:525-535. -/
def findItem (s : CList α) (k : Nat) (f : α → Bool) : Option (CList α × Option α) := findLoop f k (s.count.toNat + 1) s

/-- `list_remove`, src/list.c:538-550. -/
def remove (s : CList α) (k : Nat) : Option (CList α × Option α) :=
  (s.iter k).bind fun i =>
    (s.get i.prev).bind fun c => if c = i.pos then some (s, none) else s.nodeDestroy i.prev

/-- The loop of `list_destroy` over the nodes, src/list.c:209-216: the items given to `fDel`. -/
def destroyFrom (s : CList α) : Nat → Option Nat → List α → Option (List α)
  | 0, _, _ => none
  | _ + 1, none, acc => some acc
  | n + 1, some p, acc => (s.data p).bind fun v => destroyFrom s n (s.next p) (acc ++ [v])

/-- `list_destroy`, src/list.c:191-220. -/
def destroy (s : CList α) : Option (List α) := s.destroyFrom (s.count.toNat + 1) s.head []

/-- Any of the operations. -/
def step (s : CList α) : Spec.LOp α → Option (CList α × Spec.LOut α)
  | .append x a => (s.append x a).map fun r => (r.1, .ok r.2)
  | .prepend x a => (s.prepend x a).map fun r => (r.1, .ok r.2)
  | .pop => s.pop.map fun r => (r.1, .item r.2)
  | .peek => s.peek.map fun v => (s, .item v)
  | .count => some (s, .num s.count)
  | .findFirst f => (s.findFirst f).map fun v => (s, .item v)
  | .deleteAll f => (s.deleteAll f).map fun r => (r.1, .items r.2)
  | .sort f => (s.sort f).map fun s' => (s', .unit)
  | .iterNew k => some (s.iterCreate k, .unit)
  | .iterReset k => (s.iterReset k).map fun s' => (s', .unit)
  | .iterDestroy k => (s.iterDestroy k).map fun s' => (s', .unit)
  | .next k => (s.nextItem k).map fun r => (r.1, .item r.2)
  | .insert k x a => (s.insert k x a).map fun r => (r.1, .ok r.2)
  | .find k f => (s.findItem k f).map fun r => (r.1, .item r.2)
  | .remove k => (s.remove k).map fun r => (r.1, .item r.2)

/-- What the caller and the allocator must see to: a new node is not in use, a new handle neither, and any other handle exists. -/
def allowed (s : CList α) : Spec.LOp α → Prop
  | .append _ a | .prepend _ a => ∀ p, a = some p → s.data p = none
  | .iterNew k => s.iter k = none
  | .iterReset k | .iterDestroy k | .next k | .find k _ | .remove k => (s.iter k).isSome
  | .insert k _ a => (s.iter k).isSome ∧ ∀ p, a = some p → s.data p = none
  | _ => True

end CList

end Conman
