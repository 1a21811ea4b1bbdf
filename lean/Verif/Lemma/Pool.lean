import Verif.Spec.Pool
import Verif.Lemma.ListStep
import Mathlib.Data.List.Perm.Subperm

/-! The stocks of lists, nodes and iterators. -/
namespace Conman
open Spec
variable {α : Type}

/-! ### One stock -/

/-- The chain of free items. -/
def PChain (link : Nat → Option Nat) : Option Nat → List Nat → Prop
  | st, [] => st = none
  | st, a :: L => st = some a ∧ PChain link (link a) L

/-- The addresses of a block. -/
def blockAddrs (b : Nat) : List Nat := [10 * b, 10 * b + 1, 10 * b + 2, 10 * b + 3, 10 * b + 4, 10 * b + 5, 10 * b + 6, 10 * b + 7, 10 * b + 8, 10 * b + 9]

theorem mem_blockAddrs {a b : Nat} : a ∈ blockAddrs b ↔ a / 10 = b := by
  simp only [blockAddrs, List.mem_cons, List.not_mem_nil, or_false]
  omega

/-- What is in use is what is in the blocks and not free. -/
structure PoolInv (p : Pool) (used L : List Nat) : Prop where
  chain : PChain p.link p.free L
  perm : (L ++ used).Perm (p.blocks.flatMap blockAddrs)
  fresh : p.blocks.Nodup

theorem blocks_nodup : ∀ {bs : List Nat}, bs.Nodup → (bs.flatMap blockAddrs).Nodup := by
  intro bs
  induction bs with
  | nil => intro _; exact List.nodup_nil
  | cons b bs ih =>
    intro h
    rw [List.nodup_cons] at h
    rw [List.flatMap_cons, List.nodup_append]
    refine ⟨?_, ih h.2, ?_⟩
    · simp only [blockAddrs, List.nodup_cons, List.mem_cons, List.not_mem_nil, or_false, not_false_eq_true, List.nodup_nil, and_true]
      omega
    · intro x hx y hy e
      subst e
      rw [mem_blockAddrs] at hx
      rw [List.mem_flatMap] at hy
      obtain ⟨c, hc, hy⟩ := hy
      rw [mem_blockAddrs] at hy
      exact h.1 (by rw [← hx, hy]; exact hc)

theorem PoolInv.nodup {p : Pool} {used L : List Nat} (h : PoolInv p used L) : (L ++ used).Nodup := h.perm.nodup_iff.2 (blocks_nodup h.fresh)

theorem PoolInv.usedNodup {p : Pool} {used L : List Nat} (h : PoolInv p used L) : used.Nodup := (List.nodup_append.1 h.nodup).2.1

theorem blocks_length : ∀ bs : List Nat, (bs.flatMap blockAddrs).length = 10 * bs.length := by
  intro bs
  induction bs with
  | nil => rfl
  | cons b bs ih => rw [List.flatMap_cons, List.length_append, ih, List.length_cons]; show 10 + _ = _; omega

/-- Nothing is lost. -/
theorem PoolInv.size {p : Pool} {used L : List Nat} (h : PoolInv p used L) : L.length + used.length = 10 * p.blocks.length := by
  rw [← blocks_length, ← h.perm.length_eq, List.length_append]

theorem PoolInv.congr {p : Pool} {used used' L : List Nat} (h : PoolInv p used L) (e : used.Perm used') : PoolInv p used' L :=
  ⟨h.chain, (List.Perm.append_left L e.symm).trans h.perm, h.fresh⟩

theorem pchain_congr {f g : Nat → Option Nat} : ∀ {L : List Nat} {st : Option Nat}, (∀ a, a ∈ L → f a = g a) → PChain f st L → PChain g st L := by
  intro L
  induction L with
  | nil => intro st _ h; exact h
  | cons a L ih =>
    intro st h hc
    obtain ⟨h1, h2⟩ := hc
    refine ⟨h1, ?_⟩
    rw [← h a (by simp)]
    exact ih (fun b hb => h b (by simp [hb])) h2

theorem chain_block (p : Pool) (b : Nat) : PChain (p.chainBlock b) (some (10 * b)) (blockAddrs b) := by
  have s : ∀ i, i < 9 → p.chainBlock b (10 * b + i) = some (10 * b + i + 1) := by
    intro i hi
    unfold Pool.chainBlock
    rw [if_pos (by omega), if_pos (by omega)]
  have e : p.chainBlock b (10 * b + 9) = none := by
    unfold Pool.chainBlock
    rw [if_pos (by omega), if_neg (by omega)]
  exact ⟨rfl, s 0 (by omega), s 1 (by omega), s 2 (by omega), s 3 (by omega), s 4 (by omega), s 5 (by omega), s 6 (by omega), s 7 (by omega), s 8 (by omega), e⟩

/-- Taking an item whose chain is not empty. -/
theorem PoolInv.take {p : Pool} {used L : List Nat} {a : Nat} (h : PoolInv p used (a :: L)) : p.free = some a ∧ PoolInv { p with free := p.link a } (a :: used) L ∧ a ∉ used := by
  refine ⟨h.chain.1, ⟨h.chain.2, ?_, h.fresh⟩, ?_⟩
  · exact List.perm_middle.trans h.perm
  · have := h.nodup
    rw [List.cons_append, List.nodup_cons] at this
    exact fun hu => this.1 (List.mem_append_right _ hu)

theorem alloc_inv {p : Pool} {used L : List Nat} (h : PoolInv p used L) (m : Option Nat) (hm : ∀ b, m = some b → b ∉ p.blocks) :
    (∃ a L', (p.alloc m).2 = some a ∧ a ∉ used ∧ PoolInv (p.alloc m).1 (a :: used) L' ∧
      ((p.alloc m).1.blocks = p.blocks ∨ ((p.alloc m).1.blocks.length = p.blocks.length + 1 ∧ used.length = 10 * p.blocks.length))) ∨
    (p.alloc m = (p, none) ∧ m = none) := by
  cases L with
  | cons a L =>
    left
    obtain ⟨h1, h2, h3⟩ := h.take
    have e : p.alloc m = ({ p with free := p.link a }, some a) := by
      unfold Pool.alloc
      rw [if_neg (by rw [h1]; simp)]
      dsimp only
      rw [h1]
    rw [e]
    exact ⟨a, L, rfl, h3, h2, .inl rfl⟩
  | nil =>
    have h1 : p.free = none := h.chain
    cases m with
    | none =>
      right
      refine ⟨?_, rfl⟩
      unfold Pool.alloc
      rw [if_pos h1]
      dsimp only
      rw [h1]
    | some b =>
      left
      have h2 : PoolInv { free := some (10 * b), link := p.chainBlock b, blocks := b :: p.blocks } used (10 * b :: (blockAddrs b).tail) := by
        refine ⟨chain_block p b, ?_, List.nodup_cons.2 ⟨hm b rfl, h.fresh⟩⟩
        rw [List.flatMap_cons]
        exact List.Perm.append_left (blockAddrs b) h.perm
      obtain ⟨k1, k2, k3⟩ := h2.take
      have e : p.alloc (some b) = ({ free := p.chainBlock b (10 * b), link := p.chainBlock b, blocks := b :: p.blocks }, some (10 * b)) := by
        unfold Pool.alloc
        rw [if_pos h1]
      rw [e]
      refine ⟨10 * b, _, rfl, k3, k2, .inr ⟨rfl, ?_⟩⟩
      have := h.size
      rw [List.length_nil, Nat.zero_add] at this
      exact this

theorem release_inv {p : Pool} {used L : List Nat} {a : Nat} (h : PoolInv p (a :: used) L) : PoolInv (p.release a) used (a :: L) := by
  refine ⟨⟨rfl, ?_⟩, List.perm_middle.symm.trans h.perm, h.fresh⟩
  have hn := h.nodup
  have ha : a ∉ L := fun hl => (List.nodup_append.1 hn).2.2 a hl a (by simp) rfl
  have e : (p.release a).link a = p.free := if_pos rfl
  rw [e]
  refine pchain_congr (fun b hb => ?_) h.chain
  have hne : b ≠ a := by rintro rfl; exact ha hb
  exact (if_neg hne).symm

theorem releaseAll_inv (l : List Nat) : ∀ {p : Pool} {used L : List Nat}, PoolInv p (l ++ used) L → ∃ L', PoolInv (p.releaseAll l) used L' := by
  induction l with
  | nil => intro p used L h; exact ⟨L, h⟩
  | cons a l ih => intro p used L h; exact ih (release_inv h)

theorem releaseAll_blocks (l : List Nat) : ∀ p : Pool, (p.releaseAll l).blocks = p.blocks := by
  induction l with
  | nil => intro p; rfl
  | cons a l ih => intro p; exact ih (p.release a)

/-! ### Nodes of a list -/

namespace CList

/-- A node of the list. -/
def Dom (s : CList α) (a : Nat) : Prop := (s.data a).isSome = true

/-- Nodes that come and go. -/
structure Ch (s s' : CList α) (new F : List Nat) : Prop where
  nod : F.Nodup
  sub : ∀ a, a ∈ F → s.Dom a
  dom : ∀ a, s'.Dom a ↔ (s.Dom a ∧ a ∉ F) ∨ a ∈ new
  cnt : s'.count = s.count + new.length - F.length

theorem Ch.same {s s' : CList α} (h : s'.data = s.data) (hc : s'.count = s.count) : Ch s s' [] [] := by
  refine ⟨List.nodup_nil, fun a h => (nomatch h), fun a => ?_, by rw [hc]; simp⟩
  unfold Dom; rw [h]; simp

theorem put_same {s s' : CList α} {pp v : Option Nat} (h : s.put pp v = some s') : s'.data = s.data ∧ s'.count = s.count := by
  unfold put at h
  cases pp with
  | none => cases h; exact ⟨rfl, rfl⟩
  | some p =>
    dsimp only at h
    split at h
    · cases h; exact ⟨rfl, rfl⟩
    · cases h

theorem nodeCreate_ch {s s' : CList α} {pp a : Option Nat} {x : α} {b : Bool} (h : s.nodeCreate pp x a = some (s', b)) : Ch s s' a.toList [] := by
  unfold nodeCreate at h
  cases a with
  | none => cases h; exact Ch.same rfl rfl
  | some p =>
    dsimp only at h
    rw [Option.bind_eq_some_iff] at h
    obtain ⟨nx, _, h⟩ := h
    rw [Option.map_eq_some_iff] at h
    obtain ⟨s3, h3, h⟩ := h
    cases h
    obtain ⟨d, c⟩ := put_same h3
    have d' : s3.data = fun q => if q = p then some x else s.data q := by rw [d]; split <;> rfl
    have c' : s3.count = s.count := by rw [c]; split <;> rfl
    refine ⟨List.nodup_nil, fun a h => (nomatch h), fun q => ?_, ?_⟩
    · unfold Dom
      dsimp only
      rw [d']
      by_cases e : q = p
      · subst e; simp
      · simp [e]
    · dsimp only; rw [c']; simp

theorem nodeDestroy_ch {s s' : CList α} {pp : Option Nat} {v : Option α} (h : s.nodeDestroy pp = some (s', v)) : ∃ F, Ch s s' [] F := by
  unfold nodeDestroy at h
  rw [Option.bind_eq_some_iff] at h
  obtain ⟨c, _, h⟩ := h
  cases c with
  | none => cases h; exact ⟨[], Ch.same rfl rfl⟩
  | some p =>
    dsimp only at h
    rw [Option.bind_eq_some_iff] at h
    obtain ⟨v', hv, h⟩ := h
    rw [Option.map_eq_some_iff] at h
    obtain ⟨s1, h1, h⟩ := h
    cases h
    obtain ⟨d, c⟩ := put_same h1
    have d' : (if s.next p = none then { s1 with tail := pp } else s1).data = s.data := by rw [← d]; split <;> rfl
    have c' : (if s.next p = none then { s1 with tail := pp } else s1).count = s.count := by rw [← c]; split <;> rfl
    refine ⟨[p], List.nodup_cons.2 ⟨by simp, List.nodup_nil⟩, fun a ha => ?_, fun q => ?_, ?_⟩
    · rw [List.mem_singleton] at ha; subst ha; unfold Dom; rw [hv]; rfl
    · unfold Dom
      dsimp only
      rw [d']
      by_cases e : q = p
      · subst e; simp
      · simp [e]
    · dsimp only; rw [c']; simp

theorem Ch.trans {s s1 s2 : CList α} {F1 F2 : List Nat} (h1 : Ch s s1 [] F1) (h2 : Ch s1 s2 [] F2) : Ch s s2 [] (F1 ++ F2) := by
  have out : ∀ a, a ∈ F2 → s.Dom a ∧ a ∉ F1 := fun a ha => by
    have := (h1.dom a).1 (h2.sub a ha)
    simpa using this
  refine ⟨List.nodup_append.2 ⟨h1.nod, h2.nod, fun a ha b hb e => (out b hb).2 (e ▸ ha)⟩, fun a ha => ?_, fun a => ?_, ?_⟩
  · rw [List.mem_append] at ha
    exact ha.elim (h1.sub a) fun h => (out a h).1
  · rw [h2.dom, h1.dom]
    simp only [List.not_mem_nil, or_false, List.mem_append, not_or]
    exact ⟨fun h => ⟨h.1.1, h.1.2, h.2⟩, fun h => ⟨⟨h.1, h.2.1⟩, h.2.2⟩⟩
  · rw [h2.cnt, h1.cnt, List.length_append]; simp only [List.length_nil]; omega

theorem deleteFrom_ch (f : α → Bool) (n : Nat) : ∀ {s s' : CList α} {pp : Option Nat} {acc l : List α}, deleteFrom f n s pp acc = some (s', l) → ∃ F, Ch s s' [] F := by
  induction n with
  | zero => intro s s' pp acc l h; cases h
  | succ n ih =>
    intro s s' pp acc l h
    rw [deleteFrom] at h
    rw [Option.bind_eq_some_iff] at h
    obtain ⟨c, _, h⟩ := h
    cases c with
    | none => cases h; exact ⟨[], Ch.same rfl rfl⟩
    | some p =>
      dsimp only at h
      rw [Option.bind_eq_some_iff] at h
      obtain ⟨v, _, h⟩ := h
      by_cases hf : f v = true
      · rw [if_pos hf, Option.bind_eq_some_iff] at h
        obtain ⟨⟨s1, w⟩, h1, h⟩ := h
        obtain ⟨F1, c1⟩ := nodeDestroy_ch h1
        cases w with
        | none => obtain ⟨F2, c2⟩ := ih h; exact ⟨_, c1.trans c2⟩
        | some w => obtain ⟨F2, c2⟩ := ih h; exact ⟨_, c1.trans c2⟩
      · rw [if_neg hf] at h
        exact ih h

theorem sortMove_same {s s' : CList α} {pp pos : Option Nat} (h : s.sortMove pp pos = some s') : s'.data = s.data ∧ s'.count = s.count := by
  unfold sortMove at h
  simp only [Option.bind_eq_some_iff] at h
  obtain ⟨_, _, _, _, _, _, _, _, s1, h1, _, _, s2, h2, h3⟩ := h
  obtain ⟨a1, b1⟩ := put_same h1
  obtain ⟨a2, b2⟩ := put_same h2
  obtain ⟨a3, b3⟩ := put_same h3
  exact ⟨by rw [a3, a2, a1], by rw [b3, b2, b1]⟩

theorem sortLoop_same (f : α → α → Int) (n : Nat) : ∀ {s s' : CList α} {prev pp r : Option Nat}, sortLoop f n s prev pp = some (s', r) → s'.data = s.data ∧ s'.count = s.count := by
  induction n with
  | zero => intro s s' prev pp r h; cases h
  | succ n ih =>
    intro s s' prev pp r h
    rw [sortLoop] at h
    rw [Option.bind_eq_some_iff] at h
    obtain ⟨c, _, h⟩ := h
    cases c with
    | none => cases h; exact ⟨rfl, rfl⟩
    | some c =>
      dsimp only at h
      rw [Option.bind_eq_some_iff] at h
      obtain ⟨z, _, h⟩ := h
      by_cases hz : z < 0
      · rw [if_pos hz] at h
        simp only [Option.bind_eq_some_iff] at h
        obtain ⟨pos, _, s1, h1, h⟩ := h
        obtain ⟨a1, b1⟩ := sortMove_same h1
        by_cases hp : prev = pos
        · rw [if_pos hp, Option.bind_eq_some_iff] at h
          obtain ⟨_, _, h⟩ := h
          obtain ⟨a2, b2⟩ := ih h
          exact ⟨by rw [a2, a1], by rw [b2, b1]⟩
        · rw [if_neg hp] at h
          obtain ⟨a2, b2⟩ := ih h
          exact ⟨by rw [a2, a1], by rw [b2, b1]⟩
      · rw [if_neg hz, Option.bind_eq_some_iff] at h
        obtain ⟨_, _, h⟩ := h
        exact ih h

theorem nextItem_same {s s' : CList α} {k : Nat} {v : Option α} (h : s.nextItem k = some (s', v)) : s'.data = s.data ∧ s'.count = s.count := by
  unfold nextItem at h
  simp only [Option.bind_eq_some_iff, Option.map_eq_some_iff] at h
  obtain ⟨_, _, _, _, _, _, _, _, _, _, h⟩ := h
  cases h
  exact ⟨rfl, rfl⟩

theorem findLoop_same (f : α → Bool) (k n : Nat) : ∀ {s s' : CList α} {v : Option α}, findLoop f k n s = some (s', v) → s'.data = s.data ∧ s'.count = s.count := by
  induction n with
  | zero => intro s s' v h; cases h
  | succ n ih =>
    intro s s' v h
    rw [findLoop, Option.bind_eq_some_iff] at h
    obtain ⟨⟨s1, w⟩, h1, h⟩ := h
    obtain ⟨a1, b1⟩ := nextItem_same h1
    cases w with
    | none => cases h; exact ⟨a1, b1⟩
    | some w =>
      dsimp only at h
      by_cases hf : f w = true
      · rw [if_pos hf] at h; cases h; exact ⟨a1, b1⟩
      · rw [if_neg hf] at h
        obtain ⟨a2, b2⟩ := ih h
        exact ⟨by rw [a2, a1], by rw [b2, b1]⟩

/-- The node that an operation is given. -/
def nodeOf : LOp α → Option Nat
  | .append _ a => a
  | .prepend _ a => a
  | .insert _ _ a => a
  | _ => none

theorem step_ch {s s' : CList α} {op : LOp α} {out : LOut α} (h : s.step op = some (s', out)) : ∃ F, Ch s s' (nodeOf op).toList F ∧ ((nodeOf op).isSome = true → F = []) := by
  cases op with
  | append x a =>
    simp only [step, Option.map_eq_some_iff] at h
    obtain ⟨⟨s1, b⟩, h, e⟩ := h
    cases e; exact ⟨_, nodeCreate_ch h, fun _ => rfl⟩
  | prepend x a =>
    simp only [step, Option.map_eq_some_iff] at h
    obtain ⟨⟨s1, b⟩, h, e⟩ := h
    cases e; exact ⟨_, nodeCreate_ch h, fun _ => rfl⟩
  | pop =>
    simp only [step, Option.map_eq_some_iff] at h
    obtain ⟨⟨s1, b⟩, h, e⟩ := h
    cases e; obtain ⟨F, c⟩ := nodeDestroy_ch h; exact ⟨F, c, fun h => (nomatch h)⟩
  | peek =>
    simp only [step, Option.map_eq_some_iff] at h
    obtain ⟨_, _, e⟩ := h
    cases e; exact ⟨[], Ch.same rfl rfl, fun _ => rfl⟩
  | count => cases h; exact ⟨[], Ch.same rfl rfl, fun _ => rfl⟩
  | findFirst f =>
    simp only [step, Option.map_eq_some_iff] at h
    obtain ⟨_, _, e⟩ := h
    cases e; exact ⟨[], Ch.same rfl rfl, fun _ => rfl⟩
  | deleteAll f =>
    simp only [step, Option.map_eq_some_iff] at h
    obtain ⟨⟨s1, b⟩, h, e⟩ := h
    cases e; obtain ⟨F, c⟩ := deleteFrom_ch f _ h; exact ⟨F, c, fun h => (nomatch h)⟩
  | sort f =>
    simp only [step, Option.map_eq_some_iff] at h
    obtain ⟨s1, h, e⟩ := h
    cases e
    unfold sort at h
    by_cases hc : s.count > 1
    · rw [if_pos hc, Option.bind_eq_some_iff] at h
      obtain ⟨pp, _, h⟩ := h
      rw [Option.map_eq_some_iff] at h
      obtain ⟨⟨s2, r⟩, h, e⟩ := h
      obtain ⟨a, b⟩ := sortLoop_same f _ h
      cases e
      exact ⟨[], Ch.same a b, fun _ => rfl⟩
    · rw [if_neg hc] at h; cases h; exact ⟨[], Ch.same rfl rfl, fun _ => rfl⟩
  | iterNew k => cases h; exact ⟨[], Ch.same rfl rfl, fun _ => rfl⟩
  | iterReset k =>
    simp only [step, iterReset, Option.map_eq_some_iff] at h
    obtain ⟨s1, ⟨_, _, rfl⟩, e⟩ := h
    cases e; exact ⟨[], Ch.same rfl rfl, fun _ => rfl⟩
  | iterDestroy k =>
    simp only [step, iterDestroy, Option.map_eq_some_iff] at h
    obtain ⟨s1, ⟨_, _, rfl⟩, e⟩ := h
    cases e; exact ⟨[], Ch.same rfl rfl, fun _ => rfl⟩
  | next k =>
    simp only [step, Option.map_eq_some_iff] at h
    obtain ⟨⟨s1, b⟩, h, e⟩ := h
    obtain ⟨a, b⟩ := nextItem_same h
    cases e; exact ⟨[], Ch.same a b, fun _ => rfl⟩
  | insert k x a =>
    simp only [step, insert, Option.map_eq_some_iff, Option.bind_eq_some_iff] at h
    obtain ⟨⟨s1, b⟩, ⟨i, _, h⟩, e⟩ := h
    cases e; exact ⟨_, nodeCreate_ch h, fun _ => rfl⟩
  | find k f =>
    simp only [step, Option.map_eq_some_iff] at h
    obtain ⟨⟨s1, b⟩, h, e⟩ := h
    obtain ⟨a, b⟩ := findLoop_same f k _ h
    cases e; exact ⟨[], Ch.same a b, fun _ => rfl⟩
  | remove k =>
    simp only [step, remove, Option.map_eq_some_iff, Option.bind_eq_some_iff] at h
    obtain ⟨⟨s1, b⟩, ⟨i, _, c, _, h⟩, e⟩ := h
    cases e
    by_cases hc : c = i.pos
    · rw [if_pos hc] at h; cases h; exact ⟨[], Ch.same rfl rfl, fun _ => rfl⟩
    · rw [if_neg hc] at h; obtain ⟨F, c⟩ := nodeDestroy_ch h; exact ⟨F, c, fun h => (nomatch h)⟩

theorem nodesFrom_rep {s : CList α} {as : List Nat} {q : Seq α} (h : Rep s as q) (n : Nat) : ∀ j, j + n = as.length → s.nodesFrom n as[j]? = as.drop j := by
  induction n with
  | zero => intro j hj; rw [List.drop_eq_nil_of_le (by omega)]; rfl
  | succ n ih =>
    intro j hj
    have hlt : j < as.length := by omega
    rw [List.getElem?_eq_getElem hlt, nodesFrom, List.drop_eq_getElem_cons hlt]
    have hl := h.links (j + 1) (by omega)
    have hs : slotAt as (j + 1) = some as[j] := by
      unfold slotAt
      simp [List.getElem?_eq_getElem hlt]
    rw [hs, get, if_pos (h.live (List.getElem_mem hlt))] at hl
    rw [Option.some.inj hl, ih (j + 1) (by omega)]

theorem nodes_rep {s : CList α} {as : List Nat} {q : Seq α} (h : Rep s as q) : s.nodes = as := by
  unfold nodes
  rw [h.count, h.head]
  have := nodesFrom_rep h as.length 0 (by omega)
  simpa using this

/-- The list stands for `q` and has no other nodes. -/
def RepX (s : CList α) (q : Seq α) : Prop := Rep s s.nodes q ∧ ∀ a, s.Dom a ↔ a ∈ s.nodes

theorem repX_create : RepX (create : CList α) ⟨[], []⟩ := ⟨rep_create, fun a => by unfold Dom create; simp [nodes, nodesFrom]⟩

theorem RepX.step {s : CList α} {q : Seq α} (h : RepX s q) (op : LOp α) (ha : s.allowed op) (hn : ∀ a, nodeOf op = some a → ¬ s.Dom a) :
    ∃ s', s.step op = some (s', (q.step op).2) ∧ RepX s' (q.step op).1 ∧ (s'.nodes ++ freedNodes s s').Perm (s.nodes ++ (nodeOf op).toList) ∧
      ((nodeOf op).isSome = true → freedNodes s s' = []) := by
  obtain ⟨s', as', e, r⟩ := step_rep h.1 op ha
  have e' := nodes_rep r
  rw [← e'] at r
  obtain ⟨F, c, c0⟩ := step_ch e
  have hF : ∀ a, a ∈ F → a ∈ s.nodes := fun a ha => (h.2 a).1 (c.sub a ha)
  have hnew : ∀ a, a ∈ (nodeOf op).toList → a ∉ s.nodes := fun a ha hs => hn a (by simpa using ha) ((h.2 a).2 hs)
  have hnn : (nodeOf op).toList.Nodup := by cases nodeOf op <;> simp
  have p1 : (s.nodes.filter (fun a => decide (a ∈ F))).Perm F := by
    rw [List.perm_ext_iff_of_nodup (h.1.nodup.filter _) c.nod]
    intro a
    rw [List.mem_filter, decide_eq_true_iff]
    exact ⟨fun h => h.2, fun h => ⟨hF a h, h⟩⟩
  have p2 := List.filter_append_perm (fun a => decide (a ∈ F)) s.nodes
  have l1 := p1.length_eq
  have l2 := p2.length_eq
  rw [List.length_append] at l2
  have dD : (s.nodes.filter (fun a => !decide (a ∈ F)) ++ (nodeOf op).toList).Nodup := by
    rw [List.nodup_append]
    refine ⟨h.1.nodup.filter _, hnn, fun a ha b hb e => ?_⟩
    rw [List.mem_filter] at ha
    exact hnew b hb (e ▸ ha.1)
  have mD : ∀ a, s'.Dom a ↔ a ∈ s.nodes.filter (fun a => !decide (a ∈ F)) ++ (nodeOf op).toList := by
    intro a
    rw [c.dom, List.mem_append, List.mem_filter, h.2]
    simp
  have sub : s'.nodes ⊆ s.nodes.filter (fun a => !decide (a ∈ F)) ++ (nodeOf op).toList := fun a ha => (mD a).1 (r.live ha)
  have len : s'.nodes.length = (s.nodes.filter (fun a => !decide (a ∈ F)) ++ (nodeOf op).toList).length := by
    have := c.cnt
    rw [r.count, h.1.count] at this
    rw [List.length_append]
    omega
  have P : s'.nodes.Perm (s.nodes.filter (fun a => !decide (a ∈ F)) ++ (nodeOf op).toList) := (List.subperm_of_subset r.nodup sub).perm_of_length_le (by omega)
  have ff : freedNodes s s' = s.nodes.filter (fun a => decide (a ∈ F)) := by
    unfold freedNodes
    apply List.filter_congr
    intro a ha
    have : s'.Dom a ↔ a ∉ F := by
      rw [c.dom, h.2]
      constructor
      · rintro (h | h)
        · exact h.2
        · exact absurd ha (hnew a h)
      · intro h; exact .inl ⟨ha, h⟩
    unfold Dom at this
    by_cases hf : a ∈ F
    · have h0 : (s'.data a).isSome = false := by
        cases hd : (s'.data a).isSome with
        | false => rfl
        | true => exact absurd hf (this.1 hd)
      rw [decide_eq_true hf]
      cases hd : s'.data a with
      | none => rfl
      | some _ => rw [hd] at h0; cases h0
    · have h0 := this.2 hf
      rw [decide_eq_false hf]
      cases hd : s'.data a with
      | none => rw [hd] at h0; cases h0
      | some _ => rfl
  refine ⟨s', e, ⟨r, fun a => ?_⟩, ?_, fun hi => ?_⟩
  · rw [mD a]; exact P.symm.mem_iff
  · rw [ff]
    refine (P.append_right _).trans ?_
    refine List.perm_append_comm.trans ?_
    rw [← List.append_assoc]
    exact p2.append_right _
  · rw [ff, c0 hi, List.filter_eq_nil_iff]
    intro a _; simp

end CList

end Conman
