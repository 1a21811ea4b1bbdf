import Verif.Lemma.PoolSys

/-! C105: lists share their memory and do not disturb each other. -/
namespace Conman
open Spec
variable {α : Type}

/-- After any history of calls, every call that uses lists and iterators which exist is defined - no node, list or iterator is touched that is not the caller's own - and does what it says to its
own list alone; what is new was not in use; with memory left, or without asking for it, it does not fail. -/
theorem C105_lists {t : ListSys α} {v : Lists α} {n : Nat} (h : LReach t v n) (c : LCall α) (hc : LegalCall v c) (hf : FreshBlocks t c) :
    ∃ t' r v', t.step c = some (t', r) ∧ Explains v c r v' ∧ LReach t' v' (max n v'.total) := by
  obtain ⟨U, I⟩ := reach_inv h
  obtain ⟨t', r, v', U', e, x, _⟩ := sys_step I c hc hf
  exact ⟨t', r, v', e, x, .call h hc hf e x⟩

/-- What one list holds is not changed by a call on another one. -/
theorem C105_others {v v' : Lists α} {c : LCall α} {r : LRes α} (h : Explains v c r v') (l : Nat) (hl : ∀ o m, c ≠ .op l o m) (hd : c ≠ .destroy l) (hn : r ≠ .made (some l)) : v'.at l = v.at l := by
  have put : ∀ (k : Nat) (q : Seq α), k ≠ l → (v.put k q).at l = v.at l := by
    intro k q hk
    unfold Lists.at Lists.put
    rw [List.find?_cons_of_neg (by simpa using hk), List.find?_filter]
    congr 1
    have : ∀ u : Lists α, u.find? (fun e => decide (e.1 ≠ k) && e.1 == l) = u.find? fun e => e.1 == l := by
      intro u
      induction u with
      | nil => rfl
      | cons e u ih =>
        by_cases he : e.1 = l
        · rw [List.find?_cons_of_pos (by simp only [he, Bool.and_eq_true, decide_eq_true_eq, beq_self_eq_true, and_true]; exact fun h => hk h.symm), List.find?_cons_of_pos (by simpa using he)]
        · rw [List.find?_cons_of_neg (by simp [he]), List.find?_cons_of_neg (by simpa using he), ih]
    rw [← this v]
    congr 1
    funext e
    by_cases h1 : e.1 = k <;> by_cases h2 : e.1 = l <;> simp [h1, h2]
  cases h with
  | noList => rfl
  | noIter => rfl
  | newList _ =>
    rename_i l'
    unfold Lists.at
    rw [List.find?_cons_of_neg (by simp only [beq_iff_eq]; rintro rfl; exact hn rfl)]
  | gone _ =>
    rename_i k q _
    have hk : k ≠ l := by rintro rfl; exact hd rfl
    have := put k q hk
    unfold Lists.at Lists.put at this
    rw [List.find?_cons_of_neg (by simpa using hk)] at this
    exact this
  | newIter _ _ => exact put _ _ (by rintro rfl; exact hl _ _ rfl)
  | did _ _ _ => exact put _ _ (by rintro rfl; exact hl _ _ rfl)

/-- No node belongs to two lists, and none that is in a list is free. -/
theorem C105_apart {t : ListSys α} {v : Lists α} {n : Nat} (h : LReach t v n) {l : Nat} {s : CList α} (hs : t.at l = some s) {a : Nat} (ha : a ∈ s.nodes) :
    ¬ IsFree t.ns a ∧ ∀ l' s', t.at l' = some s' → a ∈ s'.nodes → l' = l := by
  obtain ⟨U, I⟩ := reach_inv h
  obtain ⟨L, hp⟩ := I.pn
  obtain ⟨q, hm⟩ := I.at_mem hs
  have hn := List.nodup_append.1 hp.nodup
  refine ⟨fun hf => hn.2.2 a ((hp.free_iff a).1 hf) a (List.mem_flatMap.2 ⟨_, hm, ha⟩) rfl, fun l' s' hs' ha' => ?_⟩
  obtain ⟨q', hm'⟩ := I.at_mem hs'
  have := nodup_apart (fun e : Entry α => e.2.1.nodes) hn.2.1 hm' hm ha' ha
  exact congrArg (·.1) this

/-- The same for iterators. -/
theorem C105_iterators {t : ListSys α} {v : Lists α} {n : Nat} (h : LReach t v n) {l : Nat} {s : CList α} (hs : t.at l = some s) {k : Nat} (hk : k ∈ s.iters.map (·.1)) :
    ¬ IsFree t.is k ∧ ∀ l' s', t.at l' = some s' → k ∈ s'.iters.map (·.1) → l' = l := by
  obtain ⟨U, I⟩ := reach_inv h
  obtain ⟨L, hp⟩ := I.pi
  obtain ⟨q, hm⟩ := I.at_mem hs
  have hn := List.nodup_append.1 hp.nodup
  refine ⟨fun hf => hn.2.2 k ((hp.free_iff k).1 hf) k (List.mem_flatMap.2 ⟨_, hm, hk⟩) rfl, fun l' s' hs' hk' => ?_⟩
  obtain ⟨q', hm'⟩ := I.at_mem hs'
  have := nodup_apart (fun e : Entry α => e.2.1.iters.map (·.1)) hn.2.1 hm' hm hk' hk
  exact congrArg (·.1) this

/-- Nothing is lost: of the nodes that `malloc` gave, ten to a block, each that does not hold an item of some list is free, once. -/
theorem C105_nothing_lost {t : ListSys α} {v : Lists α} {n : Nat} (h : LReach t v n) :
    (∃ L : List Nat, L.Nodup ∧ (∀ a, a ∈ L ↔ IsFree t.ns a) ∧ L.length + v.total = 10 * t.ns.blocks.length) ∧
    (∃ L : List Nat, L.Nodup ∧ (∀ a, a ∈ L ↔ IsFree t.ls a) ∧ L.length + v.length = 10 * t.ls.blocks.length) ∧
    ∃ L : List Nat, L.Nodup ∧ (∀ a, a ∈ L ↔ IsFree t.is a) ∧ L.length + (v.map fun e => e.2.curs.length).sum = 10 * t.is.blocks.length := by
  obtain ⟨U, I⟩ := reach_inv h
  refine ⟨?_, ?_, ?_⟩
  · obtain ⟨L, hp⟩ := I.pn
    refine ⟨L, (List.nodup_append.1 hp.nodup).1, fun a => (hp.free_iff a).symm, ?_⟩
    rw [← hp.size, I.vs, total_nodes I.rep]
  · obtain ⟨L, hp⟩ := I.pl
    refine ⟨L, (List.nodup_append.1 hp.nodup).1, fun a => (hp.free_iff a).symm, ?_⟩
    rw [← hp.size, I.vs, List.length_map, List.length_map]
  · obtain ⟨L, hp⟩ := I.pi
    refine ⟨L, (List.nodup_append.1 hp.nodup).1, fun a => (hp.free_iff a).symm, ?_⟩
    rw [← hp.size, I.vs, List.map_map, List.length_flatMap]
    congr 2
    apply List.map_congr_left
    intro e he
    have := congrArg List.length (iters_keys (I.rep e he))
    rw [List.length_map, List.length_map] at this
    rw [List.length_map]
    exact this.symm

/-- The memory for nodes is bounded by the largest number of items there were at any time, however many have come and gone. -/
theorem C105_memory {t : ListSys α} {v : Lists α} {n : Nat} (h : LReach t v n) : 10 * t.ns.blocks.length ≤ n + 9 := by
  obtain ⟨U, I⟩ := reach_inv h
  exact I.size

/-- To hand an item back twice is not noticed: it is then handed out twice. -/
theorem C105_twice (p : Pool) (a : Nat) (m m' : Option Nat) : (((p.release a).release a).alloc m).2 = some a ∧ ((((p.release a).release a).alloc m).1.alloc m').2 = some a := by
  have e : ((p.release a).release a).alloc m = ((p.release a).release a, some a) := by
    simp [Pool.alloc, Pool.release]
  rw [e]
  refine ⟨rfl, ?_⟩
  simp [Pool.alloc, Pool.release]

/-- Two lists whose nodes are neighbours in one block; the second was made without asking `malloc`. -/
theorem pool_demo : ∃ (t : ListSys Nat) (v : Lists Nat), LReach t v 3 ∧ v.at 70 = some ⟨[5], []⟩ ∧ v.at 71 = some ⟨[8], [(20, ⟨0, false⟩)]⟩ ∧
    (t.at 70).map CList.nodes = some [30] ∧ (t.at 71).map CList.nodes = some [32] ∧ t.ns.blocks = [3] ∧ t.ns.free = some 31 := by
  have h0 := LReach.start (α := Nat)
  have h1 := h0.call (c := .create (some 7)) trivial (fun b _ => List.not_mem_nil) rfl (.newList rfl)
  have h2 := h1.call (c := .create none) trivial (fun b h => nomatch h) rfl (.newList rfl)
  have h3 := h2.call (c := .op 70 (.append 5 none) (some 3)) ⟨_, rfl, fun k h => nomatch h⟩ (fun b _ => List.not_mem_nil) rfl (.did (a := some 30) rfl rfl (fun h => nomatch h))
  have h4 := h3.call (c := .op 71 (.append 6 none) none) ⟨_, rfl, fun k h => nomatch h⟩ (fun b h => nomatch h) rfl (.did (a := some 31) rfl rfl (fun h => nomatch h))
  have h5 := h4.call (c := .op 71 (.append 8 none) none) ⟨_, rfl, fun k h => nomatch h⟩ (fun b h => nomatch h) rfl (.did (a := some 32) rfl rfl (fun h => nomatch h))
  have h6 := h5.call (c := .op 71 .pop none) (r := .did (.item (some 6))) ⟨_, rfl, fun k h => nomatch h⟩ (fun b h => nomatch h) rfl (.did (o := .pop) (a := none) (q := ⟨[6, 8], []⟩) rfl rfl (fun _ _ => rfl))
  have h7 := h6.call (c := .op 71 (.iterNew 0) (some 2)) ⟨_, rfl, fun k h => nomatch h⟩ (fun b _ => List.not_mem_nil) rfl (.newIter (k := 20) rfl (by unfold Lists.hasIter; decide))
  exact ⟨_, _, h7, rfl, rfl, rfl, rfl, rfl, rfl⟩

/-- `C105_lists` and the others apply to it: the first list can be destroyed. -/
example : ∃ (t : ListSys Nat) (v : Lists Nat), LReach t v 3 ∧ LegalCall v (.destroy 70) ∧ FreshBlocks t (.destroy 70) ∧ ∃ s, t.at 70 = some s ∧ 30 ∈ s.nodes := by
  obtain ⟨t, v, h, h1, _, h3, _⟩ := pool_demo
  obtain ⟨s, hs, hn⟩ := Option.map_eq_some_iff.1 h3
  exact ⟨t, v, h, by show (v.at 70).isSome = true; rw [h1]; rfl, trivial, s, hs, by rw [hn]; decide⟩

end Conman
