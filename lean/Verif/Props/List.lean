import Verif.Lemma.ListSeq

/-
C28, C29, C30: the generic list and its iterators.
-/
namespace Conman
open Spec
variable {α : Type}

/-- Running operations one after the other. -/
def CList.run (s : CList α) : List (LOp α) → Option (CList α × List (LOut α))
  | [] => some (s, [])
  | op :: ops => (s.step op).bind fun r => (CList.run r.1 ops).map fun t => (t.1, r.2 :: t.2)

/-- The caller and the allocator do what they must all along. -/
def CList.allowedRun (s : CList α) : List (LOp α) → Prop
  | [] => True
  | op :: ops => s.allowed op ∧ ∀ s' out, s.step op = some (s', out) → CList.allowedRun s' ops

/-- The same on sequences: the results and the final sequence. -/
def Spec.Seq.run (q : Seq α) : List (LOp α) → Seq α × List (LOut α)
  | [] => (q, [])
  | op :: ops => ((Seq.run (q.step op).1 ops).1, (q.step op).2 :: (Seq.run (q.step op).1 ops).2)

/-- All items taken out of the list. -/
def Spec.Seq.takesRun (q : Seq α) : List (LOp α) → List α
  | [] => []
  | op :: ops => q.takes op ++ Seq.takesRun (q.step op).1 ops

/-- All items the iterator `k` went over, in this order. -/
def Spec.Seq.passesRun (q : Seq α) (k : Nat) : List (LOp α) → List α
  | [] => []
  | op :: ops => q.passes k op ++ Seq.passesRun (q.step op).1 k ops

/-- C29. Whatever is done to a list, with any number of iterators, no operation touches memory that is not part of the list or loops for ever,
and the results are those of the same operations on a sequence. -/
theorem C29_run {s : CList α} {q : Seq α} (h : CList.Reach s q) : ∀ (ops : List (LOp α)), s.allowedRun ops →
    ∃ s', s.run ops = some (s', (q.run ops).2) ∧ CList.Reach s' (q.run ops).1 := by
  intro ops
  induction ops generalizing s q with
  | nil => intro _; exact ⟨s, rfl, h⟩
  | cons op ops ih =>
    intro ha
    obtain ⟨as, hr⟩ := h.rep
    obtain ⟨s1, _, e1, _⟩ := CList.step_rep hr op ha.1
    have h1 := CList.Reach.step h ha.1 e1
    obtain ⟨s2, e2, h2⟩ := ih h1 (ha.2 s1 _ e1)
    exact ⟨s2, by rw [CList.run, e1, Option.bind_some, e2]; rfl, h2⟩

/-- C29. A list that is destroyed hands every item to the deletion function once, in the order of the sequence. -/
theorem C29_destroy {s : CList α} {q : Seq α} (h : CList.Reach s q) : s.destroy = some q.items := by
  obtain ⟨as, hr⟩ := h.rep
  unfold CList.destroy
  rw [hr.head, CList.destroyFrom_rep hr _ 0 [] (by omega) (by rw [hr.count]; omega)]
  rfl

/-- C28. An iterator that is not reset and not destroyed, on a list that is not sorted meanwhile, goes over the items that were after its position,
in the order of the list and each exactly once, whatever else is done to the list: take any items (`p`) that are neither added nor taken out
meanwhile; those that were yet to come are those it went over since, followed by those yet to come now. -/
theorem C28_visits {s : CList α} {q : Seq α} (h : CList.Reach s q) (k : Nat) (hk : (s.iter k).isSome = true) (ops : List (LOp α))
    (ha : s.allowedRun ops) (hm : ∀ op ∈ ops, ¬ op.moves k) (p : α → Bool) (h1 : ∀ op ∈ ops, ∀ x ∈ op.adds, p x = false)
    (h2 : ∀ x ∈ q.takesRun ops, p x = false) :
    (q.todo k).filter p = (q.passesRun k ops).filter p ++ ((q.run ops).1.todo k).filter p := by
  induction ops generalizing s q with
  | nil => rfl
  | cons op ops ih =>
    obtain ⟨as, hr⟩ := h.rep
    have hh : SeqL.Has q k := (hr.has_iff k).1 hk
    obtain ⟨s1, as1, e1, hr1⟩ := CList.step_rep hr op ha.1
    have hk1 : (s1.iter k).isSome = true := (hr1.has_iff k).2 (SeqL.step_has hh op (hm op (by simp)))
    rw [Seq.passesRun, List.filter_append, List.append_assoc, Seq.run]
    rw [← ih (CList.Reach.step h ha.1 e1) hk1 (ha.2 s1 _ e1) (fun o ho => hm o (by simp [ho])) (fun o ho => h1 o (by simp [ho]))
      (fun x hx => h2 x (by rw [Seq.takesRun]; exact List.mem_append_right _ hx))]
    exact SeqL.step_todo hr hh op ha.1 (hm op (by simp)) p (h1 op (by simp)) (fun x hx => h2 x (by rw [Seq.takesRun]; exact List.mem_append_left _ hx))

/-- C28. What the caller gets from `list_next` is the first item yet to come (NULL if there is none), and from `list_find` the first one that
matches; both are in the list at that time. -/
theorem C28_next {s : CList α} {q : Seq α} (h : CList.Reach s q) (k : Nat) (hk : (s.iter k).isSome = true) :
    (∃ s', s.nextItem k = some (s', (q.todo k).head?) ∧ CList.Reach s' (q.next k).1 ∧ (q.next k).1.items = q.items ∧ (q.next k).1.todo k = (q.todo k).tail) ∧
    (∀ f, ∃ s', s.findItem k f = some (s', (q.todo k).find? f)) ∧ q.todo k <:+ q.items := by
  obtain ⟨as, hr⟩ := h.rep
  have hh : SeqL.Has q k := (hr.has_iff k).1 hk
  obtain ⟨e1, e2⟩ := SeqL.next_todo q hh
  refine ⟨?_, fun f => ?_, List.drop_suffix ..⟩
  · obtain ⟨s', e, hr'⟩ := CList.nextItem_rep hr hk
    rw [e1] at e
    refine ⟨s', e, ?_, SeqL.next_items q k, e2⟩
    exact CList.Reach.step h (op := .next k) hk (by simp only [CList.step]; rw [e]; rfl)
  · obtain ⟨s', _, e, _⟩ := CList.step_rep hr (.find k f) hk
    simp only [CList.step, Seq.step] at e
    have hlen : (q.todo k).length < q.items.length + 1 := by unfold Seq.todo; rw [List.length_drop]; omega
    rw [(SeqL.find_todo f _ q hh hlen).1] at e
    cases hf : s.findItem k f with
    | none => rw [hf] at e; simp at e
    | some r =>
      rw [hf] at e
      simp only [Option.map_some, Option.some.injEq, Prod.mk.injEq, LOut.item.injEq] at e
      exact ⟨r.1, by rw [← e.2]⟩

/-- C28. After `list_next` returned `v`, removing through the iterator takes out exactly this item, and inserting puts the new item right before
it. -/
theorem C28_acts_on_last {s : CList α} {q : Seq α} (h : CList.Reach s q) (k : Nat) (hk : (s.iter k).isSome = true) {s1 : CList α} {v : α}
    (h1 : s.nextItem k = some (s1, some v)) :
    ∃ pre post, s.destroy = some (pre ++ v :: post) ∧ q.todo k = v :: post ∧
      (∃ s2, s1.remove k = some (s2, some v) ∧ s2.destroy = some (pre ++ post)) ∧
      ∀ x a, s1.data a = none → ∃ s2, s1.insert k x (some a) = some (s2, true) ∧ s2.destroy = some (pre ++ x :: v :: post) := by
  obtain ⟨as, hr⟩ := h.rep
  have hh : SeqL.Has q k := (hr.has_iff k).1 hk
  obtain ⟨⟨s', e, h', hi, ht⟩, _, _⟩ := C28_next h k hk
  rw [h1] at e
  simp only [Option.some.injEq, Prod.mk.injEq] at e
  obtain ⟨rfl, e⟩ := e
  have hlt : (q.cur k).passed < q.items.length := by
    rw [← Nat.not_le]; intro hc
    unfold Seq.todo at e
    rw [List.drop_eq_nil_of_le hc] at e; simp at e
  have hv : q.items[(q.cur k).passed] = v := by
    unfold Seq.todo at e
    rw [List.head?_drop, List.getElem?_eq_getElem hlt] at e
    exact (Option.some.inj e).symm
  have hsplit : q.items = q.items.take (q.cur k).passed ++ v :: q.items.drop ((q.cur k).passed + 1) := by
    rw [← hv, ← List.drop_eq_getElem_cons hlt, List.take_append_drop]
  have htl : (q.items.take (q.cur k).passed).length = (q.cur k).passed := by rw [List.length_take]; omega
  have hcur : (q.next k).1.cur k = ⟨(q.cur k).passed + 1, true⟩ := by
    unfold Seq.next
    dsimp only
    rw [List.getElem?_eq_getElem hlt]
    exact SeqL.cur_set_eq q _ hh
  have hslot : ((q.next k).1.cur k).slot = (q.cur k).passed := by rw [hcur]; rfl
  obtain ⟨as1, hr1⟩ := h'.rep
  have hk1 : (s1.iter k).isSome = true := (hr1.has_iff k).2 ((SeqL.has_next q).2 hh)
  refine ⟨q.items.take (q.cur k).passed, q.items.drop ((q.cur k).passed + 1), by rw [← hsplit]; exact C29_destroy h, ?_, ?_, ?_⟩
  · unfold Seq.todo; rw [← hv, ← List.drop_eq_getElem_cons hlt]
  · obtain ⟨s2, _, e2, hr2⟩ := CList.step_rep hr1 (.remove k) hk1
    have h2 := CList.Reach.step h' (op := .remove k) hk1 e2
    have hrem : (q.next k).1.remove k = ((q.next k).1.removeAt (q.cur k).passed, some v) := by
      unfold Seq.remove
      dsimp only
      rw [hslot, hcur, if_pos rfl, hi, List.getElem?_eq_getElem hlt, hv]
    simp only [CList.step, Seq.step, hrem] at e2 h2
    cases hf : s1.remove k with
    | none => rw [hf] at e2; simp at e2
    | some r =>
      rw [hf] at e2
      simp only [Option.map_some, Option.some.injEq, Prod.mk.injEq, LOut.item.injEq] at e2
      refine ⟨r.1, by rw [← e2.2], ?_⟩
      rw [e2.1, C29_destroy h2]
      show some ((q.next k).1.items.eraseIdx (q.cur k).passed) = _
      rw [hi]
      congr 1
      conv => lhs; rw [hsplit]
      rw [List.eraseIdx_append_of_length_le (by omega), htl, Nat.sub_self]; rfl
  · intro x a ha
    obtain ⟨s2, _, e2, hr2⟩ := CList.step_rep hr1 (.insert k x (some a)) ⟨hk1, fun p hp => by rw [← Option.some.inj hp]; exact ha⟩
    have h2 := CList.Reach.step h' (op := .insert k x (some a)) ⟨hk1, fun p hp => by rw [← Option.some.inj hp]; exact ha⟩ e2
    simp only [CList.step, Seq.step, hslot, Option.isSome_some, if_true] at e2 h2
    cases hf : s1.insert k x (some a) with
    | none => rw [hf] at e2; simp at e2
    | some r =>
      rw [hf] at e2
      simp only [Option.map_some, Option.some.injEq, Prod.mk.injEq, LOut.ok.injEq] at e2
      refine ⟨r.1, by rw [← e2.2], ?_⟩
      rw [e2.1, C29_destroy h2]
      show some ((q.next k).1.items.insertIdx (q.cur k).passed x) = _
      rw [hi]
      congr 1
      apply List.ext_getElem?
      intro i
      rw [CList.insertIdx_get _ _ _ (by omega), List.getElem?_append, htl]
      by_cases i1 : i < (q.cur k).passed
      · rw [if_pos i1, if_pos i1, List.getElem?_take, if_pos i1]
      · rw [if_neg i1, if_neg i1, ← hv, ← List.drop_eq_getElem_cons hlt]
        by_cases i2 : i = (q.cur k).passed
        · rw [if_pos i2, i2]; simp
        · rw [if_neg i2]
          obtain ⟨m, rfl⟩ : ∃ m, i = (q.cur k).passed + 1 + m := ⟨i - (q.cur k).passed - 1, by omega⟩
          rw [show (q.cur k).passed + 1 + m - (q.cur k).passed = m + 1 by omega, List.getElem?_cons_succ, List.getElem?_drop]
          congr 1; omega

/-- C28. How long an iterator remembers the item it returned last: until it goes on, or until this item, or the one that would come next, is taken
out of the list by somebody else.  (Full statement: only in the first two cases; see `C28_forgets`.) -/
theorem C28_remembers_partial {s : CList α} {q : Seq α} (h : CList.Reach s q) (k : Nat) (hk : (s.iter k).isSome = true) (op : LOp α) (ha : s.allowed op)
    (hm : ¬ op.moves k) (hn : op ≠ .next k) (hf : ∀ f, op ≠ .find k f) (v : α) (hv : q.lastItem k = some v) :
    (q.step op).1.lastItem k = some v ∨
    ((q.step op).1.lastItem k = none ∧ (v ∈ q.takes op ∨ ∃ w, (q.todo k).head? = some w ∧ w ∈ q.takes op)) := by
  obtain ⟨as, hr⟩ := h.rep
  have hh : SeqL.Has q k := (hr.has_iff k).1 hk
  have hg := (hr.cur_good hk).2
  have hl := hr.len
  have same : ∀ q' : Seq α, q'.items = q.items → q'.cur k = q.cur k → q'.lastItem k = some v := by
    intro q' e1 e2
    unfold Seq.lastItem at hv ⊢
    rw [e1, e2]; exact hv
  have hne : 0 < q.items.length := by
    rcases Nat.eq_zero_or_pos q.items.length with h0 | h0
    · exfalso
      unfold Seq.lastItem at hv
      split at hv
      · rw [List.getElem?_eq_none (by omega)] at hv; simp at hv
      · simp at hv
    · exact h0
  have rem : ∀ j, j < q.items.length → (∀ w, q.items[j]? = some w → w ∈ q.takes op) → (q.removeAt j).lastItem k = some v ∨
      ((q.removeAt j).lastItem k = none ∧ (v ∈ q.takes op ∨ ∃ w, (q.todo k).head? = some w ∧ w ∈ q.takes op)) := by
    intro j hjl hj
    rcases SeqL.removeAt_last q hh j hg hv with ⟨a, _⟩ | ⟨a, b⟩
    · exact Or.inl a
    · refine Or.inr ⟨by unfold Seq.lastItem; rw [a]; rfl, ?_⟩
      have e := List.getElem?_eq_getElem hjl
      rcases b with b | b
      · exact Or.inl (hj v b)
      · exact Or.inr ⟨_, b.symm.trans e, hj _ e⟩
  cases op with
  | append x a =>
    simp only [Seq.step]
    split
    · exact Or.inl (SeqL.insertAt_last q hh (Nat.le_refl _) x hg hv)
    · exact Or.inl hv
  | prepend x a =>
    simp only [Seq.step]
    split
    · exact Or.inl (SeqL.insertAt_last q hh (Nat.zero_le _) x hg hv)
    · exact Or.inl hv
  | pop =>
    refine rem 0 hne (fun w hw => ?_)
    simp only [Seq.takes]
    cases hi : q.items with
    | nil => rw [hi] at hw; simp at hw
    | cons y l => rw [hi] at hw; simp at hw; simp [hw]
  | peek => exact Or.inl hv
  | count => exact Or.inl hv
  | findFirst f => exact Or.inl hv
  | deleteAll f =>
    simp only [Seq.step]
    rcases SeqL.removeAll_last f q.items.length q 0 hh hg hv with a | ⟨a, b⟩
    · exact Or.inl a
    · refine Or.inr ⟨by unfold Seq.lastItem; rw [a]; rfl, ?_⟩
      have hvm : v ∈ q.items := by
        unfold Seq.lastItem at hv
        split at hv
        · exact List.mem_of_getElem? hv
        · simp at hv
      rcases b with b | ⟨w, b1, b2⟩
      · exact Or.inl (List.mem_filter.2 ⟨hvm, b⟩)
      · refine Or.inr ⟨w, b1, List.mem_filter.2 ⟨?_, b2⟩⟩
        exact List.mem_of_mem_drop (List.mem_of_head? b1)
  | sort f => exact absurd trivial hm
  | iterNew k' => exact Or.inl (same _ rfl (SeqL.cur_new q hm))
  | iterReset k' => exact Or.inl (same _ rfl (SeqL.cur_set_ne q _ hm))
  | iterDestroy k' => exact Or.inl (same _ rfl (SeqL.cur_end q hm))
  | next k' =>
    have hkk : k' ≠ k := fun e => hn (by rw [e])
    exact Or.inl (same _ (SeqL.next_items q k') (SeqL.next_cur_ne q hkk))
  | insert k' x a =>
    simp only [Seq.step]
    split
    · have := CList.slot_le (hr.cur_good (k := k') ha.1)
      exact Or.inl (SeqL.insertAt_last q hh (by omega) x hg hv)
    · exact Or.inl hv
  | find k' f =>
    have hkk : k' ≠ k := fun e => hf f (by rw [e])
    exact Or.inl (same _ (SeqL.find_other_cur f hkk _ q).2 (SeqL.find_other_cur f hkk _ q).1)
  | remove k' =>
    have hcg := hr.cur_good (k := k') ha
    simp only [Seq.step]
    have hr1 : ∀ c, q.cur k' = c → c.last = true → q.remove k' = (q.removeAt c.slot, q.items[c.slot]?) := by
      intro c hc hl'
      unfold Seq.remove; dsimp only; rw [hc, if_pos hl']
    by_cases hl' : (q.cur k').last = true
    · have e := hr1 _ rfl hl'
      rw [e]
      refine rem _ ?_ (fun w hw => ?_)
      · have := hcg.2 hl'
        have h4 := hcg.1
        unfold Cursor.slot; rw [if_pos hl']; omega
      · simp only [Seq.takes, e, hw]; simp
    · have e : q.remove k' = (q, none) := by unfold Seq.remove; dsimp only; rw [if_neg hl']
      rw [e]; exact Or.inl hv

/-- C28, the part that does not hold: an iterator returned 1, another iterator then takes out 2, which follows it; 1 is still in the list, but
removal through the first iterator does nothing. -/
theorem C28_forgets : ∃ s' : CList Nat,
    CList.create.run [.append 1 (some 10), .append 2 (some 11), .iterNew 0, .iterNew 1, .next 0, .next 1, .next 1, .remove 1, .remove 0] =
      some (s', [.ok true, .ok true, .unit, .unit, .item (some 1), .item (some 1), .item (some 2), .item (some 2), .item none]) ∧
    s'.destroy = some [1] := by
  exact ⟨_, rfl, rfl⟩

/-- C28, the part that does not hold: an iterator that was created while the list was empty does not see what is appended afterwards,
although nothing of that was ever before its position. -/
theorem C28_end_is_final : ∃ s' : CList Nat,
    CList.create.run [.iterNew 0, .append 1 (some 10), .next 0] = some (s', [.unit, .ok true, .item none]) ∧ s'.destroy = some [1] := by
  exact ⟨_, rfl, rfl⟩

/-- What the C library's users of the list promise of a comparison function. -/
structure Spec.TotalPreorder (f : α → α → Int) : Prop where
  anti : ∀ x y, f x y < 0 ↔ 0 < f y x
  trans : ∀ x y z, f x y ≤ 0 → f y z ≤ 0 → f x z ≤ 0

/-- C30. Sorting a list, whatever its length, succeeds and gives the same items in ascending order, where items that compare equal stay in the
order they had. -/
theorem C30_stable_sort {s : CList α} {q : Seq α} (h : CList.Reach s q) {f : α → α → Int} (hf : Spec.TotalPreorder f) :
    ∃ s' xs ys, s.sort f = some s' ∧ s.destroy = some xs ∧ s'.destroy = some ys ∧ ys.Perm xs ∧ ys.Pairwise (fun x y => f x y ≤ 0) ∧
      ∀ z, ys.filter (fun y => f z y = 0) = xs.filter (fun y => f z y = 0) := by
  obtain ⟨as, hr⟩ := h.rep
  obtain ⟨s', _, e, _⟩ := CList.step_rep hr (.sort f) trivial
  have h' := CList.Reach.step h (op := .sort f) trivial e
  simp only [CList.step] at e
  cases hs : s.sort f with
  | none => rw [hs] at e; simp at e
  | some s1 =>
    rw [hs] at e
    simp only [Option.map_some, Option.some.injEq, Prod.mk.injEq] at e
    refine ⟨s1, q.items, _, rfl, C29_destroy h, by rw [e.1]; exact C29_destroy h', ?_⟩
    simp only [Seq.step]
    obtain ⟨a, b, c⟩ := SeqL.sorted_ok hf.anti hf.trans q.items
    split
    · exact ⟨a, b, c⟩
    · next hl =>
      refine ⟨List.Perm.refl _, ?_, fun _ => rfl⟩
      match hq : q.items, hl with
      | [], _ => exact List.Pairwise.nil
      | [x], _ => exact List.pairwise_singleton ..
      | x :: y :: l, hl => simp at hl

/-- C30. Even with a comparison function that is no order at all, sorting ends, touches nothing but the list and neither loses nor duplicates an
item. -/
theorem C30_any_order {s : CList α} {q : Seq α} (h : CList.Reach s q) (f : α → α → Int) :
    ∃ s' xs ys, s.sort f = some s' ∧ s.destroy = some xs ∧ s'.destroy = some ys ∧ ys.Perm xs := by
  obtain ⟨as, hr⟩ := h.rep
  obtain ⟨s', _, e, _⟩ := CList.step_rep hr (.sort f) trivial
  have h' := CList.Reach.step h (op := .sort f) trivial e
  simp only [CList.step] at e
  cases hs : s.sort f with
  | none => rw [hs] at e; simp at e
  | some s1 =>
    rw [hs] at e
    simp only [Option.map_some, Option.some.injEq, Prod.mk.injEq] at e
    refine ⟨s1, q.items, _, rfl, C29_destroy h, by rw [e.1]; exact C29_destroy h', ?_⟩
    simp only [Seq.step]
    split
    · exact SeqL.sorted_perm f q.items
    · exact List.Perm.refl _

/-! Cases that meet the hypotheses. -/

/-- Three appended items, one taken from the front. -/
example : (CList.create : CList Nat).allowedRun [.append 3 (some 7), .append 1 (some 9), .append 3 (some 2), .pop] := by
  refine ⟨fun _ _ => rfl, fun s1 o1 e1 => ?_⟩
  cases e1
  refine ⟨fun p hp => by cases hp; rfl, fun s2 o2 e2 => ?_⟩
  cases e2
  refine ⟨fun p hp => by cases hp; rfl, fun s3 o3 e3 => ?_⟩
  cases e3
  exact ⟨trivial, fun _ _ _ => trivial⟩

example : ((CList.create : CList Nat).run [.append 3 (some 7), .append 1 (some 9), .append 3 (some 2), .pop]).map (fun r => (r.2, r.1.destroy)) =
    some ([.ok true, .ok true, .ok true, .item (some 3)], some [1, 3]) := rfl

example : CList.Reach (CList.create : CList Nat) ⟨[], []⟩ := CList.Reach.create

/-- The iterator 0 goes on while the iterator 1 removes and inserts. -/
example : ((CList.create : CList Nat).run [.append 1 (some 1), .append 2 (some 2), .append 3 (some 3), .iterNew 0, .iterNew 1, .next 0, .next 1,
    .remove 1, .next 1, .insert 1 9 (some 1), .next 0, .next 0, .next 0]).map (fun r => (r.2.drop 9, r.1.destroy)) =
    some ([.ok true, .item (some 2), .item (some 3), .item none], some [9, 2, 3]) := rfl

/-- Sorting pairs by their first component. -/
example : Spec.TotalPreorder (fun x y : Int × Int => x.1 - y.1) := ⟨fun _ _ => by omega, fun _ _ _ => by omega⟩

example : ((CList.create : CList (Int × Int)).run [.append (2, 0) (some 1), .append (1, 1) (some 2), .append (2, 2) (some 3), .append (1, 3) (some 4),
    .sort (fun x y => x.1 - y.1)]).map (fun r => r.1.destroy) = some (some [(1, 1), (1, 3), (2, 0), (2, 2)]) := rfl

end Conman
