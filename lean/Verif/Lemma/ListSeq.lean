import Verif.Lemma.ListStep

/-
Lemmas about sequences with positions (`Spec.Seq`).
-/
namespace Conman
open Spec
variable {α : Type}

namespace SeqL

def Has (q : Seq α) (k : Nat) : Prop := k ∈ q.curs.map (·.1)

theorem cur_map (l : List α) (q : Seq α) (f : Cursor → Cursor) {k : Nat} (hk : Has q k) : (⟨l, q.map f⟩ : Seq α).cur k = f (q.cur k) := by
  unfold Seq.cur Seq.map
  dsimp only
  rw [CList.find_map]
  obtain ⟨e, he, rfl⟩ := List.mem_map.1 hk
  cases hf : q.curs.find? (fun e' => e'.1 == e.1) with
  | none => have := List.find?_eq_none.1 hf e he; simp at this
  | some e' => rfl

theorem has_map (l : List α) (q : Seq α) (f : Cursor → Cursor) {k : Nat} : Has (⟨l, q.map f⟩ : Seq α) k ↔ Has q k := by
  unfold Has Seq.map
  dsimp only
  rw [List.map_map]; rfl

theorem cur_set_ne (q : Seq α) {k k' : Nat} (c : Cursor) (h : k' ≠ k) : (q.setCur k' c).cur k = q.cur k := by
  unfold Seq.cur Seq.setCur
  dsimp only
  congr 1
  generalize q.curs = l
  induction l with
  | nil => rfl
  | cons e l ih =>
    rw [List.map_cons, List.find?_cons, List.find?_cons]
    by_cases he : e.1 = k'
    · rw [if_pos he, show ((k', c).1 == k) = false by simpa using h, show (e.1 == k) = false by rw [he]; simpa using h]
      exact ih
    · rw [if_neg he]
      cases hh : e.1 == k
      · exact ih
      · rfl

theorem cur_set_eq (q : Seq α) {k : Nat} (c : Cursor) (hk : Has q k) : (q.setCur k c).cur k = c := by
  obtain ⟨e, he, hek⟩ := List.mem_map.1 hk
  unfold Seq.cur Seq.setCur
  dsimp only
  revert he
  generalize q.curs = l
  induction l with
  | nil => intro he; simp at he
  | cons e' l ih =>
    intro he
    rw [List.map_cons, List.find?_cons]
    by_cases h1 : e'.1 = k
    · rw [if_pos h1, show ((k, c).1 == k) = true by simp]; rfl
    · rw [if_neg h1, show (e'.1 == k) = false by simpa using h1]
      rcases List.mem_cons.1 he with rfl | he
      · exact absurd hek h1
      · exact ih he

theorem slot_le_passed (c : Cursor) : c.slot ≤ c.passed := by unfold Cursor.slot; split <;> omega

theorem filter_insertIdx (p : α → Bool) {x : α} (hx : p x = false) : ∀ (l : List α) (i : Nat), (l.insertIdx i x).filter p = l.filter p
  | l, 0 => by simp [hx]
  | [], i + 1 => by simp
  | y :: l, i + 1 => by
    rw [List.insertIdx_succ_cons, List.filter_cons, List.filter_cons, filter_insertIdx p hx l i]

theorem filter_eraseIdx (p : α → Bool) : ∀ (l : List α) (i : Nat), (∀ x, l[i]? = some x → p x = false) → (l.eraseIdx i).filter p = l.filter p
  | [], _, _ => by simp
  | y :: l, 0, h => by
    have : p y = false := h y rfl
    simp [this]
  | y :: l, i + 1, h => by
    rw [List.eraseIdx_cons_succ, List.filter_cons, List.filter_cons, filter_eraseIdx p l i (fun x hx => h x (by simpa using hx))]

theorem insertAt_todo (q : Seq α) {k : Nat} (hk : Has q k) {j : Nat} (hj : j ≤ q.items.length) (x : α) :
    (q.insertAt j x).todo k = q.todo k ∨ ∃ i, (q.insertAt j x).todo k = (q.todo k).insertIdx i x := by
  unfold Seq.todo Seq.insertAt
  rw [cur_map _ _ _ hk]
  have hs := slot_le_passed (q.cur k)
  have hs2 : (q.cur k).passed ≤ (q.cur k).slot + 1 := by unfold Cursor.slot; split <;> omega
  unfold Cursor.inserted
  by_cases h1 : j ≤ (q.cur k).slot
  · left
    rw [if_pos h1]
    apply List.ext_getElem?
    intro i
    dsimp only
    rw [List.getElem?_drop, List.getElem?_drop, CList.insertIdx_get _ _ _ hj, if_neg (by omega), if_neg (by omega)]
    congr 1; omega
  · right
    rw [if_neg h1]
    refine ⟨j - (q.cur k).passed, ?_⟩
    apply List.ext_getElem?
    intro i
    dsimp only
    rw [List.getElem?_drop, CList.insertIdx_get _ _ _ hj, CList.insertIdx_get _ _ _ (by rw [List.length_drop]; omega), List.getElem?_drop,
      List.getElem?_drop]
    by_cases h2 : i < j - (q.cur k).passed
    · rw [if_pos h2, if_pos (by omega)]
    · rw [if_neg h2, if_neg (by omega)]
      by_cases h3 : i = j - (q.cur k).passed
      · rw [if_pos h3, if_pos (by omega)]
      · rw [if_neg h3, if_neg (by omega)]; congr 1; omega

theorem insertAt_filter (q : Seq α) {k : Nat} (hk : Has q k) {j : Nat} (hj : j ≤ q.items.length) {x : α} (p : α → Bool) (hx : p x = false) :
    ((q.insertAt j x).todo k).filter p = (q.todo k).filter p := by
  rcases insertAt_todo q hk hj x with h | ⟨i, h⟩
  · rw [h]
  · rw [h, filter_insertIdx p hx]

theorem removeAt_todo (q : Seq α) {k : Nat} (hk : Has q k) (j : Nat) :
    (q.removeAt j).todo k = if j < (q.cur k).passed then q.todo k else (q.todo k).eraseIdx (j - (q.cur k).passed) := by
  unfold Seq.todo Seq.removeAt
  rw [cur_map _ _ _ hk]
  have hs := slot_le_passed (q.cur k)
  have e1 : j < (q.cur k).passed → (q.items.eraseIdx j).drop ((q.cur k).passed - 1) = q.items.drop (q.cur k).passed := by
    intro h
    apply List.ext_getElem?
    intro i
    rw [List.getElem?_drop, List.getElem?_drop, List.getElem?_eraseIdx, if_neg (by omega)]
    congr 1; omega
  have e2 : ¬ j < (q.cur k).passed → (q.items.eraseIdx j).drop (q.cur k).passed = (q.items.drop (q.cur k).passed).eraseIdx (j - (q.cur k).passed) := by
    intro h
    apply List.ext_getElem?
    intro i
    rw [List.getElem?_drop, List.getElem?_eraseIdx, List.getElem?_eraseIdx, List.getElem?_drop, List.getElem?_drop]
    by_cases h2 : i < j - (q.cur k).passed
    · rw [if_pos h2, if_pos (by omega)]
    · rw [if_neg h2, if_neg (by omega)]; rfl
  unfold Cursor.removed
  dsimp only
  by_cases h1 : j < (q.cur k).slot
  · rw [if_pos h1, if_pos (by omega)]; exact e1 (by omega)
  · rw [if_neg h1]
    by_cases h2 : j < (q.cur k).passed
    · rw [if_pos h2, if_pos h2]; exact e1 h2
    · rw [if_neg h2, if_neg h2]
      by_cases h3 : j = (q.cur k).passed
      · rw [if_pos h3]; exact e2 h2
      · rw [if_neg h3]; exact e2 h2

theorem removeAt_filter (q : Seq α) {k : Nat} (hk : Has q k) {j : Nat} (p : α → Bool) (hx : ∀ x, q.items[j]? = some x → p x = false) :
    ((q.removeAt j).todo k).filter p = (q.todo k).filter p := by
  rw [removeAt_todo q hk]
  split
  · rfl
  · next h =>
    refine filter_eraseIdx p _ _ (fun x e => hx x ?_)
    unfold Seq.todo at e
    rw [List.getElem?_drop] at e
    rw [← e]; congr 1; omega

theorem has_removeAt (q : Seq α) {k : Nat} (j : Nat) : Has (q.removeAt j) k ↔ Has q k := has_map ..

theorem removeAll_filter (f p : α → Bool) {k : Nat} : ∀ (n : Nat) (q : Seq α) (j : Nat), Has q k → (∀ v ∈ q.items, f v = true → p v = false) →
    ((Seq.removeAll f n q j).todo k).filter p = (q.todo k).filter p ∧ Has (Seq.removeAll f n q j) k
  | 0, _, _, hk, _ => ⟨rfl, hk⟩
  | n + 1, q, j, hk, h => by
    rw [Seq.removeAll]
    cases hj : q.items[j]? with
    | none => exact ⟨rfl, hk⟩
    | some v =>
      dsimp only
      by_cases hf : f v = true
      · rw [if_pos hf]
        have hv := h v (List.mem_of_getElem? hj) hf
        have := removeAll_filter f p n (q.removeAt j) j ((has_removeAt q j).2 hk)
          (fun w hw => h w ((List.eraseIdx_sublist ..).subset hw))
        rw [this.1, removeAt_filter q hk p (fun x hx => by rw [hj] at hx; rw [← Option.some.inj hx]; exact hv)]
        exact ⟨rfl, this.2⟩
      · rw [if_neg hf]
        exact removeAll_filter f p n q (j + 1) hk h

theorem next_items (q : Seq α) (k : Nat) : (q.next k).1.items = q.items := by
  unfold Seq.next; dsimp only; split <;> rfl

theorem next_cur_ne (q : Seq α) {k k' : Nat} (h : k' ≠ k) : (q.next k').1.cur k = q.cur k := by
  unfold Seq.next; dsimp only; split <;> exact cur_set_ne _ _ h

theorem next_todo (q : Seq α) {k : Nat} (hk : Has q k) : (q.next k).2 = (q.todo k).head? ∧ (q.next k).1.todo k = (q.todo k).tail := by
  have hh : (q.todo k).head? = q.items[(q.cur k).passed]? := by
    unfold Seq.todo; rw [List.head?_drop]
  have ht : (q.todo k).tail = q.items.drop ((q.cur k).passed + 1) := by
    unfold Seq.todo; rw [List.tail_drop]
  rw [hh, ht]
  unfold Seq.next
  dsimp only
  cases he : q.items[(q.cur k).passed]? with
  | none =>
    refine ⟨rfl, ?_⟩
    unfold Seq.todo
    rw [cur_set_eq q _ hk]
    dsimp only
    have hl : q.items.length ≤ (q.cur k).passed := List.getElem?_eq_none_iff.1 he
    rw [show (q.setCur k { q.cur k with last := false }).items = q.items from rfl, List.drop_eq_nil_of_le hl,
      List.drop_eq_nil_of_le (Nat.le_succ_of_le hl)]
  | some v =>
    refine ⟨rfl, ?_⟩
    unfold Seq.todo
    rw [cur_set_eq q _ hk]
    rfl

theorem has_next (q : Seq α) {k k' : Nat} : Has (q.next k').1 k ↔ Has q k := by
  unfold Has; rw [CList.next_keys]

/-- What an iterator goes over when it looks for an item. -/
def over (f : α → Bool) (l : List α) : List α := if l.find? f = none then l else l.takeWhile (fun v => !f v) ++ (l.find? f).toList

theorem over_cons (f : α → Bool) (v : α) (l : List α) : over f (v :: l) = if f v then [v] else v :: over f l := by
  unfold over
  rw [List.find?_cons]
  cases h : f v
  · simp only [Bool.false_eq_true, if_false]
    by_cases h2 : l.find? f = none
    · rw [if_pos h2, if_pos h2]
    · rw [if_neg h2, if_neg h2, List.takeWhile_cons, h]; rfl
  · simp [h]

theorem find_todo (f : α → Bool) {k : Nat} : ∀ (n : Nat) (q : Seq α), Has q k → (q.todo k).length < n →
    (Seq.find f k n q).2 = (q.todo k).find? f ∧ q.todo k = over f (q.todo k) ++ (Seq.find f k n q).1.todo k ∧ (Seq.find f k n q).1.items = q.items
  | 0, q, _, hn => by omega
  | n + 1, q, hk, hn => by
    obtain ⟨h1, h2⟩ := next_todo q hk
    rw [Seq.find]
    rw [h1]
    cases ht : q.todo k with
    | nil =>
      rw [ht] at h2
      simp [over, h2, next_items]
    | cons v l =>
      rw [ht] at h2
      simp only [List.head?_cons, List.tail_cons] at h2 ⊢
      by_cases hf : f v = true
      · rw [if_pos hf, over_cons, if_pos hf]
        refine ⟨by simp [hf], ?_, next_items q k⟩
        show v :: l = [v] ++ (q.next k).1.todo k
        rw [h2]; rfl
      · rw [if_neg hf, over_cons, if_neg hf]
        have := find_todo f n (q.next k).1 ((has_next q).2 hk) (by rw [h2]; rw [ht] at hn; simpa using hn)
        rw [h2, next_items] at this
        obtain ⟨t1, t2, t3⟩ := this
        refine ⟨by rw [t1]; simp [hf], ?_, t3⟩
        rw [List.cons_append, ← t2]

theorem find_other (f : α → Bool) {k k' : Nat} (h : k' ≠ k) : ∀ (n : Nat) (q : Seq α), (Seq.find f k' n q).1.todo k = q.todo k
  | 0, _ => rfl
  | n + 1, q => by
    have e : (q.next k').1.todo k = q.todo k := by unfold Seq.todo; rw [next_cur_ne q h, next_items]
    rw [Seq.find]
    split
    · exact e
    · split
      · exact e
      · rw [find_other f h n, e]

/-- One step: what is yet to come for an iterator is what it goes over and what is then yet to come. -/
theorem step_todo {s : CList α} {as : List Nat} {q : Seq α} (hr : CList.Rep s as q) {k : Nat} (hk : Has q k) (op : LOp α) (ha : s.allowed op)
    (hm : ¬ op.moves k) (p : α → Bool) (h1 : ∀ x ∈ op.adds, p x = false) (h2 : ∀ x ∈ q.takes op, p x = false) :
    (q.todo k).filter p = (q.passes k op).filter p ++ ((q.step op).1.todo k).filter p := by
  have hl := hr.len
  cases op with
  | append x a =>
    simp only [Seq.passes, Seq.step, List.filter_nil, List.nil_append]
    split
    · rw [insertAt_filter q hk (Nat.le_refl _) p (h1 x (by simp [LOp.adds]))]
    · rfl
  | prepend x a =>
    simp only [Seq.passes, Seq.step, List.filter_nil, List.nil_append]
    split
    · rw [insertAt_filter q hk (Nat.zero_le _) p (h1 x (by simp [LOp.adds]))]
    · rfl
  | pop =>
    simp only [Seq.passes, Seq.step, List.filter_nil, List.nil_append]
    rw [removeAt_filter q hk p]
    intro x hx
    apply h2
    simp only [Seq.takes]
    cases hi : q.items with
    | nil => rw [hi] at hx; simp at hx
    | cons y l => rw [hi] at hx; simp at hx; simp [hx]
  | peek => rfl
  | count => rfl
  | findFirst f => rfl
  | deleteAll f =>
    simp only [Seq.passes, Seq.step, List.filter_nil, List.nil_append]
    rw [(removeAll_filter f p _ q 0 hk (fun v hv hf => h2 v (List.mem_filter.2 ⟨hv, hf⟩))).1]
  | sort f => exact absurd trivial hm
  | iterNew k' =>
    simp only [Seq.passes, Seq.step, List.filter_nil, List.nil_append]
    have hne : k' ≠ k := hm
    have : (⟨q.items, (k', ⟨0, false⟩) :: q.curs⟩ : Seq α).cur k = q.cur k := by
      unfold Seq.cur
      dsimp only
      rw [List.find?_cons, show (k' == k) = false by simpa using hne]
    unfold Seq.todo
    rw [this]
  | iterReset k' =>
    simp only [Seq.passes, Seq.step, List.filter_nil, List.nil_append]
    unfold Seq.todo
    rw [cur_set_ne q _ (show k' ≠ k from hm)]; rfl
  | iterDestroy k' =>
    simp only [Seq.passes, Seq.step, List.filter_nil, List.nil_append]
    have hne : k' ≠ k := hm
    have : (⟨q.items, q.curs.filter (fun e => e.1 ≠ k')⟩ : Seq α).cur k = q.cur k := by
      unfold Seq.cur
      dsimp only
      rw [List.find?_filter]
      congr 2
      apply congrArg (fun g => List.find? g q.curs)
      funext e
      by_cases he : e.1 = k
      · simp [he, hne.symm]
      · simp [he]
    unfold Seq.todo
    rw [this]
  | next k' =>
    simp only [Seq.passes, Seq.step]
    by_cases hkk : k' = k
    · subst hkk
      rw [if_pos rfl, (next_todo q hk).2, ← List.filter_append]
      congr 1
      cases q.todo k' <;> simp
    · rw [if_neg hkk]
      unfold Seq.todo
      rw [next_cur_ne q hkk, next_items]; rfl
  | insert k' x a =>
    simp only [Seq.passes, Seq.step, List.filter_nil, List.nil_append]
    split
    · have hk' : (s.iter k').isSome = true := ha.1
      have := CList.slot_le (hr.cur_good hk')
      rw [insertAt_filter q hk (by omega) p (h1 x (by simp [LOp.adds]))]
    · rfl
  | find k' f =>
    simp only [Seq.passes, Seq.step]
    by_cases hkk : k' = k
    · subst hkk
      rw [if_pos rfl, ← List.filter_append]
      have hlen : (q.todo k').length < q.items.length + 1 := by unfold Seq.todo; rw [List.length_drop]; omega
      have := (find_todo f (q.items.length + 1) q hk hlen).2.1
      unfold over at this
      rw [← this]
    · rw [if_neg hkk, find_other f hkk]; rfl
  | remove k' =>
    simp only [Seq.passes, Seq.step, List.filter_nil, List.nil_append]
    have h3 : ∀ x ∈ (q.remove k').2.toList, p x = false := h2
    unfold Seq.remove at h3 ⊢
    dsimp only at h3 ⊢
    split
    · next hl =>
      rw [if_pos hl] at h3
      rw [removeAt_filter q hk p]
      intro x hx
      exact h3 x (by rw [hx]; simp)
    · rfl

theorem step_has {q : Seq α} {k : Nat} (hk : Has q k) (op : LOp α) (hm : ¬ op.moves k) : Has (q.step op).1 k := by
  cases op with
  | append x a => simp only [Seq.step]; split <;> first | exact (has_map ..).2 hk | exact hk
  | prepend x a => simp only [Seq.step]; split <;> first | exact (has_map ..).2 hk | exact hk
  | pop => exact (has_map ..).2 hk
  | peek => exact hk
  | count => exact hk
  | findFirst f => exact hk
  | deleteAll f => exact (removeAll_filter f (fun _ => false) _ q 0 hk (fun _ _ _ => rfl)).2
  | sort f => exact absurd trivial hm
  | iterNew k' => unfold Has; simp only [Seq.step, List.map_cons]; exact List.mem_cons_of_mem _ hk
  | iterReset k' => unfold Has; simp only [Seq.step]; rw [CList.setCur_keys]; exact hk
  | iterDestroy k' =>
    have hne : k' ≠ k := hm
    obtain ⟨e, he, hek⟩ := List.mem_map.1 hk
    refine List.mem_map.2 ⟨e, List.mem_filter.2 ⟨he, ?_⟩, hek⟩
    have : e.1 ≠ k' := by rw [hek]; exact hne.symm
    simpa using this
  | next k' => exact (has_next q).2 hk
  | insert k' x a => simp only [Seq.step]; split <;> first | exact (has_map ..).2 hk | exact hk
  | find k' f =>
    simp only [Seq.step]
    generalize q.items.length + 1 = n
    induction n generalizing q with
    | zero => exact hk
    | succ n ih =>
      rw [Seq.find]
      split
      · exact (has_next q).2 hk
      · split
        · exact (has_next q).2 hk
        · exact ih ((has_next q).2 hk)
  | remove k' =>
    simp only [Seq.step]
    unfold Seq.remove
    dsimp only
    split
    · exact (has_map ..).2 hk
    · exact hk

theorem insertAt_last (q : Seq α) {k : Nat} (hk : Has q k) {j : Nat} (hj : j ≤ q.items.length) (x : α) {v : α}
    (hg : (q.cur k).last = true → 0 < (q.cur k).passed) (h : q.lastItem k = some v) : (q.insertAt j x).lastItem k = some v := by
  unfold Seq.lastItem at *
  have hl : (q.cur k).last = true := by
    by_cases hl : (q.cur k).last = true
    · exact hl
    · rw [if_neg hl] at h; simp at h
  rw [if_pos hl] at h
  have hp := hg hl
  unfold Seq.insertAt
  rw [cur_map _ _ _ hk]
  unfold Cursor.inserted
  by_cases h1 : j ≤ (q.cur k).slot
  · rw [if_pos h1, if_pos hl]
    have : ({ q.cur k with passed := (q.cur k).passed + 1 } : Cursor).slot = (q.cur k).slot + 1 := by
      unfold Cursor.slot; dsimp only; rw [if_pos hl, if_pos hl]; omega
    rw [this]
    dsimp only
    rw [CList.insertIdx_get _ _ _ hj, if_neg (by omega), if_neg (by omega)]; exact h
  · rw [if_neg h1, if_pos hl]
    dsimp only
    rw [CList.insertIdx_get _ _ _ hj, if_pos (by omega)]; exact h

theorem removed_last_false {c : Cursor} (h : c.last = false) (j : Nat) : (Cursor.removed j c).last = false := by
  unfold Cursor.removed
  split
  · exact h
  · split
    · rfl
    · split
      · rfl
      · exact h

theorem removeAt_last (q : Seq α) {k : Nat} (hk : Has q k) (j : Nat) {v : α} (hg : (q.cur k).last = true → 0 < (q.cur k).passed)
    (h : q.lastItem k = some v) :
    ((q.removeAt j).lastItem k = some v ∧ ((q.removeAt j).todo k).head? = (q.todo k).head? ∧
      (((q.removeAt j).cur k).last = true → 0 < ((q.removeAt j).cur k).passed)) ∨
    (((q.removeAt j).cur k).last = false ∧ (q.items[j]? = some v ∨ q.items[j]? = (q.todo k).head?)) := by
  have hc : (q.removeAt j).cur k = Cursor.removed j (q.cur k) := cur_map _ _ _ hk
  have ht := removeAt_todo q hk j
  unfold Seq.lastItem at *
  have hl : (q.cur k).last = true := by
    by_cases hl : (q.cur k).last = true
    · exact hl
    · rw [if_neg hl] at h; simp at h
  rw [if_pos hl] at h
  have hp := hg hl
  have hs : (q.cur k).slot + 1 = (q.cur k).passed := by unfold Cursor.slot; rw [if_pos hl]; omega
  rw [hc, ht]
  show (_ ∧ _) ∨ _
  have hit : (q.removeAt j).items = q.items.eraseIdx j := rfl
  unfold Cursor.removed
  by_cases h1 : j < (q.cur k).slot
  · left
    rw [if_pos h1, if_pos hl, hit]
    have : ({ q.cur k with passed := (q.cur k).passed - 1 } : Cursor).slot = (q.cur k).slot - 1 := by
      unfold Cursor.slot; dsimp only; rw [if_pos hl, if_pos hl]
    rw [this, List.getElem?_eraseIdx, if_neg (by omega), show (q.cur k).slot - 1 + 1 = (q.cur k).slot by omega, if_pos (by omega)]
    exact ⟨h, rfl, fun _ => by dsimp only; omega⟩
  · rw [if_neg h1]
    by_cases h2 : j < (q.cur k).passed
    · right
      rw [if_pos h2]
      exact ⟨rfl, Or.inl (by rw [show j = (q.cur k).slot by omega]; exact h)⟩
    · rw [if_neg h2]
      by_cases h3 : j = (q.cur k).passed
      · right
        rw [if_pos h3]
        refine ⟨rfl, Or.inr ?_⟩
        unfold Seq.todo
        rw [List.head?_drop, h3]
      · left
        rw [if_neg h3, if_pos hl, hit, List.getElem?_eraseIdx, if_pos (by omega), if_neg h2]
        refine ⟨h, ?_, hg⟩
        rw [List.head?_eq_getElem?, List.getElem?_eraseIdx, if_pos (by omega), List.head?_eq_getElem?]

theorem removeAll_last_false (f : α → Bool) {k : Nat} : ∀ (n : Nat) (q : Seq α) (j : Nat), Has q k → (q.cur k).last = false →
    ((Seq.removeAll f n q j).cur k).last = false
  | 0, _, _, _, h => h
  | n + 1, q, j, hk, h => by
    rw [Seq.removeAll]
    split
    · exact h
    · split
      · refine removeAll_last_false f n _ j ((has_removeAt q j).2 hk) ?_
        rw [show (q.removeAt j).cur k = Cursor.removed j (q.cur k) from cur_map _ _ _ hk]
        exact removed_last_false h j
      · exact removeAll_last_false f n q (j + 1) hk h

theorem removeAll_last (f : α → Bool) {k : Nat} {v : α} : ∀ (n : Nat) (q : Seq α) (j : Nat), Has q k → ((q.cur k).last = true → 0 < (q.cur k).passed) →
    q.lastItem k = some v → (Seq.removeAll f n q j).lastItem k = some v ∨
      (((Seq.removeAll f n q j).cur k).last = false ∧ (f v = true ∨ ∃ w, (q.todo k).head? = some w ∧ f w = true))
  | 0, _, _, _, _, h => Or.inl h
  | n + 1, q, j, hk, hg, h => by
    rw [Seq.removeAll]
    cases hj : q.items[j]? with
    | none => exact Or.inl h
    | some u =>
      dsimp only
      by_cases hf : f u = true
      · rw [if_pos hf]
        have hk' := (has_removeAt q j).2 hk
        rcases removeAt_last q hk j hg h with ⟨a, b, c⟩ | ⟨a, b⟩
        · rcases removeAll_last f n (q.removeAt j) j hk' c a with d | ⟨d, e⟩
          · exact Or.inl d
          · rw [b] at e; exact Or.inr ⟨d, e⟩
        · refine Or.inr ⟨removeAll_last_false f n _ j hk' a, ?_⟩
          rcases b with b | b
          · left; rw [hj] at b; rw [← Option.some.inj b]; exact hf
          · right; exact ⟨u, by rw [← b, hj], hf⟩
      · rw [if_neg hf]
        exact removeAll_last f n q (j + 1) hk hg h

theorem cur_new (q : Seq α) {k k' : Nat} (hne : k' ≠ k) : (⟨q.items, (k', ⟨0, false⟩) :: q.curs⟩ : Seq α).cur k = q.cur k := by
  unfold Seq.cur
  dsimp only
  rw [List.find?_cons, show (k' == k) = false by simpa using hne]

theorem cur_end (q : Seq α) {k k' : Nat} (hne : k' ≠ k) : (⟨q.items, q.curs.filter (fun e => e.1 ≠ k')⟩ : Seq α).cur k = q.cur k := by
  unfold Seq.cur
  dsimp only
  rw [List.find?_filter]
  congr 2
  apply congrArg (fun g => List.find? g q.curs)
  funext e
  by_cases he : e.1 = k
  · simp [he, hne.symm]
  · simp [he]

theorem find_other_cur (f : α → Bool) {k k' : Nat} (h : k' ≠ k) : ∀ (n : Nat) (q : Seq α),
    (Seq.find f k' n q).1.cur k = q.cur k ∧ (Seq.find f k' n q).1.items = q.items
  | 0, _ => ⟨rfl, rfl⟩
  | n + 1, q => by
    have e1 := next_cur_ne q h
    have e2 := next_items q k'
    rw [Seq.find]
    split
    · exact ⟨e1, e2⟩
    · split
      · exact ⟨e1, e2⟩
      · obtain ⟨a, b⟩ := find_other_cur f h n (q.next k').1
        exact ⟨a.trans e1, b.trans e2⟩

/-! Sorting. -/

theorem insertSorted_perm (f : α → α → Int) (x : α) : ∀ l : List α, (Seq.insertSorted f x l).Perm (x :: l)
  | [] => List.Perm.refl _
  | y :: l => by
    rw [Seq.insertSorted]
    split
    · exact List.Perm.refl _
    · exact ((insertSorted_perm f x l).cons y).trans (List.Perm.swap ..)

theorem place_perm (f : α → α → Int) (l : List α) (x : α) : (Seq.place f l x).Perm (l ++ [x]) := by
  unfold Seq.place
  cases hl : l.getLast? with
  | none => rw [List.getLast?_eq_none_iff.1 hl]; exact List.Perm.refl _
  | some y =>
    dsimp only
    split
    · exact (insertSorted_perm f x l).trans (List.perm_append_comm (l₁ := [x]))
    · exact List.Perm.refl _

theorem sorted_perm (f : α → α → Int) (l : List α) : (Seq.sorted f l).Perm l := by
  have key : ∀ (l acc : List α), (l.foldl (Seq.place f) acc).Perm (acc ++ l) := by
    intro l
    induction l with
    | nil => intro acc; rw [List.append_nil]; exact List.Perm.refl _
    | cons x l ih =>
      intro acc
      rw [List.foldl_cons]
      refine (ih _).trans ?_
      rw [show acc ++ x :: l = (acc ++ [x]) ++ l by simp]
      exact (place_perm f acc x).append_right l
  exact key l []

section
variable {f : α → α → Int} (ha : ∀ x y, f x y < 0 ↔ 0 < f y x) (ht : ∀ x y z, f x y ≤ 0 → f y z ≤ 0 → f x z ≤ 0)
include ha ht

theorem lt_of_lt_le {x y z : α} (h1 : f x y < 0) (h2 : f y z ≤ 0) : f x z < 0 := by
  by_cases h : f x z < 0
  · exact h
  · exfalso
    have e1 : f z x ≤ 0 := by
      have := (ha x z); omega
    have e2 := ht y z x h2 e1
    have := (ha x y); omega

theorem insertSorted_sorted (x : α) : ∀ l : List α, l.Pairwise (fun x y => f x y ≤ 0) → (Seq.insertSorted f x l).Pairwise (fun x y => f x y ≤ 0)
  | [], _ => List.pairwise_singleton ..
  | y :: l, h => by
    rw [Seq.insertSorted]
    split
    · next hx =>
      refine List.pairwise_cons.2 ⟨fun z hz => ?_, h⟩
      rcases List.mem_cons.1 hz with rfl | hz
      · omega
      · have := lt_of_lt_le ha ht hx ((List.pairwise_cons.1 h).1 z hz); omega
    · next hx =>
      refine List.pairwise_cons.2 ⟨fun z hz => ?_, insertSorted_sorted x l (List.pairwise_cons.1 h).2⟩
      rcases List.mem_cons.1 ((insertSorted_perm f x l).mem_iff.1 hz) with rfl | hz
      · have := ha z y; omega
      · exact (List.pairwise_cons.1 h).1 z hz

theorem eq_class {x y z : α} (h1 : f z x = 0) (h2 : f z y = 0) : ¬ f x y < 0 := by
  have e1 : f y z ≤ 0 := by have := ha z y; omega
  have e2 := ht y z x e1 (by omega)
  have := ha x y; omega

theorem insertSorted_stable (x z : α) : ∀ l : List α, l.Pairwise (fun x y => f x y ≤ 0) →
    (Seq.insertSorted f x l).filter (fun y => f z y = 0) = (l ++ [x]).filter (fun y => f z y = 0)
  | [], _ => rfl
  | y :: l, h => by
    rw [Seq.insertSorted]
    split
    · next hx =>
      by_cases hz : f z x = 0
      · have none : (y :: l).filter (fun y => decide (f z y = 0)) = [] := by
          rw [List.filter_eq_nil_iff]
          intro w hw hc
          have hc : f z w = 0 := by simpa using hc
          have : f x w < 0 := by
            rcases List.mem_cons.1 hw with rfl | hw
            · exact hx
            · exact lt_of_lt_le ha ht hx ((List.pairwise_cons.1 h).1 w hw)
          exact eq_class ha ht hz hc this
        rw [List.filter_append, List.filter_cons, none]; simp [hz]
      · rw [List.filter_append, List.filter_cons]; simp [hz]
    · rw [List.cons_append, List.filter_cons, List.filter_cons, insertSorted_stable x z l (List.pairwise_cons.1 h).2]

theorem sorted_ok (l : List α) : (Seq.sorted f l).Perm l ∧ (Seq.sorted f l).Pairwise (fun x y => f x y ≤ 0) ∧
    ∀ z, (Seq.sorted f l).filter (fun y => f z y = 0) = l.filter (fun y => f z y = 0) := by
  refine ⟨sorted_perm f l, ?_⟩
  have key : ∀ (l acc : List α), acc.Pairwise (fun x y => f x y ≤ 0) → (l.foldl (Seq.place f) acc).Pairwise (fun x y => f x y ≤ 0) ∧
      ∀ z, (l.foldl (Seq.place f) acc).filter (fun y => f z y = 0) = (acc ++ l).filter (fun y => f z y = 0) := by
    intro l
    induction l with
    | nil => intro acc h; exact ⟨h, fun z => by rw [List.append_nil]; rfl⟩
    | cons x l ih =>
      intro acc h
      have hp : (Seq.place f acc x).Pairwise (fun x y => f x y ≤ 0) ∧
          ∀ z, (Seq.place f acc x).filter (fun y => f z y = 0) = (acc ++ [x]).filter (fun y => f z y = 0) := by
        unfold Seq.place
        cases hl : acc.getLast? with
        | none => rw [List.getLast?_eq_none_iff.1 hl]; exact ⟨List.pairwise_singleton .., fun _ => rfl⟩
        | some y =>
          dsimp only
          split
          · exact ⟨insertSorted_sorted ha ht x acc h, fun z => insertSorted_stable ha ht x z acc h⟩
          · next hx =>
            refine ⟨?_, fun _ => rfl⟩
            obtain ⟨init, rfl⟩ := List.getLast?_eq_some_iff.1 hl
            have e : f y x ≤ 0 := by have := ha x y; omega
            refine List.pairwise_append.2 ⟨h, List.pairwise_singleton .., fun w hw v hv => ?_⟩
            rw [List.mem_singleton.1 hv]
            rcases List.mem_append.1 hw with hw | hw
            · exact ht w y x ((List.pairwise_append.1 h).2.2 w hw y (by simp)) e
            · rw [List.mem_singleton.1 hw]; exact e
      rw [List.foldl_cons]
      obtain ⟨a, b⟩ := ih _ hp.1
      refine ⟨a, fun z => ?_⟩
      rw [b z, List.filter_append, hp.2 z, ← List.filter_append]; simp
  obtain ⟨a, b⟩ := key l [] List.Pairwise.nil
  exact ⟨a, fun z => by have := b z; rw [List.nil_append] at this; exact this⟩

end

end SeqL

end Conman
