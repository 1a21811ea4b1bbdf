import Verif.Lemma.ListSort

/-
Every operation of src/list.c does to the pointers what it should do to the sequence.
-/
namespace Conman
namespace CList
open Spec
variable {α : Type}

/-- States that can be reached by allowed operations, with the sequence they stand for. -/
inductive Reach : CList α → Seq α → Prop where
  | create : Reach create ⟨[], []⟩
  | step {s s' : CList α} {q : Seq α} {op : LOp α} {out : LOut α} : Reach s q → s.allowed op → s.step op = some (s', out) → Reach s' (q.step op).1

theorem removeAt_empty {s : CList α} {q : Seq α} (h : Rep s [] q) : q.removeAt 0 = q := by
  have hl := h.len
  have hi : q.items = [] := List.eq_nil_of_length_eq_zero (by simpa using hl)
  unfold Seq.removeAt Seq.map
  rw [hi]
  have : q.curs.map (fun e => (e.1, Cursor.removed 0 e.2)) = q.curs := by
    conv => rhs; rw [← List.map_id q.curs]
    apply List.map_congr_left
    intro e he
    obtain ⟨g1, g2⟩ := h.good e he
    have hp : e.2.passed = 0 := by simpa using g1
    have hlast : e.2.last = false := by
      cases hl : e.2.last with
      | false => rfl
      | true => have := g2 hl; omega
    have : Cursor.removed 0 e.2 = e.2 := by
      unfold Cursor.removed Cursor.slot
      rw [hlast, hp]
      simp only [Bool.false_eq_true, if_false, Nat.lt_irrefl, if_true]
      rw [← hlast, ← hp]
    rw [this]; rfl
  rw [this]
  cases q with
  | mk i c => simp only at hi; rw [hi]; rfl

theorem eraseP_filter {β : Type} (k : Nat) : ∀ l : List (Nat × β), (l.map (·.1)).Nodup → l.eraseP (fun e => e.1 == k) = l.filter (fun e => e.1 ≠ k)
  | [], _ => rfl
  | e :: l, h => by
    rw [List.map_cons, List.nodup_cons] at h
    rw [List.eraseP_cons, List.filter_cons]
    by_cases hk : e.1 = k
    · rw [show (e.1 == k) = true by simpa using hk, cond_true, if_neg (by simpa using hk)]
      symm
      rw [List.filter_eq_self]
      intro a ha
      have : a.1 ≠ k := fun hh => h.1 (List.mem_map.2 ⟨a, ha, by rw [hk, hh]⟩)
      simpa using this
    · rw [show (e.1 == k) = false by simpa using hk, cond_false, if_pos (by simpa using hk), eraseP_filter k l h.2]

theorem eraseP_map {β γ : Type} (g : β → γ) (k : Nat) : ∀ l : List (Nat × β),
    (l.map (fun e => (e.1, g e.2))).eraseP (fun e => e.1 == k) = (l.eraseP (fun e => e.1 == k)).map (fun e => (e.1, g e.2))
  | [] => rfl
  | e :: l => by
    rw [List.map_cons, List.eraseP_cons, List.eraseP_cons]
    dsimp only
    cases h : e.1 == k
    · rw [cond_false, cond_false, List.map_cons, eraseP_map g k l]
    · simp

theorem step_rep {s : CList α} {as : List Nat} {q : Seq α} (h : Rep s as q) (op : LOp α) (ha : s.allowed op) :
    ∃ s' as', s.step op = some (s', (q.step op).2) ∧ Rep s' as' (q.step op).1 := by
  have hl := h.len
  have create : ∀ j, j ≤ as.length → ∀ (x : α) (a : Option Nat), (∀ p, a = some p → s.data p = none) →
      ∃ s' as', (s.nodeCreate (slotAt as j) x a).map (fun r => (r.1, LOut.ok r.2)) = some (s', ((if a.isSome then (q.insertAt j x, LOut.ok true) else (q, .ok false)) : Seq α × LOut α).2) ∧
        Rep s' as' ((if a.isSome then (q.insertAt j x, LOut.ok true) else (q, .ok false)) : Seq α × LOut α).1 := by
    intro j hj x a hp
    cases a with
    | none => exact ⟨s, as, rfl, h⟩
    | some p =>
      obtain ⟨s', e, h'⟩ := nodeCreate_rep h hj x (hp p rfl)
      exact ⟨s', _, by rw [e]; rfl, h'⟩
  cases op with
  | append x a =>
    simp only [step, append, Seq.step, h.tail, hl]
    exact create _ (Nat.le_refl _) x a ha
  | prepend x a => exact create 0 (Nat.zero_le _) x a ha
  | pop =>
    simp only [step, pop, Seq.step]
    cases as with
    | nil =>
      have e : s.nodeDestroy none = some (s, none) := nodeDestroy_end h
      have hi : q.items = [] := List.eq_nil_of_length_eq_zero (by simpa using hl)
      refine ⟨s, [], by rw [e, hi]; rfl, by rw [removeAt_empty h]; exact h⟩
    | cons a as =>
      obtain ⟨s', e, h'⟩ := nodeDestroy_rep h (j := 0) (by simp)
      have e' : s.nodeDestroy none = some (s', q.items[0]?) := e
      exact ⟨s', _, by rw [e', List.head?_eq_getElem?]; rfl, h'⟩
  | peek =>
    simp only [step, peek, Seq.step]
    refine ⟨s, as, ?_, h⟩
    rw [h.head, List.head?_eq_getElem?]
    have := h.dat 0
    cases hh : as[0]? with
    | none =>
      rw [hh] at this
      cases hq : q.items[0]? with
      | none => rfl
      | some v => rw [hq] at this; simp at this
    | some a =>
      rw [hh] at this
      simp only [itemOf]
      have hd : some (s.data a) = q.items[0]?.map some := by simpa using this
      cases hq : q.items[0]? with
      | none => rw [hq] at hd; simp at hd
      | some v => rw [hq] at hd; simp at hd; rw [hd]; rfl
  | count => exact ⟨s, as, by simp only [step, Seq.step, h.count, hl], h⟩
  | findFirst f =>
    simp only [step, findFirst, Seq.step]
    refine ⟨s, as, ?_, h⟩
    rw [h.head, findFrom_rep h f _ 0 (by omega) (by rw [h.count]; omega)]; rfl
  | deleteAll f =>
    simp only [step, deleteAll, Seq.step]
    obtain ⟨s', as', e, h'⟩ := deleteFrom_rep f (s.count.toNat + 1) q.items.length 0 [] h (by omega) (by rw [h.count]; omega) (by omega)
    have e' : deleteFrom f (s.count.toNat + 1) s none [] = some (s', q.items.filter f) := by simpa [slotAt] using e
    exact ⟨s', as', by rw [e']; rfl, h'⟩
  | sort f =>
    obtain ⟨s', as', e, h'⟩ := sort_rep h f
    exact ⟨s', as', by simp only [step]; rw [e]; rfl, h'⟩
  | iterNew k =>
    simp only [step, Seq.step]
    refine ⟨_, as, rfl, h.nodup, h.links, h.items, h.tail, h.count, ?_, ?_, ?_⟩
    · simp only [iterCreate, List.map_cons, h.its, h.head]; rfl
    · intro e he
      rcases List.mem_cons.1 he with rfl | he
      · exact ⟨Nat.zero_le _, by simp⟩
      · exact h.good e he
    · dsimp only
      rw [List.map_cons, List.nodup_cons]
      refine ⟨fun hm => ?_, h.keys⟩
      have := (h.has_iff k).2 hm
      rw [show s.iter k = none from ha] at this
      simp at this
  | iterReset k =>
    simp only [step, iterReset, Seq.step]
    have hc := (h.cur (show (s.iter k).isSome = true from ha)).2
    refine ⟨_, as, by rw [hc]; rfl, ?_⟩
    have := setIter_rep h k (c := ⟨0, false⟩) ⟨Nat.zero_le _, by simp⟩
    rw [show conc as ⟨0, false⟩ = (⟨s.head, none⟩ : Iter) by simp [conc, Cursor.slot, slotAt, h.head]] at this
    exact this
  | iterDestroy k =>
    simp only [step, iterDestroy, Seq.step]
    have hc := (h.cur (show (s.iter k).isSome = true from ha)).2
    refine ⟨{ s with iters := s.iters.eraseP (fun e => e.1 == k) }, as, by rw [hc]; rfl, h.nodup, h.links, h.items, h.tail, h.count, ?_, ?_, ?_⟩
    · dsimp only
      rw [h.its, eraseP_map, eraseP_filter _ _ h.keys]
    · intro e he
      exact h.good e (List.mem_filter.1 he).1
    · exact List.Nodup.sublist (List.Sublist.map _ (List.filter_sublist ..)) h.keys
  | next k =>
    obtain ⟨s', e, h'⟩ := nextItem_rep h (show (s.iter k).isSome = true from ha)
    exact ⟨s', as, by simp only [step]; rw [e]; rfl, h'⟩
  | insert k x a =>
    have hk : (s.iter k).isSome = true := ha.1
    simp only [step, insert, Seq.step]
    rw [(h.cur hk).2, Option.bind_some, show (conc as (q.cur k)).prev = slotAt as (q.cur k).slot from rfl]
    exact create _ (slot_le (h.cur_good hk)) x a ha.2
  | find k f =>
    have hk : (s.iter k).isSome = true := ha
    simp only [step, findItem, Seq.step]
    have hc : s.count.toNat + 1 = q.items.length + 1 := by rw [h.count, hl]; rfl
    rw [hc]
    obtain ⟨s', e, h'⟩ := findLoop_rep (f := f) (k := k) (q.items.length + 1) h hk (by omega)
    exact ⟨s', as, by rw [e]; rfl, h'⟩
  | remove k =>
    obtain ⟨s', as', e, h'⟩ := remove_rep h (show (s.iter k).isSome = true from ha)
    exact ⟨s', as', by simp only [step]; rw [e]; rfl, h'⟩

theorem Reach.rep {s : CList α} {q : Seq α} (h : Reach s q) : ∃ as, Rep s as q := by
  induction h with
  | create => exact ⟨[], rep_create⟩
  | step _ ha hs ih =>
    obtain ⟨as, hr⟩ := ih
    obtain ⟨s2, as2, e, h2⟩ := step_rep hr _ ha
    rw [e] at hs
    simp only [Option.some.injEq, Prod.mk.injEq] at hs
    rw [← hs.1]
    exact ⟨as2, h2⟩

end CList
end Conman
