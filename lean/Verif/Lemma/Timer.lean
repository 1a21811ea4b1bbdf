import Verif.Model.Poll

namespace Conman
open Spec

theorem TV.lt_iff (a b : TV) : a.lt b = true ↔ TV.before a b := by
  unfold TV.lt TV.before
  split <;> simp <;> omega

theorem TV.lt_false (a b : TV) : a.lt b = false ↔ ¬ TV.before a b := by
  rw [← TV.lt_iff]; simp

/-- The list the timers created in the order of `l` make. -/
def sortOf (l : List Timer) : List Timer := l.foldl (fun s t => insTimer t s) []

theorem sortOf_snoc (l : List Timer) (t : Timer) : sortOf (l ++ [t]) = insTimer t (sortOf l) := by
  unfold sortOf; rw [List.foldl_append]; rfl

def SortedT (l : List Timer) : Prop := l.Pairwise (fun a b => ¬ TV.before b.tv a.tv)

theorem ins_split (t : Timer) : ∀ l, SortedT l → ∃ x y, l = x ++ y ∧ insTimer t l = x ++ t :: y ∧ (∀ u ∈ x, ¬ TV.before t.tv u.tv) ∧ (∀ u ∈ y, TV.before t.tv u.tv)
  | [], _ => ⟨[], [], rfl, rfl, by simp, by simp⟩
  | u :: l, h => by
    have hh := List.pairwise_cons.1 h
    rw [insTimer]
    split
    · rename_i e
      rw [TV.lt_iff] at e
      refine ⟨[], u :: l, rfl, rfl, by simp, fun v hv => ?_⟩
      rcases List.mem_cons.1 hv with rfl | hv
      · exact e
      · have := hh.1 v hv
        unfold TV.before at *; omega
    · rename_i e
      have e : ¬ TV.before t.tv u.tv := by rw [← TV.lt_iff]; exact e
      obtain ⟨x, y, e1, e2, e3, e4⟩ := ins_split t l hh.2
      refine ⟨u :: x, y, by rw [e1]; rfl, by rw [e2]; rfl, fun v hv => ?_, e4⟩
      rcases List.mem_cons.1 hv with rfl | hv
      · exact e
      · exact e3 v hv

theorem ins_at (t : Timer) : ∀ (x y : List Timer), (∀ u ∈ x, ¬ TV.before t.tv u.tv) → (∀ u ∈ y, TV.before t.tv u.tv) → insTimer t (x ++ y) = x ++ t :: y
  | [], [], _, _ => rfl
  | [], u :: y, _, h => by
    rw [List.nil_append, insTimer, if_pos ((TV.lt_iff _ _).2 (h u (by simp)))]; rfl
  | u :: x, y, h, h' => by
    rw [List.cons_append, insTimer, if_neg (by rw [TV.lt_iff]; exact h u (by simp)), ins_at t x y (fun v hv => h v (by simp [hv])) h']; rfl

theorem ins_sorted {t : Timer} {l : List Timer} (h : SortedT l) : SortedT (insTimer t l) := by
  obtain ⟨x, y, e1, e2, e3, e4⟩ := ins_split t l h
  rw [e2]
  subst e1
  unfold SortedT at *
  rw [List.pairwise_append] at h ⊢
  refine ⟨h.1, List.pairwise_cons.2 ⟨fun u hu => ?_, h.2.1⟩, fun u hu v hv => ?_⟩
  · have := e4 u hu; unfold TV.before at *; omega
  · rcases List.mem_cons.1 hv with rfl | hv
    · exact e3 u hu
    · exact h.2.2 u hu v hv

theorem rev_induction {α : Type} {P : List α → Prop} (h0 : P []) (h1 : ∀ l a, P l → P (l ++ [a])) (l : List α) : P l := by
  have : ∀ m : List α, P m.reverse := by
    intro m
    induction m with
    | nil => exact h0
    | cons a m ih => rw [List.reverse_cons]; exact h1 _ _ ih
  simpa using this l.reverse

theorem sortOf_sorted (l : List Timer) : SortedT (sortOf l) := by
  induction l using rev_induction with
  | h0 => exact List.Pairwise.nil
  | h1 l t ih => rw [sortOf_snoc]; exact ins_sorted ih

theorem ins_perm (t : Timer) : ∀ l, (insTimer t l).Perm (t :: l)
  | [] => List.Perm.refl _
  | u :: l => by
    rw [insTimer]
    split
    · exact List.Perm.refl _
    · exact ((ins_perm t l).cons u).trans (List.Perm.swap t u l)

theorem sortOf_perm (l : List Timer) : (sortOf l).Perm l := by
  induction l using rev_induction with
  | h0 => exact List.Perm.refl _
  | h1 l t ih => rw [sortOf_snoc]; exact (ins_perm t _).trans ((ih.cons t).trans (List.perm_append_comm (l₁ := [t]) (l₂ := l)))

/-- Taking a timer out of the sorted list is taking it out of the list in order of creation; the first of the sorted list is the oldest among the
earliest. -/
theorem sortOf_remove (pend : List Timer) : ∀ (a : List Timer) (t : Timer) (b : List Timer), sortOf pend = a ++ t :: b →
    ∃ l r, pend = l ++ t :: r ∧ sortOf (l ++ r) = a ++ b ∧ (a = [] → (∀ u ∈ l, TV.before t.tv u.tv) ∧ (∀ u ∈ r, ¬ TV.before u.tv t.tv)) := by
  induction pend using rev_induction with
  | h0 => intro a t b h; simp [sortOf] at h
  | h1 q u ih =>
    intro a t b h
    obtain ⟨x, y, e1, e2, e3, e4⟩ := ins_split u (sortOf q) (sortOf_sorted q)
    rw [sortOf_snoc, e2] at h
    rcases List.append_eq_append_iff.1 h with ⟨c, hc1, hc2⟩ | ⟨c, hc1, hc2⟩
    · -- a = x ++ c, u :: y = c ++ t :: b
      cases c with
      | nil =>
        simp only [List.nil_append, List.cons.injEq] at hc2
        obtain ⟨hut, hyb⟩ := hc2
        subst hut hyb
        rw [List.append_nil] at hc1
        subst hc1
        refine ⟨q, [], rfl, by rw [List.append_nil]; exact e1, fun ha => ⟨fun v hv => ?_, by simp⟩⟩
        subst ha
        refine e4 v ?_
        rw [List.nil_append] at e1
        rw [← e1]
        exact (sortOf_perm q).symm.subset hv
      | cons u' c =>
        simp only [List.cons_append, List.cons.injEq] at hc2
        obtain ⟨hu, hy⟩ := hc2
        subst hu
        obtain ⟨l, r, f1, f2, -⟩ := ih (x ++ c) t b (by rw [e1, hy, List.append_assoc])
        refine ⟨l, r ++ [u], by rw [f1]; simp, ?_, fun ha => ?_⟩
        · rw [← List.append_assoc, sortOf_snoc, f2, hc1, List.append_assoc, List.append_assoc, List.cons_append]
          refine ins_at u x (c ++ b) e3 (fun v hv => e4 v ?_)
          rw [hy]
          simp only [List.mem_append, List.mem_cons] at hv ⊢
          rcases hv with h | h <;> simp [h]
        · rw [ha] at hc1; simp at hc1
    · -- x = a ++ c, t :: b = c ++ u :: y
      cases c with
      | nil =>
        simp only [List.nil_append, List.cons.injEq] at hc2
        obtain ⟨hut, hyb⟩ := hc2
        subst hut hyb
        rw [List.append_nil] at hc1
        subst hc1
        refine ⟨q, [], rfl, by rw [List.append_nil]; exact e1, fun ha => ⟨fun v hv => ?_, by simp⟩⟩
        subst ha
        refine e4 v ?_
        rw [List.nil_append] at e1
        rw [← e1]
        exact (sortOf_perm q).symm.subset hv
      | cons t' c =>
        simp only [List.cons_append, List.cons.injEq] at hc2
        obtain ⟨ht, hb⟩ := hc2
        subst ht
        obtain ⟨l, r, f1, f2, f3⟩ := ih a t (c ++ y) (by rw [e1, hc1]; simp)
        refine ⟨l, r ++ [u], by rw [f1]; simp, ?_, fun ha => ?_⟩
        · rw [← List.append_assoc, sortOf_snoc, f2, hb, ← List.append_assoc, ← List.append_assoc]
          refine ins_at u (a ++ c) y (fun v hv => e3 v ?_) e4
          rw [hc1]
          simp only [List.mem_append, List.mem_cons] at hv ⊢
          rcases hv with h | h <;> simp [h]
        · refine ⟨(f3 ha).1, fun v hv => ?_⟩
          simp only [List.mem_append, List.mem_singleton] at hv
          rcases hv with hv | hv
          · exact (f3 ha).2 v hv
          · subst hv
            exact e3 t (by rw [hc1]; simp)

/-- Identifiers are distinct. -/
def DistinctIds (l : List Timer) : Prop := l.Pairwise (fun a b => a.id ≠ b.id)

theorem distinct_split {l r : List Timer} {t : Timer} (h : DistinctIds (l ++ t :: r)) :
    (∀ u ∈ l, u.id ≠ t.id) ∧ (∀ u ∈ r, u.id ≠ t.id) ∧ DistinctIds (l ++ r) := by
  unfold DistinctIds at *
  rw [List.pairwise_append, List.pairwise_cons] at h
  refine ⟨fun u hu => h.2.2 u hu t (by simp), fun u hu => fun e => h.2.1.1 u hu e.symm, ?_⟩
  rw [List.pairwise_append]
  exact ⟨h.1, h.2.1.2, fun u hu v hv => h.2.2 u hu v (by simp [hv])⟩

theorem filter_split {l r : List Timer} {t : Timer} (h : DistinctIds (l ++ t :: r)) : (l ++ t :: r).filter (fun u => u.id ≠ t.id) = l ++ r := by
  obtain ⟨h1, h2, _⟩ := distinct_split h
  rw [List.filter_append, List.filter_cons_of_neg (by simp), List.filter_eq_self.2 (fun u hu => by simpa using h1 u hu),
    List.filter_eq_self.2 (fun u hu => by simpa using h2 u hu)]

theorem dropTimer_split : ∀ (l : List Timer) (id : Int), (∃ t ∈ l, t.id = id) → ∃ a t b, l = a ++ t :: b ∧ t.id = id ∧ dropTimer id l = a ++ b
  | [], _, h => by simp at h
  | u :: l, id, h => by
    rw [dropTimer]
    by_cases e : u.id = id
    · rw [if_pos e]; exact ⟨[], u, l, rfl, e, rfl⟩
    · rw [if_neg e]
      obtain ⟨t, ht, hid⟩ := h
      rcases List.mem_cons.1 ht with rfl | ht
      · exact absurd hid e
      · obtain ⟨a, t', b, e1, e2, e3⟩ := dropTimer_split l id ⟨t, ht, hid⟩
        exact ⟨u :: a, t', b, by rw [e1]; rfl, e2, by rw [e3]; rfl⟩

end Conman
