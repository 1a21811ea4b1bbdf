import Verif.Lemma.List

/-
Lemmas about `list_sort`.
-/
namespace Conman
namespace CList
open Spec
variable {α : Type}

/-- The nodes `as` are linked and carry the items `xs` (without iterators, tail). -/
structure Chain (s : CList α) (as : List Nat) (xs : List α) : Prop where
  nodup : as.Nodup
  links : ∀ j, j ≤ as.length → s.get (slotAt as j) = some as[j]?
  items : as.map s.data = xs.map some

theorem Chain.len {s : CList α} {as : List Nat} {xs : List α} (h : Chain s as xs) : xs.length = as.length := by
  have := congrArg List.length h.items
  simpa using this.symm

theorem Chain.dat_lt {s : CList α} {as : List Nat} {xs : List α} (h : Chain s as xs) {j : Nat} (hj : j < as.length) :
    s.data as[j] = some (xs[j]'(by rw [h.len]; exact hj)) := by
  have := congrArg (·[j]?) h.items
  simp only [List.getElem?_map] at this
  rw [List.getElem?_eq_getElem hj, List.getElem?_eq_getElem (by rw [h.len]; exact hj)] at this
  simpa using this

theorem cmpAt_chain {s : CList α} {as : List Nat} {xs : List α} (h : Chain s as xs) (f : α → α → Int) {i j : Nat} (hi : i < as.length) (hj : j < as.length) :
    s.cmpAt f (slotAt as i) (slotAt as j) = some (f (xs[i]'(by rw [h.len]; exact hi)) (xs[j]'(by rw [h.len]; exact hj))) := by
  unfold cmpAt
  rw [h.links i (by omega), List.getElem?_eq_getElem hi, Option.bind_some, Option.bind_some, h.dat_lt hi, Option.bind_some,
    h.links j (by omega), List.getElem?_eq_getElem hj, Option.bind_some, Option.bind_some, h.dat_lt hj, Option.map_some]

theorem slotOf_chain {s : CList α} {as : List Nat} {xs : List α} (h : Chain s as xs) {j : Nat} (hj : j < as.length) :
    s.slotOf (slotAt as j) = some (slotAt as (j + 1)) := by
  unfold slotOf
  rw [h.links j (by omega), Option.bind_some]
  simp only [slotAt]
  rw [List.getElem?_eq_getElem hj]; rfl

/-- The index of the first item that is greater than item `m`. -/
def spot (f : α → α → Int) (x : α) (l : List α) : Nat := l.findIdx (fun y => f x y < 0)

theorem sortPos_chain {s : CList α} {as : List Nat} {xs : List α} (h : Chain s as xs) (f : α → α → Int) {m : Nat} (hm : m < as.length)
    (hs : spot f (xs[m]'(by rw [h.len]; exact hm)) xs < as.length) : ∀ (n j : Nat), j ≤ spot f (xs[m]'(by rw [h.len]; exact hm)) xs → as.length ≤ n + j →
    s.sortPos f (slotAt as m) n (slotAt as j) = some (slotAt as (spot f (xs[m]'(by rw [h.len]; exact hm)) xs))
  | 0, j, hj, hn => by omega
  | n + 1, j, hj, hn => by
    rw [sortPos, cmpAt_chain h f hm (by omega), Option.bind_some]
    by_cases he : j = spot f (xs[m]'(by rw [h.len]; exact hm)) xs
    · have hx : spot f (xs[m]'(by rw [h.len]; exact hm)) xs < xs.length := by have := h.len; omega
      have := List.findIdx_getElem (p := fun y => decide (f (xs[m]'(by rw [h.len]; exact hm)) y < 0)) (w := hx)
      have hlt : f (xs[m]'(by rw [h.len]; exact hm)) (xs[j]'(by rw [he]; exact hx)) < 0 := by
        simp only [decide_eq_true_eq] at this
        subst he; exact this
      rw [if_neg (by omega), ← he]
    · have := List.not_of_lt_findIdx (p := fun y => decide (f (xs[m]'(by rw [h.len]; exact hm)) y < 0)) (xs := xs) (i := j) (by
        show j < spot _ _ _; omega)
      simp only [decide_eq_false_iff_not] at this
      rw [if_pos (by omega), slotOf_chain h (by omega), Option.bind_some]
      exact sortPos_chain h f hm hs n (j + 1) (by omega) (by omega)

/-- Moving the item at index `m` to index `t`. -/
def moved {β : Type} (l : List β) (m t : Nat) (x : β) : List β := (l.eraseIdx m).insertIdx t x

theorem moved_get {β : Type} {l : List β} {m t : Nat} (hm : m < l.length) (ht : t < m) (i : Nat) :
    (moved l m t l[m])[i]? = if i < t then l[i]? else if i = t then l[m]? else if i ≤ m then l[i - 1]? else l[i]? := by
  have hl : (l.eraseIdx m).length = l.length - 1 := by rw [List.length_eraseIdx, if_pos hm]
  unfold moved
  rw [insertIdx_get _ _ _ (by omega)]
  by_cases h1 : i < t
  · rw [if_pos h1, if_pos h1, List.getElem?_eraseIdx, if_pos (by omega)]
  · rw [if_neg h1, if_neg h1]
    by_cases h2 : i = t
    · rw [if_pos h2, if_pos h2, List.getElem?_eq_getElem hm]
    · rw [if_neg h2, if_neg h2, List.getElem?_eraseIdx]
      by_cases h3 : i ≤ m
      · rw [if_pos h3, if_pos (by omega)]
      · rw [if_neg h3, if_neg (by omega)]; congr 1; omega

theorem moved_length {β : Type} {l : List β} {m t : Nat} (hm : m < l.length) (ht : t < m) : (moved l m t l[m]).length = l.length := by
  unfold moved
  have hl : (l.eraseIdx m).length = l.length - 1 := by rw [List.length_eraseIdx, if_pos hm]
  rw [length_ins _ (by omega), hl]; omega

theorem slotAt_moved {as : List Nat} {m t : Nat} (hm : m < as.length) (ht : t < m) (i : Nat) :
    slotAt (moved as m t as[m]) i =
      if i ≤ t then slotAt as i else if i = t + 1 then slotAt as (m + 1) else if i ≤ m + 1 then slotAt as (i - 1) else slotAt as i := by
  cases i with
  | zero => simp [slotAt]
  | succ i =>
    simp only [slotAt]
    rw [moved_get hm ht]
    by_cases h1 : i < t
    · rw [if_pos h1, if_pos (by omega)]
    · rw [if_neg h1]
      by_cases h2 : i = t
      · rw [if_pos h2, if_neg (by omega), if_pos (by omega)]
      · rw [if_neg h2]
        by_cases h3 : i ≤ m
        · rw [if_pos h3, if_neg (by omega), if_neg (by omega), if_pos (by omega)]
          cases i with
          | zero => omega
          | succ i => rfl
        · rw [if_neg h3, if_neg (by omega), if_neg (by omega), if_neg (by omega)]

theorem erase_perm {β : Type} : ∀ {l : List β} {m : Nat} (hm : m < l.length), (l[m] :: l.eraseIdx m).Perm l
  | [], _, hm => by simp at hm
  | a :: l, 0, _ => by simp
  | a :: l, m + 1, hm => by
    simp only [List.getElem_cons_succ, List.eraseIdx_cons_succ]
    exact (List.Perm.swap ..).trans (List.Perm.cons a (erase_perm (by simpa using hm)))

theorem moved_perm {β : Type} {l : List β} {m t : Nat} (hm : m < l.length) (ht : t < m) : (moved l m t l[m]).Perm l := by
  unfold moved
  have hl : (l.eraseIdx m).length = l.length - 1 := by rw [List.length_eraseIdx, if_pos hm]
  exact (List.perm_insertIdx _ _ (by omega)).trans (erase_perm hm)

theorem sortMove_chain {s : CList α} {as : List Nat} {xs : List α} (h : Chain s as xs) {m t : Nat} (hm : m < as.length) (ht : t < m) :
    ∃ s', s.sortMove (slotAt as m) (slotAt as t) = some s' ∧ Chain s' (moved as m t as[m]) (moved xs m t (xs[m]'(by rw [h.len]; exact hm))) ∧
      s'.count = s.count ∧ s'.iters = s.iters ∧ s'.data = s.data := by
  have em : as[m]? = some as[m] := List.getElem?_eq_getElem hm
  have es : slotAt as (m + 1) = some as[m] := em
  have ne1 : slotAt as m ≠ slotAt as (m + 1) := fun e => by have := slotAt_inj h.nodup (by omega) (by omega) e; omega
  have ne2 : slotAt as t ≠ slotAt as (m + 1) := fun e => by have := slotAt_inj h.nodup (by omega) (by omega) e; omega
  have ne3 : slotAt as m ≠ slotAt as t := fun e => by have := slotAt_inj h.nodup (by omega) (by omega) e; omega
  unfold sortMove
  rw [h.links m (by omega), Option.bind_some, em, Option.bind_some, ← es, h.links (m + 1) (by omega), Option.bind_some, h.links t (by omega),
    Option.bind_some]
  obtain ⟨s1, e1, d1, _, c1, i1, g1⟩ := put_of_get (v := as[t]?) (h.links (m + 1) (by omega))
  rw [e1, Option.bind_some]
  have hg1 : s1.get (slotAt as m) = some as[m]? := by rw [g1, if_neg ne1, h.links m (by omega)]
  rw [hg1, Option.bind_some]
  have hg1t : s1.get (slotAt as t) = some as[t]? := by rw [g1, if_neg ne2, h.links t (by omega)]
  obtain ⟨s2, e2, d2, _, c2, i2, g2⟩ := put_of_get (v := as[m]?) hg1t
  rw [e2, Option.bind_some]
  have hg2 : s2.get (slotAt as m) = some as[m]? := by rw [g2, if_neg ne3, hg1]
  obtain ⟨s3, e3, d3, _, c3, i3, g3⟩ := put_of_get (v := as[m + 1]?) hg2
  refine ⟨s3, e3, ⟨(moved_perm hm ht).nodup_iff.2 h.nodup, ?_, ?_⟩, by rw [c3, c2, c1], by rw [i3, i2, i1], by rw [d3, d2, d1]⟩
  · intro i hi
    rw [moved_length hm ht] at hi
    have inj : ∀ a b, a ≤ as.length → b ≤ as.length → a ≠ b → slotAt as a ≠ slotAt as b := fun a b ha hb hab e => hab (slotAt_inj h.nodup ha hb e)
    rw [slotAt_moved hm ht, moved_get hm ht]
    by_cases h1 : i ≤ t
    · rw [if_pos h1, g3, if_neg (inj _ _ (by omega) (by omega) (by omega)), g2]
      by_cases h2 : i = t
      · subst h2; simp
      · rw [if_neg (inj _ _ (by omega) (by omega) (by omega)), g1, if_neg (inj _ _ (by omega) (by omega) (by omega)), h.links _ (by omega),
          if_pos (by omega)]
    · rw [if_neg h1]
      by_cases h2 : i = t + 1
      · rw [if_pos h2, g3, if_neg ne1.symm, g2, if_neg ne2.symm, g1, if_pos rfl, if_neg (by omega), if_neg (by omega), if_pos (by omega)]
        subst h2; rfl
      · rw [if_neg h2]
        by_cases h3 : i ≤ m + 1
        · rw [if_pos h3, g3]
          by_cases h4 : i = m + 1
          · subst h4
            rw [Nat.add_sub_cancel, if_pos rfl, if_neg (by omega), if_neg (by omega), if_neg (by omega)]
          · rw [if_neg (inj _ _ (by omega) (by omega) (by omega)), g2, if_neg (inj _ _ (by omega) (by omega) (by omega)), g1,
              if_neg (inj _ _ (by omega) (by omega) (by omega)), h.links _ (by omega), if_neg (by omega), if_neg (by omega), if_pos (by omega)]
        · rw [if_neg h3, g3, if_neg (inj _ _ (by omega) (by omega) (by omega)), g2, if_neg (inj _ _ (by omega) (by omega) (by omega)), g1,
            if_neg (inj _ _ (by omega) (by omega) (by omega)), h.links _ (by omega), if_neg (by omega), if_neg (by omega), if_neg (by omega)]
  · rw [d3, d2, d1]
    apply List.ext_getElem?
    intro i
    have hx : m < xs.length := by rw [h.len]; exact hm
    rw [List.getElem?_map, List.getElem?_map, moved_get hm ht, moved_get hx ht]
    have hd : ∀ j : Nat, as[j]?.map s.data = xs[j]?.map some := by
      intro j
      have := congrArg (·[j]?) h.items
      simpa using this
    split
    · exact hd _
    · split
      · exact hd _
      · split <;> exact hd _

/-- Sorting on: the first `m` items are done. -/
theorem insertSorted_spot (f : α → α → Int) (x : α) : ∀ l : List α, Seq.insertSorted f x l = l.insertIdx (spot f x l) x
  | [] => rfl
  | y :: l => by
    unfold spot
    rw [Seq.insertSorted, List.findIdx_cons]
    by_cases h : f x y < 0
    · simp [h]
    · rw [if_neg h, insertSorted_spot f x l]
      simp [h, spot]

theorem moved_split (pre rest : List α) (x : α) {t : Nat} (ht : t ≤ pre.length) :
    moved (pre ++ x :: rest) pre.length t x = pre.insertIdx t x ++ rest := by
  have : (pre ++ x :: rest).eraseIdx pre.length = pre ++ rest := by
    rw [List.eraseIdx_append_of_length_le (Nat.le_refl _)]; simp
  unfold moved
  rw [this]
  apply List.ext_getElem?
  intro i
  have hl := length_ins x ht
  rw [insertIdx_get _ _ _ (by rw [List.length_append]; omega), List.getElem?_append, List.getElem?_append, List.getElem?_append, hl,
    insertIdx_get _ _ _ ht]
  by_cases h1 : i < t
  · rw [if_pos h1, if_pos (by omega), if_pos (by omega), if_pos h1]
  · by_cases h2 : i = t
    · rw [if_neg h1, if_pos h2, if_pos (by omega), if_neg h1, if_pos h2]
    · rw [if_neg h1, if_neg h2]
      by_cases h3 : i < pre.length + 1
      · rw [if_pos h3, if_pos (by omega), if_neg h1, if_neg h2]
      · rw [if_neg h3, if_neg (by omega)]; congr 1; omega

theorem spot_append (f : α → α → Int) (x : α) (pre rest : List α) (h : spot f x pre < pre.length) : spot f x (pre ++ rest) = spot f x pre := by
  unfold spot at *
  rw [List.findIdx_append, if_pos h]

theorem place_eq (f : α → α → Int) (x : α) (pre : List α) (h : 0 < pre.length) :
    Seq.place f pre x = if f x (pre[pre.length - 1]'(by omega)) < 0 then pre.insertIdx (spot f x pre) x else pre ++ [x] := by
  unfold Seq.place
  rw [List.getLast?_eq_getElem?, List.getElem?_eq_getElem (by omega)]
  dsimp only
  rw [insertSorted_spot]

theorem sortLoop_chain (f : α → α → Int) : ∀ (n : Nat) {s : CList α} {as : List Nat} (pre rest : List α), Chain s as (pre ++ rest) → s.count = as.length →
    0 < pre.length → rest.length + 1 ≤ n →
    ∃ s' as', sortLoop f n s (slotAt as (pre.length - 1)) (slotAt as pre.length) = some (s', slotAt as' as'.length) ∧
      Chain s' as' (rest.foldl (Seq.place f) pre) ∧ s'.count = s.count ∧ s'.iters = s.iters ∧ as'.length = as.length
  | 0, _, _, _, _, _, _, _, hn => by omega
  | n + 1, s, as, pre, [], h, hc, hp, hn => by
    have hl := h.len
    rw [List.append_nil] at hl h
    rw [sortLoop, h.links _ (by omega), Option.bind_some, List.getElem?_eq_none (by omega)]
    dsimp only
    refine ⟨s, as, by rw [hl], h, rfl, rfl, rfl⟩
  | n + 1, s, as, pre, x :: rest, h, hc, hp, hn => by
    have hl := h.len
    rw [List.length_append, List.length_cons] at hl
    have hm : pre.length < as.length := by omega
    have hx : (pre ++ x :: rest)[pre.length]'(by simp) = x := by simp
    rw [sortLoop, h.links _ (by omega), Option.bind_some, List.getElem?_eq_getElem hm]
    dsimp only
    rw [cmpAt_chain h f hm (by omega), Option.bind_some, hx]
    have hlast : (pre ++ x :: rest)[pre.length - 1]'(by simp; omega) = pre[pre.length - 1]'(by omega) := List.getElem_append_left (by omega)
    rw [hlast, List.foldl_cons, place_eq f x pre hp]
    by_cases hlt : f x (pre[pre.length - 1]'(by omega)) < 0
    · have hsp : spot f x pre < pre.length := by
        unfold spot
        rw [List.findIdx_lt_length]
        exact ⟨pre[pre.length - 1]'(by omega), List.getElem_mem (by omega), by simpa using hlt⟩
      have hsp2 := spot_append f x pre (x :: rest) hsp
      rw [if_pos hlt, if_pos hlt]
      have e1 := sortPos_chain h f hm (by rw [hx, hsp2]; omega) (s.count.toNat + 1) 0 (by omega) (by rw [hc]; omega)
      rw [hx, hsp2] at e1
      rw [show sortPos s f (slotAt as pre.length) (s.count.toNat + 1) none = some (slotAt as (spot f x pre)) from e1, Option.bind_some]
      obtain ⟨s1, e2, c1, k1, i1, _⟩ := sortMove_chain h hm hsp
      rw [e2, Option.bind_some]
      rw [hx, moved_split pre rest x (by omega)] at c1
      have hl1 : (moved as pre.length (spot f x pre) as[pre.length]).length = as.length := moved_length hm hsp
      have hpl : (pre.insertIdx (spot f x pre) x).length = pre.length + 1 := length_ins x (by omega)
      have hpp : slotAt as pre.length = slotAt (moved as pre.length (spot f x pre) as[pre.length]) (pre.insertIdx (spot f x pre) x).length := by
        rw [slotAt_moved hm hsp, hpl, if_neg (by omega), if_neg (by omega), if_pos (by omega)]; rfl
      have key : ∃ s' as', sortLoop f n s1 (slotAt (moved as pre.length (spot f x pre) as[pre.length]) ((pre.insertIdx (spot f x pre) x).length - 1))
            (slotAt (moved as pre.length (spot f x pre) as[pre.length]) (pre.insertIdx (spot f x pre) x).length) = some (s', slotAt as' as'.length) ∧
          Chain s' as' (rest.foldl (Seq.place f) (pre.insertIdx (spot f x pre) x)) ∧ s'.count = s1.count ∧ s'.iters = s1.iters ∧
          as'.length = (moved as pre.length (spot f x pre) as[pre.length]).length :=
        sortLoop_chain f n _ rest c1 (by rw [k1, hl1]; exact hc) (by omega) (by rw [List.length_cons] at hn; omega)
      rw [← hpp] at key
      rw [k1, i1, hl1] at key
      by_cases he : slotAt as (pre.length - 1) = slotAt as (spot f x pre)
      · rw [if_pos he]
        have he' := slotAt_inj h.nodup (by omega) (by omega) he
        have e3 : slotAt as (pre.length - 1) = slotAt (moved as pre.length (spot f x pre) as[pre.length]) (pre.length - 1) := by
          rw [slotAt_moved hm hsp, if_pos (by omega)]
        rw [e3, slotOf_chain c1 (by omega), Option.bind_some, show pre.length - 1 + 1 = (pre.insertIdx (spot f x pre) x).length - 1 by omega]
        exact key
      · rw [if_neg he]
        have hne : pre.length - 1 ≠ spot f x pre := fun e => he (by rw [e])
        have e3 : slotAt as (pre.length - 1) = slotAt (moved as pre.length (spot f x pre) as[pre.length]) ((pre.insertIdx (spot f x pre) x).length - 1) := by
          rw [slotAt_moved hm hsp, hpl, if_neg (by omega), if_neg (by omega), if_pos (by omega)]; rfl
        rw [e3]
        exact key
    · rw [if_neg hlt, if_neg hlt, slotOf_chain h hm, Option.bind_some]
      have hpl : (pre ++ [x]).length = pre.length + 1 := by simp
      have key := sortLoop_chain f n (pre ++ [x]) rest (as := as) (s := s) (by simpa using h) hc (by simp) (by rw [List.length_cons] at hn; omega)
      rw [hpl] at key
      exact key

theorem sort_rep {s : CList α} {as : List Nat} {q : Seq α} (h : Rep s as q) (f : α → α → Int) :
    ∃ s' as', s.sort f = some s' ∧ Rep s' as' (q.step (.sort f)).1 := by
  unfold sort
  have hl := h.len
  by_cases hc : as.length > 1
  · rw [if_pos (by rw [h.count]; omega)]
    have hch : Chain s as q.items := ⟨h.nodup, h.links, h.items⟩
    cases hi : q.items with
    | nil => rw [hi] at hl; simp at hl; omega
    | cons x rest =>
      rw [hi, List.length_cons] at hl
      have hs : s.slotOf none = some (slotAt as 1) := slotOf_chain hch (j := 0) (by omega)
      rw [hs, Option.bind_some]
      rw [hi] at hch
      obtain ⟨s1, as1, e1, c1, k1, i1, l1⟩ := sortLoop_chain f (s.count.toNat + 1) [x] rest hch h.count (by simp) (by rw [h.count]; omega)
      have e1' : sortLoop f (s.count.toNat + 1) s none (slotAt as 1) = some (s1, slotAt as1 as1.length) := e1
      rw [e1', Option.map_some]
      refine ⟨_, as1, rfl, ?_⟩
      simp only [Seq.step]
      rw [hi, if_pos (by rw [List.length_cons]; omega)]
      have hsorted : Seq.sorted f (x :: rest) = rest.foldl (Seq.place f) [x] := by
        unfold Seq.sorted
        rw [List.foldl_cons]; rfl
      rw [hsorted]
      have hhead : s1.head = as1[0]? := by
        have := c1.links 0 (by omega)
        simpa [slotAt, get] using this
      refine ⟨c1.nodup, c1.links, c1.items, rfl, ?_, ?_, ?_, ?_⟩
      · show s1.count = _; rw [k1, l1]; exact h.count
      · show s1.iters.map _ = _
        rw [i1, h.its]
        unfold Seq.map
        dsimp only
        rw [List.map_map, List.map_map]
        apply List.map_congr_left
        intro e _
        simp only [Function.comp]
        rw [hhead]; rfl
      · intro e he
        unfold Seq.map at he
        obtain ⟨e0, _, rfl⟩ := List.mem_map.1 he
        exact ⟨Nat.zero_le _, by simp⟩
      · unfold Seq.map
        dsimp only
        rw [List.map_map]
        exact h.keys
  · rw [if_neg (by rw [h.count]; omega)]
    refine ⟨s, as, rfl, ?_⟩
    simp only [Seq.step]
    rw [if_neg (by omega)]
    exact h

end CList
end Conman
