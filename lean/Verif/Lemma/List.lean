import Verif.Model.List

/-
Lemmas about src/list.c: the pointers represent a sequence with positions.
-/
namespace Conman
namespace CList
open Spec
variable {α : Type}

/-- The slot before index `j` of the list of nodes. -/
def slotAt (as : List Nat) : Nat → Option Nat
  | 0 => none
  | j + 1 => as[j]?

theorem slotAt_inj {as : List Nat} (h : as.Nodup) {i j : Nat} (hi : i ≤ as.length) (hj : j ≤ as.length) (e : slotAt as i = slotAt as j) : i = j := by
  cases i with
  | zero => cases j with
    | zero => rfl
    | succ j => simp only [slotAt] at e; rw [List.getElem?_eq_getElem (by omega)] at e; simp at e
  | succ i => cases j with
    | zero => simp only [slotAt] at e; rw [List.getElem?_eq_getElem (by omega)] at e; simp at e
    | succ j =>
      simp only [slotAt] at e
      have := (List.getElem?_inj (by omega) h).1 e
      omega

theorem at_inj {as : List Nat} (h : as.Nodup) {i j : Nat} (hi : i ≤ as.length) (hj : j ≤ as.length) (e : as[i]? = as[j]?) : i = j := by
  by_cases h1 : i < as.length
  · exact (List.getElem?_inj h1 h).1 e
  · by_cases h2 : j < as.length
    · exact ((List.getElem?_inj h2 h).1 e.symm).symm
    · omega

theorem put_of_get {s : CList α} {pp v : Option Nat} {c : Option Nat} (h : s.get pp = some c) :
    ∃ s', s.put pp v = some s' ∧ s'.data = s.data ∧ s'.tail = s.tail ∧ s'.count = s.count ∧ s'.iters = s.iters ∧
      ∀ qq, s'.get qq = if qq = pp then some v else s.get qq := by
  cases pp with
  | none =>
    refine ⟨_, rfl, rfl, rfl, rfl, rfl, fun qq => ?_⟩
    cases qq <;> simp [get]
  | some p =>
    have hp : (s.data p).isSome = true := by
      simp only [get] at h
      by_cases hp : (s.data p).isSome = true
      · exact hp
      · rw [if_neg hp] at h; simp at h
    refine ⟨{ s with next := fun q => if q = p then v else s.next q }, by rw [put, if_pos hp], rfl, rfl, rfl, rfl, fun qq => ?_⟩
    cases qq with
    | none => simp [get]
    | some q =>
      simp only [get]
      by_cases hq : q = p
      · subst hq; simp [hp]
      · simp [hq]

/-- The iterator at a position. -/
def conc (as : List Nat) (c : Cursor) : Iter := ⟨as[c.passed]?, slotAt as c.slot⟩

/-- The pointers of `s` represent the sequence `q`, whose nodes are `as`. -/
structure Rep (s : CList α) (as : List Nat) (q : Seq α) : Prop where
  nodup : as.Nodup
  links : ∀ j, j ≤ as.length → s.get (slotAt as j) = some as[j]?
  items : as.map s.data = q.items.map some
  tail : s.tail = slotAt as as.length
  count : s.count = as.length
  its : s.iters = q.curs.map (fun e => (e.1, conc as e.2))
  good : ∀ e ∈ q.curs, e.2.passed ≤ as.length ∧ (e.2.last = true → 0 < e.2.passed)
  keys : (q.curs.map (·.1)).Nodup

theorem Rep.len {s : CList α} {as : List Nat} {q : Seq α} (h : Rep s as q) : q.items.length = as.length := by
  have := congrArg List.length h.items
  simpa using this.symm

theorem Rep.dat {s : CList α} {as : List Nat} {q : Seq α} (h : Rep s as q) (j : Nat) : as[j]?.map s.data = q.items[j]?.map some := by
  have := congrArg (·[j]?) h.items
  simpa using this

theorem Rep.dat_lt {s : CList α} {as : List Nat} {q : Seq α} (h : Rep s as q) {j : Nat} (hj : j < as.length) :
    s.data as[j] = some (q.items[j]'(by rw [h.len]; exact hj)) := by
  have := h.dat j
  rw [List.getElem?_eq_getElem hj, List.getElem?_eq_getElem (by rw [h.len]; exact hj)] at this
  simpa using this

theorem Rep.live {s : CList α} {as : List Nat} {q : Seq α} (h : Rep s as q) {a : Nat} (ha : a ∈ as) : (s.data a).isSome = true := by
  obtain ⟨j, hj, rfl⟩ := List.getElem_of_mem ha
  rw [h.dat_lt hj]; rfl

theorem Rep.next {s : CList α} {as : List Nat} {q : Seq α} (h : Rep s as q) {j : Nat} (hj : j < as.length) : s.next as[j] = as[j + 1]? := by
  have := h.links (j + 1) (by omega)
  simp only [slotAt, List.getElem?_eq_getElem hj, get] at this
  rw [if_pos (h.live (List.getElem_mem hj))] at this
  simpa using this

theorem Rep.head {s : CList α} {as : List Nat} {q : Seq α} (h : Rep s as q) : s.head = as[0]? := by
  have := h.links 0 (by omega)
  simpa [slotAt, get] using this

theorem rep_create : Rep (create : CList α) [] ⟨[], []⟩ := by
  refine ⟨List.nodup_nil, ?_, rfl, rfl, rfl, rfl, by simp, List.nodup_nil⟩
  intro j hj
  have : j = 0 := by simpa using hj
  subst this; rfl

theorem slot_le {as : List Nat} {c : Cursor} (h : c.passed ≤ as.length ∧ (c.last = true → 0 < c.passed)) : c.slot ≤ as.length := by
  unfold Cursor.slot; split <;> omega

theorem insertIdx_get {β : Type} (l : List β) (j : Nat) (p : β) (hj : j ≤ l.length) (i : Nat) :
    (l.insertIdx j p)[i]? = if i < j then l[i]? else if i = j then some p else l[i - 1]? := by
  rw [List.getElem?_insertIdx]
  split
  · rfl
  · split
    · rw [if_pos (by omega)]
    · rfl

theorem slotAt_insert {as : List Nat} {j p : Nat} (hj : j ≤ as.length) (i : Nat) :
    slotAt (as.insertIdx j p) i = if i ≤ j then slotAt as i else if i = j + 1 then some p else slotAt as (i - 1) := by
  cases i with
  | zero => simp [slotAt]
  | succ i =>
    simp only [slotAt]
    rw [insertIdx_get _ _ _ hj]
    by_cases h1 : i < j
    · rw [if_pos h1, if_pos (by omega)]
    · rw [if_neg h1]
      by_cases h2 : i = j
      · rw [if_pos h2, if_neg (by omega), if_pos (by omega)]
      · rw [if_neg h2, if_neg (by omega), if_neg (by omega)]
        cases i with
        | zero => omega
        | succ i => rfl

theorem nodup_insertIdx {as : List Nat} (h : as.Nodup) {p : Nat} (hp : p ∉ as) (j : Nat) (hj : j ≤ as.length) : (as.insertIdx j p).Nodup := by
  rw [(List.perm_insertIdx p as hj).nodup_iff]
  exact List.nodup_cons.2 ⟨hp, h⟩

theorem length_ins {β : Type} {l : List β} {j : Nat} (p : β) (hj : j ≤ l.length) : (l.insertIdx j p).length = l.length + 1 := by
  rw [List.length_insertIdx, if_pos hj]

/-- `list_node_create` on the sequence. -/
theorem nodeCreate_rep {s : CList α} {as : List Nat} {q : Seq α} (h : Rep s as q) {j : Nat} (hj : j ≤ as.length) (x : α) {p : Nat}
    (hp : s.data p = none) : ∃ s', s.nodeCreate (slotAt as j) x (some p) = some (s', true) ∧ Rep s' (as.insertIdx j p) (q.insertAt j x) := by
  have hpa : p ∉ as := fun hm => by have := h.live hm; rw [hp] at this; simp at this
  have hsp : ∀ i, i ≤ as.length → slotAt as i ≠ some p := by
    intro i hi e
    cases i with
    | zero => simp [slotAt] at e
    | succ i =>
      simp only [slotAt] at e
      exact hpa (List.mem_of_getElem? e)
  unfold nodeCreate
  dsimp only
  rw [h.links j hj, Option.bind_some]
  generalize hs2 : (if as[j]? = none then
      ({ { s with data := fun q => if q = p then some x else s.data q, next := fun q => if q = p then as[j]? else s.next q } with tail := some p } : CList α)
      else { s with data := fun q => if q = p then some x else s.data q, next := fun q => if q = p then as[j]? else s.next q }) = s2
  have hdata : s2.data = fun q => if q = p then some x else s.data q := by subst hs2; split <;> rfl
  have hcount : s2.count = s.count := by subst hs2; split <;> rfl
  have hit : s2.iters = s.iters := by subst hs2; split <;> rfl
  have htail : s2.tail = if j = as.length then some p else s.tail := by
    subst hs2
    by_cases hh : j = as.length
    · rw [if_pos (by rw [hh]; simp), if_pos hh]
    · rw [if_neg (by simp; omega), if_neg hh]
  have hget : ∀ qq, s2.get qq = if qq = some p then some as[j]? else s.get qq := by
    intro qq
    have e1 : s2.head = s.head := by subst hs2; split <;> rfl
    have e2 : s2.next = fun q => if q = p then as[j]? else s.next q := by subst hs2; split <;> rfl
    cases qq with
    | none => simp [get, e1]
    | some r =>
      simp only [get, hdata, e2]
      by_cases hr : r = p
      · simp [hr]
      · simp [hr]
  clear hs2
  have hg : s2.get (slotAt as j) = some as[j]? := by rw [hget, if_neg (hsp j hj), h.links j hj]
  obtain ⟨s3, e3, d3, t3, c3, i3, g3⟩ := put_of_get (v := some p) hg
  rw [e3, Option.map_some]
  refine ⟨_, rfl, ?_⟩
  have hlen : (as.insertIdx j p).length = as.length + 1 := length_ins p hj
  refine ⟨nodup_insertIdx h.nodup hpa j hj, ?_, ?_, ?_, ?_, ?_, ?_, ?_⟩
  · intro i hi
    rw [hlen] at hi
    show s3.get _ = _
    rw [g3, slotAt_insert hj, insertIdx_get _ _ _ hj]
    by_cases h1 : i ≤ j
    · rw [if_pos h1]
      by_cases h2 : i = j
      · subst h2; simp
      · rw [if_neg (fun e => h2 (slotAt_inj h.nodup (by omega) hj e)), if_pos (by omega), hget, if_neg (hsp i (by omega)), h.links i (by omega)]
    · rw [if_neg h1]
      by_cases h2 : i = j + 1
      · rw [if_pos h2, if_neg (hsp j hj).symm, hget, if_pos rfl, if_neg (by omega), if_neg (by omega)]
        subst h2; rfl
      · rw [if_neg h2, if_neg (fun e => by have := slotAt_inj h.nodup (by omega) hj e; omega), hget, if_neg (hsp _ (by omega)),
          h.links _ (by omega), if_neg (by omega), if_neg (by omega)]
  · show (as.insertIdx j p).map s3.data = _
    rw [d3, hdata]
    apply List.ext_getElem?
    intro i
    unfold Seq.insertAt
    dsimp only
    rw [List.getElem?_map, List.getElem?_map, insertIdx_get _ _ _ hj, insertIdx_get _ _ _ (by rw [h.len]; exact hj)]
    have hd : ∀ i : Nat, Option.map (fun q => if q = p then some x else s.data q) as[i]? = Option.map some q.items[i]? := by
      intro i
      rw [← h.dat i]
      cases hi : as[i]? with
      | none => rfl
      | some a =>
        have : a ≠ p := fun e => hpa (e ▸ List.mem_of_getElem? hi)
        simp [this]
    split
    · exact hd i
    · split
      · simp
      · exact hd _
  · show s3.tail = _
    rw [t3, htail, hlen, slotAt_insert hj]
    by_cases hh : j = as.length
    · rw [if_pos hh, if_neg (by omega), if_pos (by omega)]
    · rw [if_neg hh, h.tail, if_neg (by omega), if_neg (by omega)]; rfl
  · show s3.count + 1 = _
    rw [c3, hcount, h.count, hlen]; omega
  · show s3.iters.map _ = _
    rw [i3, hit, h.its]
    unfold Seq.insertAt Seq.map
    dsimp only
    rw [List.map_map, List.map_map]
    apply List.map_congr_left
    intro e he
    obtain ⟨g1, g2⟩ := h.good e he
    have gs := slot_le ⟨g1, g2⟩
    simp only [Function.comp]
    congr 1
    unfold createIter conc Cursor.inserted
    dsimp only
    by_cases h1 : e.2.slot = j
    · rw [if_pos (by rw [h1]), if_pos (by omega)]
      have hsl : ({ e.2 with passed := e.2.passed + 1 } : Cursor).slot = e.2.slot + 1 := by
        unfold Cursor.slot
        dsimp only
        by_cases hl : e.2.last = true
        · rw [if_pos hl, if_pos hl]; have := g2 hl; omega
        · rw [if_neg hl, if_neg hl]
      rw [hsl, slotAt_insert hj, if_neg (by omega), if_pos (by omega), insertIdx_get _ _ _ hj]
      have : j ≤ e.2.passed := by unfold Cursor.slot at h1; split at h1 <;> omega
      dsimp only
      rw [if_neg (by omega), if_neg (by omega)]; rfl
    · rw [if_neg (fun ee => h1 (slotAt_inj h.nodup gs hj ee))]
      have hcase : e.2.slot = e.2.passed ∨ e.2.slot + 1 = e.2.passed := by
        unfold Cursor.slot
        by_cases hl : e.2.last = true
        · rw [if_pos hl]; have := g2 hl; omega
        · rw [if_neg hl]; omega
      by_cases h2 : e.2.passed = j
      · rw [if_pos (by rw [h2]), if_neg (by omega), slotAt_insert hj, if_pos (by omega), h2, insertIdx_get _ _ _ hj, if_neg (by omega), if_pos rfl]
      · rw [if_neg (fun ee => h2 (at_inj h.nodup g1 hj ee))]
        by_cases h3 : j ≤ e.2.slot
        · rw [if_pos h3]
          have hsl : ({ e.2 with passed := e.2.passed + 1 } : Cursor).slot = e.2.slot + 1 := by
            unfold Cursor.slot
            dsimp only
            by_cases hl : e.2.last = true
            · rw [if_pos hl, if_pos hl]; have := g2 hl; omega
            · rw [if_neg hl, if_neg hl]
          rw [hsl, slotAt_insert hj, if_neg (by omega), if_neg (by omega), insertIdx_get _ _ _ hj]
          dsimp only
          rw [if_neg (by omega), if_neg (by omega)]; rfl
        · rw [if_neg h3, slotAt_insert hj, if_pos (by omega), insertIdx_get _ _ _ hj, if_pos (by omega)]
  · intro e he
    rw [hlen]
    unfold Seq.insertAt Seq.map at he
    obtain ⟨e0, he0, rfl⟩ := List.mem_map.1 he
    obtain ⟨g1, g2⟩ := h.good e0 he0
    dsimp only
    unfold Cursor.inserted
    split
    · exact ⟨by dsimp only; omega, fun _ => by dsimp only; omega⟩
    · exact ⟨by omega, g2⟩
  · unfold Seq.insertAt Seq.map
    dsimp only
    rw [List.map_map]
    exact h.keys

theorem slotAt_erase {as : List Nat} {j : Nat} (i : Nat) :
    slotAt (as.eraseIdx j) i = if i ≤ j then slotAt as i else slotAt as (i + 1) := by
  cases i with
  | zero => simp [slotAt]
  | succ i =>
    simp only [slotAt]
    rw [List.getElem?_eraseIdx]
    by_cases h1 : i < j
    · rw [if_pos h1, if_pos (by omega)]
    · rw [if_neg h1, if_neg (by omega)]

theorem nodeDestroy_end {s : CList α} {as : List Nat} {q : Seq α} (h : Rep s as q) : s.nodeDestroy (slotAt as as.length) = some (s, none) := by
  unfold nodeDestroy
  rw [h.links _ (Nat.le_refl _), Option.bind_some]
  simp

/-- `list_node_destroy` on the sequence. -/
theorem nodeDestroy_rep {s : CList α} {as : List Nat} {q : Seq α} (h : Rep s as q) {j : Nat} (hj : j < as.length) :
    ∃ s', s.nodeDestroy (slotAt as j) = some (s', q.items[j]?) ∧ Rep s' (as.eraseIdx j) (q.removeAt j) := by
  have ea : as[j]? = some as[j] := List.getElem?_eq_getElem hj
  have eq : q.items[j]? = some (q.items[j]'(by rw [h.len]; exact hj)) := List.getElem?_eq_getElem _
  unfold nodeDestroy
  rw [h.links j (by omega), Option.bind_some, ea]
  dsimp only
  rw [h.dat_lt hj, Option.bind_some, h.next hj]
  obtain ⟨s1, e1, d1, t1, c1, i1, g1⟩ := put_of_get (v := as[j + 1]?) (h.links j (by omega))
  rw [e1, Option.map_some, eq]
  refine ⟨_, rfl, ?_⟩
  generalize hs2 : (if as[j + 1]? = none then ({ s1 with tail := slotAt as j } : CList α) else s1) = s2
  have hdata : s2.data = s.data := by subst hs2; rw [← d1]; split <;> rfl
  have hcount : s2.count = s.count := by subst hs2; rw [← c1]; split <;> rfl
  have hit : s2.iters = s.iters := by subst hs2; rw [← i1]; split <;> rfl
  have htail : s2.tail = if j + 1 = as.length then slotAt as j else s.tail := by
    subst hs2
    by_cases hh : j + 1 = as.length
    · rw [if_pos (by rw [hh]; simp), if_pos hh]
    · rw [if_neg (by simp; omega), if_neg hh, t1]
  have hget : ∀ qq, s2.get qq = if qq = slotAt as j then some as[j + 1]? else s.get qq := by
    intro qq; rw [← g1]
    subst hs2
    split <;> rfl
  clear hs2
  have hlen : (as.eraseIdx j).length = as.length - 1 := by rw [List.length_eraseIdx, if_pos hj]
  have hmem : as[j] ∉ as.eraseIdx j := by
    intro hm
    obtain ⟨i, hi⟩ := List.mem_iff_getElem?.1 hm
    rw [List.getElem?_eraseIdx] at hi
    split at hi
    · next hlt =>
      have := (List.getElem?_inj (by omega) h.nodup).1 (hi.trans ea.symm)
      omega
    · next hlt =>
      have h2 : i + 1 < as.length := by
        rw [← Nat.not_le]; intro hc
        rw [List.getElem?_eq_none hc] at hi; simp at hi
      have := (List.getElem?_inj h2 h.nodup).1 (hi.trans ea.symm)
      omega
  refine ⟨List.Nodup.sublist (List.eraseIdx_sublist ..) h.nodup, ?_, ?_, ?_, ?_, ?_, ?_, ?_⟩
  · intro i hi
    rw [hlen] at hi
    have hne : slotAt (as.eraseIdx j) i ≠ some as[j] := by
      cases i with
      | zero => simp [slotAt]
      | succ i => intro e; exact hmem (List.mem_of_getElem? e)
    have hgd : ∀ qq, qq ≠ some as[j] → get ({ s2 with count := s2.count - 1, iters := s2.iters.map (fun e => (e.1, destroyIter as[j] (slotAt as j) as[j + 1]? e.2)), data := fun q => if q = as[j] then none else s2.data q } : CList α) qq = s2.get qq := by
      intro qq hq
      cases qq with
      | none => rfl
      | some r =>
        have : r ≠ as[j] := fun e => hq (by rw [e])
        simp [get, this]
    rw [hgd _ hne, hget, slotAt_erase, List.getElem?_eraseIdx]
    by_cases h1 : i ≤ j
    · rw [if_pos h1]
      by_cases h2 : i = j
      · subst h2; simp
      · rw [if_neg (fun e => h2 (slotAt_inj h.nodup (by omega) (by omega) e)), if_pos (by omega), h.links i (by omega)]
    · rw [if_neg h1, if_neg (fun e => by have := slotAt_inj h.nodup (by omega) (by omega) e; omega), if_neg (by omega), h.links _ (by omega)]
  · dsimp only
    rw [hdata]
    unfold Seq.removeAt
    dsimp only
    have : (as.eraseIdx j).map (fun q => if q = as[j] then none else s.data q) = (as.eraseIdx j).map s.data := by
      apply List.map_congr_left
      intro a ha
      rw [if_neg (fun e : a = as[j] => hmem (e ▸ ha))]
    rw [this]
    apply List.ext_getElem?
    intro i
    rw [List.getElem?_map, List.getElem?_map, List.getElem?_eraseIdx, List.getElem?_eraseIdx]
    split <;> exact h.dat _
  · dsimp only
    rw [htail, hlen, slotAt_erase]
    by_cases hh : j + 1 = as.length
    · rw [if_pos hh, if_pos (by omega)]; congr 1; omega
    · rw [if_neg hh, h.tail, if_neg (by omega)]; congr 1; omega
  · dsimp only
    rw [hcount, h.count, hlen]; omega
  · dsimp only
    rw [hit, h.its]
    unfold Seq.removeAt Seq.map
    dsimp only
    rw [List.map_map, List.map_map]
    apply List.map_congr_left
    intro e he
    obtain ⟨g1, g2⟩ := h.good e he
    have gs := slot_le ⟨g1, g2⟩
    simp only [Function.comp]
    congr 1
    have hcase : (e.2.slot = e.2.passed ∧ e.2.last = false) ∨ (e.2.slot + 1 = e.2.passed ∧ e.2.last = true) := by
      unfold Cursor.slot
      by_cases hl : e.2.last = true
      · rw [if_pos hl]; have := g2 hl; exact Or.inr ⟨by omega, hl⟩
      · rw [if_neg hl]; exact Or.inl ⟨rfl, by simpa using hl⟩
    unfold destroyIter conc Cursor.removed
    dsimp only
    by_cases h1 : e.2.passed = j
    · rw [if_pos (by rw [h1, ea]), if_neg (by omega), if_neg (by omega), if_pos h1.symm]
      have : ({ e.2 with last := false } : Cursor).slot = e.2.passed := by simp [Cursor.slot]
      rw [this]
      dsimp only
      rw [h1, List.getElem?_eraseIdx, slotAt_erase, if_neg (by omega), if_pos (by omega)]
    · rw [if_neg (fun ee => h1 (at_inj h.nodup g1 (by omega) (ee.trans ea.symm)))]
      have e2 : slotAt as (j + 1) = some as[j] := ea
      by_cases h2 : e.2.slot = j + 1
      · rw [if_pos (by rw [h2, e2]), if_pos (by omega)]
        have hsl : ({ e.2 with passed := e.2.passed - 1 } : Cursor).slot = e.2.slot - 1 := by
          unfold Cursor.slot
          dsimp only
          rcases hcase with ⟨_, c2⟩ | ⟨_, c2⟩
          · rw [c2]; rfl
          · rw [c2]; rfl
        rw [hsl]
        dsimp only
        rw [List.getElem?_eraseIdx, slotAt_erase, if_neg (by omega), if_pos (by omega), show e.2.passed - 1 + 1 = e.2.passed by omega,
          show e.2.slot - 1 = j by omega]
      · rw [if_neg (fun ee => h2 (slotAt_inj h.nodup gs (by omega) (ee.trans e2.symm)))]
        by_cases h3 : j < e.2.slot
        · rw [if_pos h3]
          have hsl : ({ e.2 with passed := e.2.passed - 1 } : Cursor).slot = e.2.slot - 1 := by
            unfold Cursor.slot
            dsimp only
            rcases hcase with ⟨_, c2⟩ | ⟨_, c2⟩
            · rw [c2]; rfl
            · rw [c2]; rfl
          rw [hsl]
          dsimp only
          rw [List.getElem?_eraseIdx, slotAt_erase, if_neg (by omega), if_neg (by omega), show e.2.passed - 1 + 1 = e.2.passed by omega,
            show e.2.slot - 1 + 1 = e.2.slot by omega]
        · rw [if_neg h3]
          by_cases h4 : j < e.2.passed
          · rw [if_pos h4]
            have : ({ passed := e.2.passed - 1, last := false } : Cursor).slot = e.2.passed - 1 := by simp [Cursor.slot]
            rw [this]
            dsimp only
            rw [List.getElem?_eraseIdx, slotAt_erase, if_neg (by omega), if_pos (by omega), show e.2.passed - 1 + 1 = e.2.passed by omega,
              show e.2.passed - 1 = e.2.slot by omega]
          · rw [if_neg h4, if_neg (fun ee => h1 ee.symm), List.getElem?_eraseIdx, slotAt_erase, if_pos (by omega), if_pos (by omega)]
  · intro e he
    rw [hlen]
    unfold Seq.removeAt Seq.map at he
    obtain ⟨e0, he0, rfl⟩ := List.mem_map.1 he
    obtain ⟨g1, g2⟩ := h.good e0 he0
    have gs := slot_le ⟨g1, g2⟩
    dsimp only
    unfold Cursor.removed
    split
    · next h1 =>
      dsimp only
      refine ⟨by omega, fun hl => ?_⟩
      unfold Cursor.slot at h1
      rw [if_pos hl] at h1; omega
    · split
      · dsimp only
        exact ⟨by omega, by simp⟩
      · split
        · dsimp only
          exact ⟨by omega, by simp⟩
        · exact ⟨by omega, g2⟩
  · unfold Seq.removeAt Seq.map
    dsimp only
    rw [List.map_map]
    exact h.keys

theorem find_map {β γ : Type} (g : β → γ) (k : Nat) : ∀ l : List (Nat × β),
    (l.map (fun e => (e.1, g e.2))).find? (fun e => e.1 == k) = (l.find? (fun e => e.1 == k)).map (fun e => (e.1, g e.2))
  | [] => rfl
  | e :: l => by
    rw [List.map_cons, List.find?_cons, List.find?_cons, find_map g k l]
    dsimp only
    cases h : e.1 == k <;> simp

theorem Rep.cur {s : CList α} {as : List Nat} {q : Seq α} (h : Rep s as q) {k : Nat} (hk : (s.iter k).isSome = true) :
    (k, q.cur k) ∈ q.curs ∧ s.iter k = some (conc as (q.cur k)) := by
  unfold iter at hk ⊢
  rw [h.its, find_map] at hk ⊢
  unfold Seq.cur
  cases hf : q.curs.find? (fun e => e.1 == k) with
  | none => rw [hf] at hk; simp at hk
  | some e =>
    have h1 := List.find?_some hf
    have h2 := List.mem_of_find?_eq_some hf
    have : e.1 = k := by simpa using h1
    subst this
    exact ⟨h2, rfl⟩

theorem Rep.cur_good {s : CList α} {as : List Nat} {q : Seq α} (h : Rep s as q) {k : Nat} (hk : (s.iter k).isSome = true) :
    (q.cur k).passed ≤ as.length ∧ ((q.cur k).last = true → 0 < (q.cur k).passed) := h.good _ (h.cur hk).1

theorem setIter_rep {s : CList α} {as : List Nat} {q : Seq α} (h : Rep s as q) (k : Nat) {c : Cursor}
    (hc : c.passed ≤ as.length ∧ (c.last = true → 0 < c.passed)) : Rep (s.setIter k (conc as c)) as (q.setCur k c) := by
  refine ⟨h.nodup, h.links, h.items, h.tail, h.count, ?_, ?_, ?_⟩
  · unfold setIter Seq.setCur
    dsimp only
    rw [h.its, List.map_map, List.map_map]
    apply List.map_congr_left
    intro e _
    simp only [Function.comp]
    by_cases he : e.1 = k
    · rw [if_pos he, if_pos he]
    · rw [if_neg he, if_neg he]
  · intro e he
    unfold Seq.setCur at he
    obtain ⟨e0, he0, rfl⟩ := List.mem_map.1 he
    by_cases hk : e0.1 = k
    · rw [if_pos hk]; exact hc
    · rw [if_neg hk]; exact h.good e0 he0
  · unfold Seq.setCur
    dsimp only
    rw [List.map_map]
    have : q.curs.map ((fun x => x.1) ∘ fun e => if e.1 = k then (k, c) else e) = q.curs.map (·.1) := by
      apply List.map_congr_left
      intro e _
      simp only [Function.comp]
      by_cases he : e.1 = k
      · rw [if_pos he, he]
      · rw [if_neg he]
    rw [this]; exact h.keys

theorem Cursor.cases {c : Cursor} (h : c.last = true → 0 < c.passed) :
    (c.slot = c.passed ∧ c.last = false) ∨ (c.slot + 1 = c.passed ∧ c.last = true) := by
  unfold Cursor.slot
  by_cases hl : c.last = true
  · rw [if_pos hl]; have := h hl; exact Or.inr ⟨by omega, hl⟩
  · rw [if_neg hl]; exact Or.inl ⟨rfl, by simpa using hl⟩

theorem nextItem_rep {s : CList α} {as : List Nat} {q : Seq α} (h : Rep s as q) {k : Nat} (hk : (s.iter k).isSome = true) :
    ∃ s', s.nextItem k = some (s', (q.next k).2) ∧ Rep s' as (q.next k).1 := by
  obtain ⟨g1, g2⟩ := h.cur_good hk
  have gs := slot_le ⟨g1, g2⟩
  unfold nextItem
  rw [(h.cur hk).2, Option.bind_some]
  unfold Seq.next
  generalize q.cur k = c at *
  dsimp only
  rw [show (conc as c).prev = slotAt as c.slot from rfl, show (conc as c).pos = as[c.passed]? from rfl, h.links _ gs]
  by_cases hp : c.passed < as.length
  · have ep : as[c.passed]? = some as[c.passed] := List.getElem?_eq_getElem hp
    have eq : q.items[c.passed]? = some (q.items[c.passed]'(by rw [h.len]; exact hp)) := List.getElem?_eq_getElem _
    have en : s.nextOf as[c.passed]? = some as[c.passed + 1]? := by
      rw [ep]
      simp only [nextOf]
      have := h.links (c.passed + 1) (by omega)
      simp only [slotAt, ep] at this
      exact this
    have ei : s.itemOf as[c.passed]? = some q.items[c.passed]? := by
      rw [ep, eq]; simp only [itemOf]; rw [h.dat_lt hp]; rfl
    rw [en, Option.bind_some, Option.bind_some, ei]
    have epv : (if as[c.slot]? = as[c.passed]? then some (slotAt as c.slot) else as[c.slot]?.map some) = some (slotAt as c.passed) := by
      rcases Cursor.cases g2 with ⟨e1, _⟩ | ⟨e1, _⟩
      · rw [e1, if_pos rfl]
      · rw [if_neg (fun e => by have := at_inj h.nodup gs g1 e; omega), ← e1]
        simp only [slotAt]
        rw [List.getElem?_eq_getElem (by omega)]; rfl
    rw [epv, Option.bind_some, Option.map_some, eq]
    dsimp only
    refine ⟨_, rfl, ?_⟩
    have : (⟨as[c.passed + 1]?, slotAt as c.passed⟩ : Iter) = conc as ⟨c.passed + 1, true⟩ := by simp [conc, Cursor.slot]
    rw [this]
    exact setIter_rep h k ⟨by dsimp only; omega, fun _ => by dsimp only; omega⟩
  · have hp' : c.passed = as.length := by omega
    have ep : as[c.passed]? = none := by rw [hp']; simp
    have eq : q.items[c.passed]? = none := by rw [hp', ← h.len]; simp
    have epv : (if as[c.slot]? = as[c.passed]? then some (slotAt as c.slot) else as[c.slot]?.map some) = some (slotAt as c.passed) := by
      rcases Cursor.cases g2 with ⟨e1, _⟩ | ⟨e1, _⟩
      · rw [e1, if_pos rfl]
      · rw [if_neg (fun e => by have := at_inj h.nodup gs g1 e; omega), ← e1]
        simp only [slotAt]
        rw [List.getElem?_eq_getElem (by omega)]; rfl
    rw [ep] at epv ⊢
    rw [show s.nextOf none = some none from rfl, Option.bind_some, Option.bind_some, epv, show s.itemOf none = some none from rfl,
      Option.bind_some, Option.map_some, eq]
    dsimp only
    refine ⟨_, rfl, ?_⟩
    have : (⟨none, slotAt as c.passed⟩ : Iter) = conc as { c with last := false } := by simp [conc, Cursor.slot, ep]
    rw [this]
    exact setIter_rep h k ⟨g1, by simp⟩

theorem iter_after_set {s : CList α} {k : Nat} {i : Iter} (hk : (s.iter k).isSome = true) : ((s.setIter k i).iter k).isSome = true := by
  unfold iter setIter at *
  dsimp only at *
  rw [Option.isSome_map, List.find?_isSome] at *
  obtain ⟨e, he, hke⟩ := hk
  refine ⟨_, List.mem_map.2 ⟨e, he, rfl⟩, ?_⟩
  rw [if_pos (by simpa using hke)]; simp

theorem Rep.has_iff {s : CList α} {as : List Nat} {q : Seq α} (h : Rep s as q) (k : Nat) : (s.iter k).isSome = true ↔ k ∈ q.curs.map (·.1) := by
  unfold iter
  rw [h.its, find_map, Option.isSome_map, Option.isSome_map, List.find?_isSome, List.mem_map]
  constructor
  · rintro ⟨e, he, hk⟩; exact ⟨e, he, by simpa using hk⟩
  · rintro ⟨e, he, hk⟩; exact ⟨e, he, by simpa using hk⟩

theorem setCur_keys (q : Seq α) (k : Nat) (c : Cursor) : (q.setCur k c).curs.map (·.1) = q.curs.map (·.1) := by
  unfold Seq.setCur
  dsimp only
  rw [List.map_map]
  apply List.map_congr_left
  intro e _
  simp only [Function.comp]
  by_cases he : e.1 = k
  · rw [if_pos he, he]
  · rw [if_neg he]

theorem next_keys (q : Seq α) (k : Nat) : (q.next k).1.curs.map (·.1) = q.curs.map (·.1) := by
  unfold Seq.next
  dsimp only
  split <;> exact setCur_keys ..

theorem findLoop_rep {f : α → Bool} {k : Nat} : ∀ (n : Nat) {s : CList α} {as : List Nat} {q : Seq α}, Rep s as q → (s.iter k).isSome = true →
    as.length + 1 ≤ n + (q.cur k).passed → ∃ s', findLoop f k n s = some (s', (Seq.find f k n q).2) ∧ Rep s' as (Seq.find f k n q).1
  | 0, s, as, q, h, hk, hn => by have := (h.cur_good hk).1; omega
  | n + 1, s, as, q, h, hk, hn => by
    obtain ⟨s1, e1, h1⟩ := nextItem_rep h hk
    rw [findLoop, e1, Option.bind_some, Seq.find]
    dsimp only
    cases hv : (q.next k).2 with
    | none => exact ⟨s1, rfl, h1⟩
    | some v =>
      dsimp only
      by_cases hf : f v = true
      · rw [if_pos hf, if_pos hf]; exact ⟨s1, rfl, h1⟩
      · rw [if_neg hf, if_neg hf]
        have hk1 : (s1.iter k).isSome = true := by rw [h1.has_iff, next_keys, ← h.has_iff]; exact hk
        refine findLoop_rep n h1 hk1 ?_
        have : ((q.next k).1.cur k).passed = (q.cur k).passed + 1 := by
          have hm : (k, (⟨(q.cur k).passed + 1, true⟩ : Cursor)) ∈ (q.next k).1.curs := by
            unfold Seq.next at hv ⊢
            dsimp only at hv ⊢
            cases hi : q.items[(q.cur k).passed]? with
            | none => rw [hi] at hv; simp at hv
            | some w =>
              dsimp only
              refine List.mem_map.2 ⟨_, (h.cur hk).1, ?_⟩
              rw [if_pos rfl]
          have hm2 := (h1.cur hk1).1
          have := List.pairwise_map.1 h1.keys
          have hu : ∀ l : List (Nat × Cursor), (l.map (·.1)).Nodup → ∀ a b : Cursor, (k, a) ∈ l → (k, b) ∈ l → a = b := by
            intro l
            induction l with
            | nil => intro _ a b ha; simp at ha
            | cons e l ih =>
              intro hn a b ha hb
              rw [List.map_cons, List.nodup_cons] at hn
              rcases List.mem_cons.1 ha with rfl | ha'
              · rcases List.mem_cons.1 hb with hb' | hb'
                · exact (Prod.mk.inj hb').2.symm
                · exact absurd (List.mem_map.2 ⟨_, hb', rfl⟩) hn.1
              · rcases List.mem_cons.1 hb with rfl | hb'
                · exact absurd (List.mem_map.2 ⟨_, ha', rfl⟩) hn.1
                · exact ih hn.2 a b ha' hb'
          have := hu _ h1.keys _ _ hm2 hm
          rw [this]
        omega

theorem remove_rep {s : CList α} {as : List Nat} {q : Seq α} (h : Rep s as q) {k : Nat} (hk : (s.iter k).isSome = true) :
    ∃ s' as', s.remove k = some (s', (q.remove k).2) ∧ Rep s' as' (q.remove k).1 := by
  obtain ⟨g1, g2⟩ := h.cur_good hk
  have gs := slot_le ⟨g1, g2⟩
  unfold remove
  rw [(h.cur hk).2, Option.bind_some]
  unfold Seq.remove
  generalize q.cur k = c at *
  dsimp only
  rw [show (conc as c).prev = slotAt as c.slot from rfl, show (conc as c).pos = as[c.passed]? from rfl, h.links _ gs, Option.bind_some]
  rcases Cursor.cases g2 with ⟨e1, e2⟩ | ⟨e1, e2⟩
  · rw [e1, if_pos rfl, if_neg (by simp [e2])]; exact ⟨s, as, rfl, h⟩
  · rw [if_neg (fun e => by have := at_inj h.nodup gs g1 e; omega), if_pos e2]
    obtain ⟨s', e, h'⟩ := nodeDestroy_rep h (j := c.slot) (by omega)
    exact ⟨s', _, e, h'⟩

theorem findFrom_rep {s : CList α} {as : List Nat} {q : Seq α} (h : Rep s as q) (f : α → Bool) : ∀ (n j : Nat), j ≤ as.length → as.length + 1 ≤ n + j →
    s.findFrom f n as[j]? = some ((q.items.drop j).find? f)
  | 0, j, hj, hn => by omega
  | n + 1, j, hj, hn => by
    by_cases hl : j < as.length
    · have hq : j < q.items.length := by rw [h.len]; exact hl
      rw [List.getElem?_eq_getElem hl, findFrom, h.dat_lt hl, Option.bind_some, List.drop_eq_getElem_cons hq, List.find?_cons]
      cases hf : f q.items[j]
      · rw [if_neg (by simp), h.next hl]
        exact findFrom_rep h f n (j + 1) (by omega) (by omega)
      · rw [if_pos rfl]
    · rw [List.getElem?_eq_none (by omega), findFrom, List.drop_eq_nil_of_le (by rw [h.len]; omega)]; rfl

theorem destroyFrom_rep {s : CList α} {as : List Nat} {q : Seq α} (h : Rep s as q) : ∀ (n j : Nat) (acc : List α), j ≤ as.length →
    as.length + 1 ≤ n + j → s.destroyFrom n as[j]? acc = some (acc ++ q.items.drop j)
  | 0, j, _, hj, hn => by omega
  | n + 1, j, acc, hj, hn => by
    by_cases hl : j < as.length
    · have hq : j < q.items.length := by rw [h.len]; exact hl
      rw [List.getElem?_eq_getElem hl, destroyFrom, h.dat_lt hl, Option.bind_some, h.next hl, List.drop_eq_getElem_cons hq,
        destroyFrom_rep h n (j + 1) _ (by omega) (by omega)]
      simp
    · rw [List.getElem?_eq_none (by omega), destroyFrom, List.drop_eq_nil_of_le (by rw [h.len]; omega)]; simp

theorem deleteFrom_rep (f : α → Bool) : ∀ (n m : Nat) {s : CList α} {as : List Nat} {q : Seq α} (j : Nat) (acc : List α), Rep s as q → j ≤ as.length →
    as.length + 1 ≤ n + j → as.length ≤ m + j →
    ∃ s' as', deleteFrom f n s (slotAt as j) acc = some (s', acc ++ (q.items.drop j).filter f) ∧ Rep s' as' (Seq.removeAll f m q j)
  | 0, _, _, _, _, j, _, _, hj, hn, _ => by omega
  | n + 1, m, s, as, q, j, acc, h, hj, hn, hm => by
    rw [deleteFrom, h.links j hj, Option.bind_some]
    by_cases hl : j < as.length
    · have hq : j < q.items.length := by rw [h.len]; exact hl
      obtain ⟨m, rfl⟩ : ∃ m', m = m' + 1 := ⟨m - 1, by omega⟩
      rw [List.getElem?_eq_getElem hl]
      dsimp only
      rw [h.dat_lt hl, Option.bind_some, Seq.removeAll, List.getElem?_eq_getElem hq]
      dsimp only
      have ed := List.drop_eq_getElem_cons hq
      by_cases hf : f q.items[j] = true
      · rw [if_pos hf, if_pos hf]
        obtain ⟨s1, e1, h1⟩ := nodeDestroy_rep h hl
        rw [e1, Option.bind_some, List.getElem?_eq_getElem hq]
        dsimp only
        have hl1 : (as.eraseIdx j).length = as.length - 1 := by rw [List.length_eraseIdx, if_pos hl]
        have hs : slotAt as j = slotAt (as.eraseIdx j) j := by rw [slotAt_erase, if_pos (Nat.le_refl _)]
        rw [hs]
        obtain ⟨s2, as2, e2, h2⟩ := deleteFrom_rep f n m j (acc ++ [q.items[j]]) h1 (by omega) (by omega) (by omega)
        refine ⟨s2, as2, ?_, h2⟩
        rw [e2, ed, List.filter_cons, if_pos hf]
        have : (q.removeAt j).items.drop j = q.items.drop (j + 1) := by
          apply List.ext_getElem?
          intro i
          rw [List.getElem?_drop, List.getElem?_drop]
          show (q.items.eraseIdx j)[j + i]? = _
          rw [List.getElem?_eraseIdx, if_neg (by omega)]; congr 1; omega
        rw [this]; simp
      · rw [if_neg hf, if_neg hf]
        have hs : some as[j] = slotAt as (j + 1) := by simp only [slotAt]; rw [List.getElem?_eq_getElem hl]
        rw [hs]
        obtain ⟨s2, as2, e2, h2⟩ := deleteFrom_rep f n m (j + 1) acc h (by omega) (by omega) (by omega)
        refine ⟨s2, as2, ?_, h2⟩
        rw [e2, ed, List.filter_cons, if_neg hf]
    · have hj' : j = as.length := by omega
      rw [List.getElem?_eq_none (by omega)]
      dsimp only
      refine ⟨s, as, ?_, ?_⟩
      · rw [List.drop_eq_nil_of_le (by rw [h.len]; omega)]; simp
      · cases m with
        | zero => exact h
        | succ m => rw [Seq.removeAll, List.getElem?_eq_none (by rw [h.len]; omega)]; exact h

end CList
end Conman
