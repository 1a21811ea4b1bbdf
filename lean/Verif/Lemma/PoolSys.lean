import Verif.Lemma.Pool
import Verif.Lemma.ListSeq

/-! All lists of a process. -/
namespace Conman
open Spec
variable {α : Type}

/-! ### Iterators of a sequence -/

theorem curs_map (q : Seq α) (f : Cursor → Cursor) : (q.map f).map (·.1) = q.curs.map (·.1) := by
  unfold Seq.map
  rw [List.map_map]; rfl

theorem curs_set (q : Seq α) (k : Nat) (c : Cursor) : (q.setCur k c).curs.map (·.1) = q.curs.map (·.1) := by
  unfold Seq.setCur
  dsimp only
  rw [List.map_map]
  apply List.map_congr_left
  intro e _
  dsimp only [Function.comp]
  by_cases h : e.1 = k
  · rw [if_pos h]; exact h.symm
  · rw [if_neg h]

theorem curs_next (q : Seq α) (k : Nat) : (q.next k).1.curs.map (·.1) = q.curs.map (·.1) := by
  unfold Seq.next
  dsimp only
  cases q.items[(q.cur k).passed]? with
  | none => exact curs_set ..
  | some v => exact curs_set ..

theorem curs_find (f : α → Bool) (k n : Nat) : ∀ q : Seq α, (Seq.find f k n q).1.curs.map (·.1) = q.curs.map (·.1) := by
  induction n with
  | zero => intro q; rfl
  | succ n ih =>
    intro q
    rw [Seq.find]
    cases (q.next k).2 with
    | none => exact curs_next q k
    | some v =>
      dsimp only
      by_cases hf : f v = true
      · rw [if_pos hf]; exact curs_next q k
      · rw [if_neg hf, ih]; exact curs_next q k

theorem curs_removeAll (f : α → Bool) (n : Nat) : ∀ (q : Seq α) (j : Nat), (Seq.removeAll f n q j).curs.map (·.1) = q.curs.map (·.1) := by
  induction n with
  | zero => intro q j; rfl
  | succ n ih =>
    intro q j
    rw [Seq.removeAll]
    cases q.items[j]? with
    | none => rfl
    | some v =>
      dsimp only
      by_cases hf : f v = true
      · rw [if_pos hf, ih]; exact curs_map ..
      · rw [if_neg hf, ih]

/-- Operations change the iterators of a list only as they say. -/
theorem curs_step (q : Seq α) (o : LOp α) (h1 : ordinary o = true) : (q.step o).1.curs.map (·.1) = (q.curs.map (·.1)).filter fun k => !(freedIters o).contains k := by
  have same : ∀ (l : List Nat), l = l.filter fun k => !([] : List Nat).contains k := by
    intro l; symm; rw [List.filter_eq_self]; intro a _; rfl
  cases o with
  | iterNew k => cases h1
  | append x a =>
    rw [Seq.step]
    dsimp only [freedIters]
    rw [← same]
    split
    · exact curs_map ..
    · rfl
  | prepend x a =>
    rw [Seq.step]
    dsimp only [freedIters]
    rw [← same]
    split
    · exact curs_map ..
    · rfl
  | pop => rw [Seq.step]; dsimp only [freedIters]; rw [← same]; exact curs_map ..
  | peek => exact same _
  | count => exact same _
  | findFirst f => exact same _
  | deleteAll f => rw [Seq.step]; dsimp only [freedIters]; rw [← same]; exact curs_removeAll ..
  | sort f =>
    rw [Seq.step]
    dsimp only [freedIters]
    rw [← same]
    split
    · exact curs_map q fun _ => ⟨0, false⟩
    · rfl
  | iterReset k => rw [Seq.step]; dsimp only [freedIters]; rw [← same]; exact curs_set ..
  | iterDestroy k =>
    rw [Seq.step]
    dsimp only [freedIters]
    rw [List.filter_map]
    congr 1
    apply List.filter_congr
    intro e _
    by_cases h : e.1 = k <;> simp [h]
  | next k => rw [Seq.step]; dsimp only [freedIters]; rw [← same]; exact curs_next ..
  | insert k x a =>
    rw [Seq.step]
    dsimp only [freedIters]
    rw [← same]
    split
    · exact curs_map ..
    · rfl
  | find k f => rw [Seq.step]; dsimp only [freedIters]; rw [← same]; exact curs_find ..
  | remove k =>
    rw [Seq.step]
    dsimp only [freedIters]
    rw [← same]
    unfold Seq.remove
    dsimp only
    split
    · exact curs_map ..
    · rfl

/-! ### The whole -/

abbrev Entry (α : Type) := Nat × CList α × Seq α

structure SysInv (t : ListSys α) (v : Lists α) (n : Nat) (U : List (Entry α)) : Prop where
  ls : t.lists = U.map fun e => (e.1, e.2.1)
  vs : v = U.map fun e => (e.1, e.2.2)
  rep : ∀ e, e ∈ U → CList.RepX e.2.1 e.2.2
  pl : ∃ L, PoolInv t.ls (U.map (·.1)) L
  pn : ∃ L, PoolInv t.ns (U.flatMap fun e => e.2.1.nodes) L
  pi : ∃ L, PoolInv t.is (U.flatMap fun e => e.2.1.iters.map (·.1)) L
  size : 10 * t.ns.blocks.length ≤ n + 9
  tot : v.total ≤ n

theorem total_nodes {U : List (Entry α)} (h : ∀ e, e ∈ U → CList.RepX e.2.1 e.2.2) : Lists.total (U.map fun e => (e.1, e.2.2)) = (U.flatMap fun e => e.2.1.nodes).length := by
  unfold Lists.total
  rw [List.map_map]
  induction U with
  | nil => rfl
  | cons e U ih =>
    rw [List.map_cons, List.sum_cons, List.flatMap_cons, List.length_append, ih (fun e' he' => h e' (by simp [he']))]
    have := (h e (by simp)).1.len
    dsimp only [Function.comp]
    rw [this]

theorem keys_perm {β : Type} {U : List (Nat × β)} {e : Nat × β} (hn : (U.map (·.1)).Nodup) (he : e ∈ U) : U.Perm (e :: U.filter fun x => x.1 ≠ e.1) := by
  induction U with
  | nil => cases he
  | cons x U ih =>
    rw [List.map_cons, List.nodup_cons] at hn
    by_cases hx : x.1 = e.1
    · have hxe : x = e := by
        rw [List.mem_cons] at he
        rcases he with rfl | he
        · rfl
        · exact absurd (List.mem_map.2 ⟨e, he, hx.symm⟩) hn.1
      subst hxe
      rw [List.filter_cons_of_neg (by simp)]
      have : U.filter (fun y => decide (y.1 ≠ x.1)) = U := by
        rw [List.filter_eq_self]
        intro y hy
        simp only [ne_eq, decide_not, Bool.not_eq_eq_eq_not, Bool.not_true, decide_eq_false_iff_not]
        intro h
        exact hn.1 (by rw [← h]; exact List.mem_map.2 ⟨y, hy, rfl⟩)
      rw [this]
    · rw [List.filter_cons_of_pos (by simpa using hx)]
      have he' : e ∈ U := by
        rw [List.mem_cons] at he
        rcases he with rfl | he
        · exact absurd rfl hx
        · exact he
      exact ((ih hn.2 he').cons x).trans (List.Perm.swap ..)

theorem SysInv.look {t : ListSys α} {v : Lists α} {n : Nat} {U : List (Entry α)} (I : SysInv t v n U) {l : Nat} {q : Seq α} (h : v.at l = some q) :
    ∃ s, t.at l = some s ∧ CList.RepX s q ∧ (l, s, q) ∈ U ∧ U.Perm ((l, s, q) :: U.filter fun e => e.1 ≠ l) := by
  unfold Lists.at at h
  rw [I.vs, List.find?_map, Option.map_map, Option.map_eq_some_iff] at h
  obtain ⟨⟨l', s, q'⟩, h, e⟩ := h
  have hl : l' = l := by
    have := List.find?_some h
    simpa using this
  subst hl
  dsimp only [Function.comp] at e
  subst e
  have hm := List.mem_of_find?_eq_some h
  obtain ⟨L, hp⟩ := I.pl
  refine ⟨s, ?_, I.rep _ hm, hm, keys_perm hp.usedNodup hm⟩
  unfold ListSys.at
  rw [I.ls, List.find?_map, Option.map_map]
  have e2 : ((fun e : Nat × CList α => e.1 == l') ∘ fun e : Entry α => (e.1, e.2.1)) = ((fun e : Nat × Seq α => e.1 == l') ∘ fun e : Entry α => (e.1, e.2.2)) := rfl
  rw [e2, h]
  rfl

theorem SysInv.none {t : ListSys α} {v : Lists α} {n : Nat} {U : List (Entry α)} (I : SysInv t v n U) {l : Nat} (h : l ∉ U.map (·.1)) : v.at l = none := by
  unfold Lists.at
  rw [I.vs, List.find?_map, Option.map_map, Option.map_eq_none_iff, List.find?_eq_none]
  intro e he hc
  exact h (List.mem_map.2 ⟨e, he, by simpa using hc⟩)

theorem filter_rest {β γ : Type} (U : List (Nat × β)) (f : Nat × β → Nat × γ) (hf : ∀ e, (f e).1 = e.1) (l : Nat) :
    (U.map f).filter (fun e => e.1 ≠ l) = (U.filter fun e => e.1 ≠ l).map f := by
  rw [List.filter_map]
  congr 1
  apply List.filter_congr
  intro e _
  dsimp only [Function.comp]
  rw [hf]

theorem iters_keys {s : CList α} {q : Seq α} (h : CList.RepX s q) : s.iters.map (·.1) = q.curs.map (·.1) := by
  rw [h.1.its, List.map_map]; rfl

/-- Operations that do not take a node have none. -/
theorem nodeOf_with (o : LOp α) (a : Option Nat) : CList.nodeOf (withNode o a) = if takesNode o then a else none := by cases o <;> rfl

theorem allowed_of {s : CList α} {q : Seq α} (h : CList.RepX s q) (o : LOp α) (ho : ordinary o = true) (hk : ∀ k, usesIter o = some k → k ∈ q.curs.map (·.1)) (a : Option Nat)
    (ha : ∀ x, a = some x → x ∉ s.nodes) : s.allowed (withNode o a) := by
  have hd : ∀ p, a = some p → s.data p = none := by
    intro p hp
    cases hx : s.data p with
    | none => rfl
    | some y => exact absurd ((h.2 p).1 (by unfold CList.Dom; rw [hx]; rfl)) (ha p hp)
  have hi : ∀ k, usesIter o = some k → (s.iter k).isSome = true := fun k h' => (h.1.has_iff k).2 (hk k h')
  cases o with
  | iterNew k => cases ho
  | append x b => exact hd
  | prepend x b => exact hd
  | pop => trivial
  | peek => trivial
  | count => trivial
  | findFirst f => trivial
  | deleteAll f => trivial
  | sort f => trivial
  | iterReset k => exact hi k rfl
  | iterDestroy k => exact hi k rfl
  | next k => exact hi k rfl
  | insert k x b => exact ⟨hi k rfl, hd⟩
  | find k f => exact hi k rfl
  | remove k => exact hi k rfl

theorem freed_uses (o : LOp α) : freedIters o = [] ∨ ∃ k, freedIters o = [k] ∧ usesIter o = some k := by
  cases o with
  | iterDestroy k => exact .inr ⟨k, rfl, rfl⟩
  | _ => exact .inl rfl

theorem with_freed (o : LOp α) (a : Option Nat) : freedIters (withNode o a) = freedIters o ∧ ordinary (withNode o a) = ordinary o := by cases o <;> exact ⟨rfl, rfl⟩

/-- The nodes do not depend on the iterators. -/
theorem nodesFrom_iters (s : CList α) (its : List (Nat × Iter)) : ∀ k a, ({ s with iters := its } : CList α).nodesFrom k a = s.nodesFrom k a
  | 0, _ => by rw [CList.nodesFrom, CList.nodesFrom]
  | k + 1, none => by rw [CList.nodesFrom, CList.nodesFrom] <;> rfl
  | k + 1, some a => by
    rw [CList.nodesFrom, CList.nodesFrom]
    rw [nodesFrom_iters s its k]

/-- An operation on one list, with the node `a`. -/
theorem sys_op {t : ListSys α} {v : Lists α} {n : Nat} {U : List (Entry α)} (I : SysInv t v n U) {l : Nat} {q : Seq α} (hv : v.at l = some q) (o : LOp α) (ho : ordinary o = true)
    (hk : ∀ k, usesIter o = some k → k ∈ q.curs.map (·.1)) (a : Option Nat) (hta : takesNode o = false → a = none) (p : Pool) (L : List Nat)
    (hp : PoolInv p (a.toList ++ U.flatMap fun e => e.2.1.nodes) L) (hsz : 10 * p.blocks.length ≤ max n ((U.flatMap fun e => e.2.1.nodes).length + a.toList.length) + 9) :
    ∃ s s' U', t.at l = some s ∧ s.step (withNode o a) = some (s', (q.step (withNode o a)).2) ∧
      SysInv { t with lists := t.put l s', ns := p.releaseAll (freedNodes s s'), is := t.is.releaseAll (freedIters o) } (v.put l (q.step (withNode o a)).1)
        (max n (Lists.total (v.put l (q.step (withNode o a)).1))) U' := by
  obtain ⟨s, ha, hr, hm, hU⟩ := I.look hv
  have hnode : CList.nodeOf (withNode o a) = a := by
    rw [nodeOf_with]
    cases ht : takesNode o with
    | true => rfl
    | false => exact (hta ht).symm
  have hfree : ∀ x, a = some x → x ∉ s.nodes := by
    intro x hx hs
    subst hx
    have := (List.nodup_append.1 hp.nodup).2.1
    rw [Option.toList_some, List.singleton_append, List.nodup_cons] at this
    exact this.1 (List.mem_flatMap.2 ⟨_, hm, hs⟩)
  obtain ⟨s', e, r', pm, hz⟩ := hr.step (withNode o a) (allowed_of hr o ho hk a hfree) (fun x hx hd => hfree x (by rw [← hnode]; exact hx) ((hr.2 x).1 hd))
  rw [hnode] at pm hz
  have nodesU : (U.flatMap fun e => e.2.1.nodes).Perm (s.nodes ++ (U.filter fun e => e.1 ≠ l).flatMap fun e => e.2.1.nodes) := by
    have := hU.flatMap_right fun e => e.2.1.nodes
    rw [List.flatMap_cons] at this
    exact this
  have itersU : (U.flatMap fun e => e.2.1.iters.map (·.1)).Perm (s.iters.map (·.1) ++ (U.filter fun e => e.1 ≠ l).flatMap fun e => e.2.1.iters.map (·.1)) := by
    have := hU.flatMap_right fun e => e.2.1.iters.map (·.1)
    rw [List.flatMap_cons] at this
    exact this
  have eT : t.put l s' = (((l, s', (q.step (withNode o a)).1) :: U.filter fun e => e.1 ≠ l) : List (Entry α)).map fun e => (e.1, e.2.1) := by
    unfold ListSys.put
    rw [I.ls, filter_rest U (fun e => (e.1, e.2.1)) (fun _ => rfl)]; rfl
  have eV : v.put l (q.step (withNode o a)).1 = (((l, s', (q.step (withNode o a)).1) :: U.filter fun e => e.1 ≠ l) : List (Entry α)).map fun e => (e.1, e.2.2) := by
    unfold Lists.put
    rw [I.vs, filter_rest U (fun e => (e.1, e.2.2)) (fun _ => rfl)]; rfl
  have rep' : ∀ e, e ∈ (((l, s', (q.step (withNode o a)).1) :: U.filter fun e => e.1 ≠ l) : List (Entry α)) → CList.RepX e.2.1 e.2.2 := by
    intro e he
    rw [List.mem_cons] at he
    rcases he with rfl | he
    · exact r'
    · exact I.rep e (List.mem_filter.1 he).1
  have tot' := total_nodes rep'
  rw [← eV] at tot'
  rw [List.flatMap_cons, List.length_append] at tot'
  dsimp only at tot'
  obtain ⟨Ll, hl⟩ := I.pl
  obtain ⟨Li, hi⟩ := I.pi
  have lens := pm.length_eq
  rw [List.length_append, List.length_append] at lens
  have lenU := nodesU.length_eq
  rw [List.length_append] at lenU
  have totU := total_nodes I.rep
  rw [← I.vs] at totU
  have hI := I.tot
  have nodesP : (a.toList ++ U.flatMap fun e => e.2.1.nodes).Perm (freedNodes s s' ++ (((l, s', (q.step (withNode o a)).1) :: U.filter fun e => e.1 ≠ l : List (Entry α)).flatMap fun e => e.2.1.nodes)) := by
    rw [List.flatMap_cons]
    refine (nodesU.append_left _).trans ?_
    rw [← List.append_assoc, ← List.append_assoc]
    exact (List.perm_append_comm.trans (pm.symm.trans List.perm_append_comm)).append_right _
  have itersP : (U.flatMap fun e => e.2.1.iters.map (·.1)).Perm (freedIters o ++ (((l, s', (q.step (withNode o a)).1) :: U.filter fun e => e.1 ≠ l : List (Entry α)).flatMap fun e => e.2.1.iters.map (·.1))) := by
    rw [List.flatMap_cons]
    refine itersU.trans ?_
    rw [← List.append_assoc]
    refine List.Perm.append_right _ ?_
    dsimp only
    rw [iters_keys hr, iters_keys r', curs_step q _ (by rw [(with_freed o a).2]; exact ho), (with_freed o a).1]
    rcases freed_uses o with h | ⟨k, h, hu⟩
    · rw [h, List.nil_append]
      have : (q.curs.map (·.1)).filter (fun k => !([] : List Nat).contains k) = q.curs.map (·.1) := by
        rw [List.filter_eq_self]; intro _ _; rfl
      rw [this]
    · rw [h, List.singleton_append]
      have hk' := hk k hu
      have hn : (q.curs.map (·.1)).Nodup := hr.1.keys
      rw [List.perm_ext_iff_of_nodup hn (List.nodup_cons.2 ⟨by simp, hn.filter _⟩)]
      intro x
      rw [List.mem_cons, List.mem_filter]
      constructor
      · intro hx
        by_cases e : x = k
        · exact .inl e
        · exact .inr ⟨hx, by simpa using e⟩
      · rintro (rfl | hx)
        · exact hk'
        · exact hx.1
  refine ⟨s, s', (l, s', (q.step (withNode o a)).1) :: U.filter fun e => e.1 ≠ l, ha, e, eT, eV, rep', ⟨Ll, ?_⟩, releaseAll_inv _ (hp.congr nodesP), releaseAll_inv _ (hi.congr itersP), ?_, Nat.le_max_right ..⟩
  · refine hl.congr ?_
    have := hU.map (·.1)
    exact this
  · dsimp only
    rw [releaseAll_blocks]
    cases a with
    | none => rw [Option.toList_none, List.length_nil] at hsz; omega
    | some x =>
      have hf := hz rfl
      rw [hf, List.length_nil] at lens
      simp only [Option.toList_some, List.length_cons, List.length_nil] at lens hsz
      omega

/-- Every legal call is defined and does what it says. -/
theorem sys_step {t : ListSys α} {v : Lists α} {n : Nat} {U : List (Entry α)} (I : SysInv t v n U) (c : LCall α) (hc : LegalCall v c) (hf : FreshBlocks t c) :
    ∃ t' r v' U', t.step c = some (t', r) ∧ Explains v c r v' ∧ SysInv t' v' (max n v'.total) U' := by
  have hmax : max n v.total = n := Nat.max_eq_left I.tot
  cases c with
  | create m =>
    obtain ⟨Ll, hl⟩ := I.pl
    rcases alloc_inv hl m hf with ⟨l, L', h1, h2, h3, _⟩ | ⟨h1, h2⟩
    · refine ⟨{ t with ls := (t.ls.alloc m).1, lists := (l, CList.create) :: t.lists }, .made (some l), (l, ⟨[], []⟩) :: v, (l, CList.create, ⟨[], []⟩) :: U, ?_, .newList (I.none h2),
        by dsimp only; rw [I.ls]; rfl, by rw [I.vs]; rfl, fun e he => ?_, ⟨L', h3⟩, ?_, ?_, ?_, Nat.le_max_right ..⟩
      · simp only [ListSys.step]; rw [h1]
      · rw [List.mem_cons] at he
        rcases he with rfl | he
        · exact CList.repX_create
        · exact I.rep e he
      · rw [List.flatMap_cons]; exact I.pn
      · rw [List.flatMap_cons]; exact I.pi
      · exact Nat.le_trans I.size (Nat.add_le_add_right (Nat.le_max_left ..) 9)
    · subst h2
      refine ⟨{ t with ls := (t.ls.alloc none).1 }, .made none, v, U, ?_, .noList, I.ls, I.vs, I.rep, ⟨Ll, by rw [h1]; exact hl⟩, I.pn, I.pi, by rw [hmax]; exact I.size, Nat.le_max_right ..⟩
      simp only [ListSys.step]; rw [h1]
  | destroy l =>
    obtain ⟨q, hq⟩ := Option.isSome_iff_exists.1 hc
    obtain ⟨s, ha, hr, hm, hU⟩ := I.look hq
    obtain ⟨Ll, hl⟩ := I.pl
    obtain ⟨Ln, hn⟩ := I.pn
    obtain ⟨Li, hi⟩ := I.pi
    have hd : s.destroy = some q.items := by
      unfold CList.destroy
      rw [hr.1.head, CList.destroyFrom_rep hr.1 _ 0 [] (by omega) (by rw [hr.1.count]; omega)]
      rfl
    have nodesU := hU.flatMap_right fun e => e.2.1.nodes
    have itersU := hU.flatMap_right fun e => e.2.1.iters.map (·.1)
    rw [List.flatMap_cons] at nodesU itersU
    refine ⟨_, .gone q.items, v.filter fun e => e.1 ≠ l, U.filter fun e => e.1 ≠ l, by simp only [ListSys.step]; rw [ha, Option.bind_some, hd]; rfl, .gone hq, ?_, ?_, fun e he => I.rep e (List.mem_filter.1 he).1,
      ⟨_, release_inv (hl.congr (hU.map (·.1)))⟩, releaseAll_inv _ (hn.congr nodesU), releaseAll_inv _ (hi.congr itersU), ?_, Nat.le_max_right ..⟩
    · dsimp only; rw [I.ls, filter_rest U (fun e => (e.1, e.2.1)) (fun _ => rfl)]
    · rw [I.vs, filter_rest U (fun e => (e.1, e.2.2)) (fun _ => rfl)]
    · dsimp only; rw [releaseAll_blocks]; exact Nat.le_trans I.size (Nat.add_le_add_right (Nat.le_max_left ..) 9)
  | op l o m =>
    obtain ⟨q, hq, hk⟩ := hc
    by_cases ho : ordinary o = true
    · have st : ∀ s, t.at l = some s → t.step (.op l o m) = (s.step (withNode o (if takesNode o then t.ns.alloc m else (t.ns, none)).2)).map fun x =>
          ({ t with lists := t.put l x.1, ns := (if takesNode o then t.ns.alloc m else (t.ns, none)).1.releaseAll (freedNodes s x.1), is := t.is.releaseAll (freedIters o) }, .did x.2) := by
        intro s hs
        cases o <;> first | (cases ho; done) | (simp only [ListSys.step]; rw [hs, Option.bind_some])
      obtain ⟨Ln, hn⟩ := I.pn
      have totU := total_nodes I.rep
      rw [← I.vs] at totU
      have hT := I.tot
      have hS := I.size
      have fin : ∀ (a : Option Nat) (p : Pool) (L : List Nat), (if takesNode o then t.ns.alloc m else (t.ns, none)) = (p, a) → (takesNode o = false → a = none) →
          PoolInv p (a.toList ++ U.flatMap fun e => e.2.1.nodes) L → 10 * p.blocks.length ≤ max n ((U.flatMap fun e => e.2.1.nodes).length + a.toList.length) + 9 →
          (a = none → takesNode o = true → m = none) →
          ∃ t' r v' U', t.step (.op l o m) = some (t', r) ∧ Explains v (.op l o m) r v' ∧ SysInv t' v' (max n v'.total) U' := by
        intro a p L he h1 h2 h3 h4
        obtain ⟨s, s', U', e1, e2, e3⟩ := sys_op I hq o ho hk a h1 p L h2 h3
        refine ⟨_, _, _, U', ?_, .did (a := a) ho hq h4, e3⟩
        rw [st s e1, he]
        dsimp only
        rw [e2]
        rfl
      cases ht : takesNode o with
      | false =>
        refine fin none t.ns Ln (by rw [ht]; rfl) (fun _ => rfl) hn ?_ (fun _ h => by rw [ht] at h; cases h)
        simp only [Option.toList_none, List.length_nil]
        omega
      | true =>
        have hf' : ∀ b, m = some b → b ∉ t.ns.blocks := fun b hb => by
          have := hf b hb
          rw [ht] at this
          exact this
        rcases alloc_inv hn m hf' with ⟨a, L', h1, h2, h3, h4⟩ | ⟨h1, h2⟩
        · refine fin (some a) (t.ns.alloc m).1 L' (by rw [ht, ← h1]; rfl) (fun h => by rw [ht] at h; cases h) h3 ?_ (fun h => nomatch h)
          simp only [Option.toList_some, List.length_cons, List.length_nil]
          rcases h4 with h4 | ⟨h4, h5⟩
          · rw [h4]; omega
          · rw [h4]; omega
        · refine fin none t.ns Ln (by rw [ht, h1]; rfl) (fun _ => rfl) hn ?_ (fun _ _ => h2)
          simp only [Option.toList_none, List.length_nil]
          omega
    · cases o with
      | iterNew k =>
        obtain ⟨s, ha, hr, hm, hU⟩ := I.look hq
        obtain ⟨Li, hi⟩ := I.pi
        have hf' : ∀ b, m = some b → b ∉ t.is.blocks := fun b hb => hf b hb
        rcases alloc_inv hi m hf' with ⟨a, L', h1, h2, h3, _⟩ | ⟨h1, h2⟩
        · have hfr : s.iter a = none := by
            cases hx : s.iter a with
            | none => rfl
            | some y =>
              have := (hr.1.has_iff a).1 (by rw [hx]; rfl)
              rw [← iters_keys hr] at this
              exact absurd (List.mem_flatMap.2 ⟨_, hm, this⟩) h2
          obtain ⟨s', e, r', pm, _⟩ := hr.step (.iterNew a) hfr (fun x hx => nomatch hx)
          have hs' : s' = s.iterCreate a := by
            simp only [CList.step, Option.some.injEq, Prod.mk.injEq] at e
            exact e.1.symm
          have nodesU := hU.flatMap_right fun e => e.2.1.nodes
          have itersU := hU.flatMap_right fun e => e.2.1.iters.map (·.1)
          rw [List.flatMap_cons] at nodesU itersU
          have hn' : s'.nodes = s.nodes := by rw [hs']; exact nodesFrom_iters s _ _ _
          have eV : v.put l (q.step (.iterNew a)).1 = (((l, s', (q.step (.iterNew a)).1) :: U.filter fun e => e.1 ≠ l) : List (Entry α)).map fun e => (e.1, e.2.2) := by
            unfold Lists.put
            rw [I.vs, filter_rest U (fun e => (e.1, e.2.2)) (fun _ => rfl)]; rfl
          refine ⟨{ t with is := (t.is.alloc m).1, lists := t.put l s' }, .made (some a), v.put l (q.step (.iterNew a)).1, (l, s', (q.step (.iterNew a)).1) :: U.filter fun e => e.1 ≠ l, ?_, .newIter hq ?_, ?_, eV,
            fun e he => ?_, ?_, ?_, ⟨L', h3.congr ?_⟩, ?_, Nat.le_max_right ..⟩
          · simp only [ListSys.step]
            rw [ha, Option.bind_some, h1]
            dsimp only
            rw [e]; rfl
          · rintro ⟨x, hx, hax⟩
            rw [I.vs, List.mem_map] at hx
            obtain ⟨y, hy, rfl⟩ := hx
            exact h2 (List.mem_flatMap.2 ⟨y, hy, by rw [iters_keys (I.rep y hy)]; exact hax⟩)
          · unfold ListSys.put
            dsimp only
            rw [I.ls, filter_rest U (fun e => (e.1, e.2.1)) (fun _ => rfl)]; rfl
          · rw [List.mem_cons] at he
            rcases he with rfl | he
            · exact r'
            · exact I.rep e (List.mem_filter.1 he).1
          · obtain ⟨Ll, hl⟩ := I.pl
            exact ⟨Ll, hl.congr (hU.map (·.1))⟩
          · obtain ⟨Ln, hn⟩ := I.pn
            rw [List.flatMap_cons]
            dsimp only
            rw [hn']
            exact ⟨Ln, hn.congr nodesU⟩
          · rw [List.flatMap_cons]
            have : s'.iters.map (·.1) = a :: s.iters.map (·.1) := by rw [hs']; rfl
            dsimp only
            rw [this]
            exact itersU.cons a
          · exact Nat.le_trans I.size (Nat.add_le_add_right (Nat.le_max_left ..) 9)
        · subst h2
          refine ⟨{ t with is := (t.is.alloc none).1 }, .made none, v, U, ?_, .noIter, I.ls, I.vs, I.rep, I.pl, I.pn, ⟨Li, by rw [h1]; exact hi⟩, by rw [hmax]; exact I.size, Nat.le_max_right ..⟩
          simp only [ListSys.step]
          rw [ha, Option.bind_some, h1]
      | _ => exact absurd rfl ho

theorem sys_start : SysInv ({} : ListSys α) [] 0 [] :=
  ⟨rfl, rfl, fun e h => (nomatch h), ⟨[], rfl, List.Perm.nil, List.nodup_nil⟩, ⟨[], rfl, List.Perm.nil, List.nodup_nil⟩, ⟨[], rfl, List.Perm.nil, List.nodup_nil⟩, Nat.zero_le _, Nat.le_refl _⟩

/-- The answer determines what the lists hold then. -/
theorem seq_with (q : Seq α) (o : LOp α) (a b : Option Nat) (h : (q.step (withNode o a)).2 = (q.step (withNode o b)).2) : (q.step (withNode o a)).1 = (q.step (withNode o b)).1 := by
  cases o with
  | append x c => cases a <;> cases b <;> first | rfl | (simp [withNode, Seq.step] at h)
  | prepend x c => cases a <;> cases b <;> first | rfl | (simp [withNode, Seq.step] at h)
  | insert k x c =>
    cases hk : q.cur k <;> cases a <;> cases b <;> first | rfl | (simp [withNode, Seq.step, hk] at h ⊢)
  | _ => rfl

theorem explains_unique {v v1 v2 : Lists α} {c : LCall α} {r : LRes α} (h1 : Explains v c r v1) (h2 : Explains v c r v2) : v1 = v2 := by
  cases h1 with
  | noList => cases h2; rfl
  | newList h => cases h2; rfl
  | gone h => generalize hr : LRes.gone _ = r at h2; cases h2; rfl
  | noIter =>
    generalize hr : LRes.made _ = r at h2
    cases h2 with
    | noIter => rfl
    | newIter _ _ => cases hr
    | did _ _ _ => cases hr
  | newIter hq _ =>
    generalize hr : LRes.made _ = r at h2
    cases h2 with
    | noIter => cases hr
    | newIter hq' _ =>
      cases hr
      rw [hq] at hq'
      cases hq'
      rfl
    | did _ _ _ => cases hr
  | did ho hq ha =>
    generalize hr : LRes.did _ = r at h2
    cases h2 with
    | noIter => cases hr
    | newIter _ _ => cases hr
    | did _ hq' _ =>
      rw [hq] at hq'
      cases hq'
      rw [LRes.did.injEq] at hr
      rw [seq_with _ _ _ _ hr]

theorem reach_inv {t : ListSys α} {v : Lists α} {n : Nat} (h : LReach t v n) : ∃ U, SysInv t v n U := by
  induction h with
  | start => exact ⟨[], sys_start⟩
  | call _ hl hf hs he ih =>
    obtain ⟨U, I⟩ := ih
    obtain ⟨t', r, v', U', e, x, I'⟩ := sys_step I _ hl hf
    rw [hs, Option.some.injEq, Prod.mk.injEq] at e
    obtain ⟨rfl, rfl⟩ := e
    rw [explains_unique he x]
    exact ⟨U', I'⟩

theorem pchain_free {p : Pool} : ∀ {L : List Nat} {st : Option Nat}, PChain p.link st L → (∀ a, st = some a → IsFree p a) → ∀ a, a ∈ L → IsFree p a := by
  intro L
  induction L with
  | nil => intro st _ _ a h; cases h
  | cons b L ih =>
    intro st hc hs a ha
    rw [List.mem_cons] at ha
    rcases ha with rfl | ha
    · exact hs a hc.1
    · exact ih hc.2 (fun c hc' => .next (hs b hc.1) hc') a ha

theorem pchain_next {link : Nat → Option Nat} : ∀ {L : List Nat} {st : Option Nat}, PChain link st L → ∀ a b, a ∈ L → link a = some b → b ∈ L := by
  intro L
  induction L with
  | nil => intro st _ a b h; cases h
  | cons x L ih =>
    intro st hc a b ha hb
    rw [List.mem_cons] at ha
    rcases ha with rfl | ha
    · have := hc.2
      rw [hb] at this
      cases L with
      | nil => cases this
      | cons y L => have := this.1; cases this; simp
    · exact List.mem_cons_of_mem _ (ih hc.2 a b ha hb)

theorem PoolInv.free_iff {p : Pool} {used L : List Nat} (h : PoolInv p used L) (a : Nat) : IsFree p a ↔ a ∈ L := by
  constructor
  · intro hf
    induction hf with
    | first hs =>
      have := h.chain
      cases L with
      | nil => rw [hs] at this; cases this
      | cons y L => have := this.1; rw [hs] at this; cases this; simp
    | next _ hl ih => exact pchain_next h.chain _ _ ih hl
  · exact pchain_free h.chain (fun a ha => .first ha) a

theorem SysInv.at_mem {t : ListSys α} {v : Lists α} {n : Nat} {U : List (Entry α)} (I : SysInv t v n U) {l : Nat} {s : CList α} (h : t.at l = some s) : ∃ q, (l, s, q) ∈ U := by
  unfold ListSys.at at h
  rw [I.ls, List.find?_map, Option.map_map, Option.map_eq_some_iff] at h
  obtain ⟨⟨l', s', q'⟩, h, e⟩ := h
  have hl : l' = l := by
    have := List.find?_some h
    simpa using this
  subst hl
  dsimp only [Function.comp] at e
  subst e
  exact ⟨q', List.mem_of_find?_eq_some h⟩

theorem nodup_apart {β : Type} (f : β → List Nat) {U : List β} (h : (U.flatMap f).Nodup) : ∀ {x y : β} {a : Nat}, x ∈ U → y ∈ U → a ∈ f x → a ∈ f y → x = y := by
  induction U with
  | nil => intro x y a hx; cases hx
  | cons z U ih =>
    rw [List.flatMap_cons, List.nodup_append] at h
    intro x y a hx hy ha hb
    rw [List.mem_cons] at hx hy
    rcases hx with rfl | hx <;> rcases hy with rfl | hy
    · rfl
    · exact absurd rfl (h.2.2 a ha a (List.mem_flatMap.2 ⟨y, hy, hb⟩))
    · exact absurd rfl (h.2.2 a hb a (List.mem_flatMap.2 ⟨x, hx, ha⟩))
    · exact ih h.2.1 hx hy ha hb

end Conman
