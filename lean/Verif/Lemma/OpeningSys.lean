import Verif.Lemma.Opening

/-! Calls on many objects. -/
namespace Conman
open Spec

def ownOf (s : XSys) (i : Nat) : Nat → Prop := fun n => s.tab n = some (.obj i)
def prOf (s : XSys) (i : Nat) : Nat → Prop := fun p => (p, i) ∈ s.progs
def arOf (s : XSys) (i : Nat) : Nat → XTimer → Prop := fun t w => (t, i, w) ∈ s.armed

theorem XGood.mono {o : XObj} {own pr pr' : Nat → Prop} {ar ar' : Nat → XTimer → Prop} (h : XGood o own pr ar) (hp : ∀ p, pr' p → pr p) (ha : ∀ t w, ar' t w → ar t w) : XGood o own pr' ar' :=
  ⟨h.fds, fun p x => h.kids p (hp p x), fun t w x => h.tim t w (ha t w x), fun t x => h.arc t (ha _ _ x), h.rest⟩

theorem XOk.mono {o : XObj} {own pr : Nat → Prop} {ar : Nat → XTimer → Prop} {v : XLoc} {l : List XI} (h : XOk o own pr ar v l) :
    ∀ (pr' : Nat → Prop) (ar' : Nat → XTimer → Prop), (∀ p, pr' p → pr p) → (∀ t w, ar' t w → ar t w) → XOk o own pr' ar' v l := by
  induction h with
  | done h => exact fun pr' ar' hp ha => .done (h.mono hp ha)
  | step h1 _ ih =>
    intro pr' ar' hp ha
    refine .step h1 fun x t a b => ih x t a b _ _ ?_ ?_
    · rintro p (⟨h, h'⟩ | h)
      · exact .inl ⟨hp _ h, h'⟩
      · exact .inr h
    · rintro t w (⟨h, h'⟩ | h)
      · exact .inl ⟨ha _ _ h, h'⟩
      · exact .inr h

structure OpenInv (given : Nat → Bool) (s : XSys) : Prop where
  one : (s.threads.map XThread.obj).Nodup
  idle : ∀ i, Idle s i → XGood (s.obj i) (ownOf s i) (prOf s i) (arOf s i)
  busy : ∀ th ∈ s.threads, XOk (s.obj th.obj) (ownOf s th.obj) (prOf s th.obj) (arOf s th.obj) th.loc th.todo
  cl : ∀ c n, s.tab n = some (.client c) ↔ (c, n) ∈ s.clients
  cl1 : ∀ p ∈ s.clients, ∀ q ∈ s.clients, p.1 = q.1 → p = q
  given' : ∀ n, s.tab n = some .given ↔ given n = true
  closed : ∀ q ∈ s.closed, q.1 = q.2
  alive : s.dead = false

theorem inv_start (kind : Nat → XKind) (given : Nat → Bool) : OpenInv given (XSys.start kind given) where
  one := List.nodup_nil
  idle := by
    intro i _
    refine ⟨fun n => ⟨fun h => ?_, fun h => (nomatch h)⟩, fun p h => (nomatch h), fun t w h => (nomatch h), fun t h => (nomatch h), ?_⟩
    · unfold ownOf XSys.start at h
      dsimp only at h
      split at h <;> cases h
    · unfold XRest XSys.start
      dsimp only
      cases kind i <;> simp
  busy := fun th h => nomatch h
  cl := by
    intro c n
    refine ⟨fun h => ?_, fun h => nomatch h⟩
    unfold XSys.start at h
    dsimp only at h
    split at h <;> cases h
  cl1 := fun p h => nomatch h
  given' := by
    intro n
    show (if given n then some XOwner.given else none) = some .given ↔ _
    by_cases h : given n = true
    · simp [h]
    · simp [h]
  closed := fun p h => nomatch h
  alive := rfl

/-- Descriptors closed by one step. -/
theorem close_fold {w : XOwner} (l : List Nat) : ∀ s : XSys, (∀ n ∈ l, s.tab n = none ∨ s.tab n = some w) →
    (∀ n, (l.foldl (fun s n => s.closeFd w n) s).tab n = if n ∈ l then none else s.tab n) ∧
    ((∀ q ∈ s.closed, q.1 = q.2) → ∀ q ∈ (l.foldl (fun s n => s.closeFd w n) s).closed, q.1 = q.2) := by
  induction l with
  | nil => exact fun s _ => ⟨fun n => by simp, fun h => h⟩
  | cons a l ih =>
    intro s h
    have ha : (∀ n, (s.closeFd w a).tab n = if n = a then none else s.tab n) ∧ ((∀ q ∈ s.closed, q.1 = q.2) → ∀ q ∈ (s.closeFd w a).closed, q.1 = q.2) := by
      unfold XSys.closeFd
      rcases h a List.mem_cons_self with h0 | h0 <;> rw [h0]
      · refine ⟨fun n => ?_, fun h => h⟩
        by_cases e : n = a
        · rw [if_pos e, e, h0]
        · rw [if_neg e]
      · refine ⟨fun n => rfl, fun h q hq => ?_⟩
        rcases List.mem_append.1 hq with hq | hq
        · exact h q hq
        · rw [List.mem_singleton] at hq; rw [hq]
    have h2 : ∀ n ∈ l, (s.closeFd w a).tab n = none ∨ (s.closeFd w a).tab n = some w := by
      intro n hn
      rw [ha.1]
      by_cases e : n = a
      · rw [if_pos e]; exact .inl rfl
      · rw [if_neg e]; exact h n (List.mem_cons_of_mem _ hn)
    have := ih (s.closeFd w a) h2
    refine ⟨fun n => ?_, fun hq => this.2 (ha.2 hq)⟩
    show (l.foldl (fun s n => s.closeFd w n) (s.closeFd w a)).tab n = _
    rw [this.1, ha.1]
    by_cases e : n = a <;> by_cases e2 : n ∈ l <;> simp [e, e2]

theorem closeFd_rest (s : XSys) (w : XOwner) (n : Nat) : (s.closeFd w n).obj = s.obj ∧ (s.closeFd w n).progs = s.progs ∧ (s.closeFd w n).armed = s.armed ∧ (s.closeFd w n).threads = s.threads ∧
    (s.closeFd w n).clients = s.clients ∧ (s.closeFd w n).dead = s.dead ∧ (s.closeFd w n).nextTimer = s.nextTimer := by
  unfold XSys.closeFd
  split <;> exact ⟨rfl, rfl, rfl, rfl, rfl, rfl, rfl⟩

theorem fold_rest {w : XOwner} (l : List Nat) : ∀ s : XSys, (l.foldl (fun s n => s.closeFd w n) s).obj = s.obj ∧ (l.foldl (fun s n => s.closeFd w n) s).progs = s.progs ∧
    (l.foldl (fun s n => s.closeFd w n) s).armed = s.armed ∧ (l.foldl (fun s n => s.closeFd w n) s).threads = s.threads ∧ (l.foldl (fun s n => s.closeFd w n) s).clients = s.clients := by
  induction l with
  | nil => exact fun s => ⟨rfl, rfl, rfl, rfl, rfl⟩
  | cons a l ih =>
    intro s
    have h := closeFd_rest s w a
    have := ih (s.closeFd w a)
    rw [h.1, h.2.1, h.2.2.1, h.2.2.2.1, h.2.2.2.2.1] at this
    exact this

theorem fresh_iff {s : XSys} {e : XEff} (h : s.fresh e = true) : (∀ n ∈ e.opens, s.tab n = none) ∧ e.opens.Nodup ∧ ∀ p, e.spawn = some p → ∀ q ∈ s.progs, q.1 ≠ p := by
  unfold XSys.fresh at h
  simp only [Bool.and_eq_true, List.all_eq_true, decide_eq_true_eq] at h
  refine ⟨h.1.1, h.1.2, fun p hp q hq => ?_⟩
  have := h.2
  rw [hp] at this
  simp only [List.all_eq_true, decide_eq_true_eq] at this
  exact this q hq

theorem apply_progs {s : XSys} {i : Nat} {e : XEff} {p j : Nat} (h : (p, j) ∈ (s.apply i e).progs) : ((p, j) ∈ s.progs ∧ e.kills ≠ some p) ∨ (e.spawn = some p ∧ j = i) := by
  unfold XSys.apply at h
  dsimp only at h
  rw [(fold_rest e.closes s).2.1] at h
  rcases List.mem_append.1 h with h | h
  · refine .inl ?_
    cases hk : e.kills with
    | none => rw [hk] at h; exact ⟨h, fun h => nomatch h⟩
    | some k =>
      rw [hk] at h
      have := List.mem_filter.1 h
      refine ⟨this.1, fun hh => ?_⟩
      have h2 := this.2
      cases hh
      simp at h2
  · refine .inr ?_
    cases hk : e.spawn with
    | none => rw [hk] at h; cases h
    | some k =>
      rw [hk] at h
      rw [List.mem_singleton] at h
      cases h
      exact ⟨rfl, rfl⟩

theorem apply_armed {s : XSys} {i : Nat} {e : XEff} {t j : Nat} {w : XTimer} (h : (t, j, w) ∈ (s.apply i e).armed) :
    ((t, j, w) ∈ s.armed ∧ e.cancels ≠ some t) ∨ (j = i ∧ t = s.nextTimer ∧ e.arms = some w) := by
  unfold XSys.apply at h
  dsimp only at h
  rw [(fold_rest e.closes s).2.2.1] at h
  rcases List.mem_append.1 h with h | h
  · refine .inl ?_
    cases hk : e.cancels with
    | none => rw [hk] at h; exact ⟨h, fun h => nomatch h⟩
    | some k =>
      rw [hk] at h
      have := List.mem_filter.1 h
      refine ⟨this.1, fun hh => ?_⟩
      have h2 := this.2
      cases hh
      simp at h2
  · refine .inr ?_
    cases hk : e.arms with
    | none => rw [hk] at h; cases h
    | some k =>
      rw [hk] at h
      rw [List.mem_singleton] at h
      cases h
      exact ⟨rfl, rfl, rfl⟩

theorem apply_tab {s : XSys} {i : Nat} {e : XEff} (hc : ∀ n ∈ e.closes, s.tab n = some (.obj i)) : ∀ n, (s.apply i e).tab n = if n ∈ e.opens then some (.obj i) else if n ∈ e.closes then none else s.tab n := by
  intro n
  show (if n ∈ e.opens then some (XOwner.obj i) else (e.closes.foldl (fun s n => s.closeFd (.obj i) n) s).tab n) = _
  rw [(close_fold e.closes s fun n hn => .inr (hc n hn)).1]

theorem apply_closed {s : XSys} {i : Nat} {e : XEff} (hc : ∀ n ∈ e.closes, s.tab n = some (.obj i)) (h : ∀ q ∈ s.closed, q.1 = q.2) : ∀ q ∈ (s.apply i e).closed, q.1 = q.2 :=
  (close_fold e.closes s fun n hn => .inr (hc n hn)).2 h

theorem apply_obj {s : XSys} {i : Nat} {e : XEff} (j : Nat) : (s.apply i e).obj j = if j = i then e.o else s.obj j := by
  show (if j = i then e.o else (e.closes.foldl (fun s n => s.closeFd (.obj i) n) s).obj j) = _
  rw [(fold_rest e.closes s).1]

/-- The view of the object. -/
theorem apply_own {s : XSys} {i : Nat} {e : XEff} (hc : ∀ n ∈ e.closes, s.tab n = some (.obj i)) : ownOf (s.apply i e) i = ownAfter (ownOf s i) e := by
  funext n
  apply propext
  unfold ownOf ownAfter
  rw [apply_tab hc]
  by_cases h1 : n ∈ e.opens <;> by_cases h2 : n ∈ e.closes <;> simp [h1, h2]

/-- The view of other objects, and of clients. -/
theorem apply_other {s : XSys} {i : Nat} {e : XEff} (hc : ∀ n ∈ e.closes, s.tab n = some (.obj i)) (ho : ∀ n ∈ e.opens, s.tab n = none) {w : XOwner} (hw : w ≠ .obj i) (n : Nat) :
    (s.apply i e).tab n = some w ↔ s.tab n = some w := by
  rw [apply_tab hc]
  by_cases h1 : n ∈ e.opens
  · rw [if_pos h1, ho n h1]
    exact ⟨fun h => absurd (Option.some.inj h).symm hw, fun h => nomatch h⟩
  · rw [if_neg h1]
    by_cases h2 : n ∈ e.closes
    · rw [if_pos h2, hc n h2]
      exact ⟨fun h => (nomatch h), fun h => absurd (Option.some.inj h).symm hw⟩
    · rw [if_neg h2]

theorem nodup_idx {α β : Type} {f : α → β} {l : List α} {j k : Nat} {a b : α} (h : (l.map f).Nodup) (hj : l[j]? = some a) (hk : l[k]? = some b) (hne : j ≠ k) : f a ≠ f b := by
  intro e
  have h1 : (l.map f)[j]? = some (f a) := by rw [List.getElem?_map, hj]; rfl
  have h2 : (l.map f)[k]? = some (f b) := by rw [List.getElem?_map, hk]; rfl
  have hl : j < (l.map f).length := by
    rcases Nat.lt_or_ge j (l.map f).length with h | h
    · exact h
    · rw [List.getElem?_eq_none h] at h1; cases h1
  exact hne ((List.getElem?_inj hl h).1 (by rw [h1, h2, e]))

/-- A step of a call. -/
theorem inv_exec {given : Nat → Bool} {s : XSys} {k : Nat} {th : XThread} {x : XAns} {a : XI} {l : List XI} (h : OpenInv given s) (ht : s.threads[k]? = some th) (htd : th.todo = a :: l)
    (hf : s.fresh (xExec (s.obj th.obj) th.loc x s.nextTimer a) = true) :
    OpenInv given { s.apply th.obj (xExec (s.obj th.obj) th.loc x s.nextTimer a) with
      threads := s.threads.set k { th with loc := (xExec (s.obj th.obj) th.loc x s.nextTimer a).loc, todo := (xExec (s.obj th.obj) th.loc x s.nextTimer a).todo ++ l } } := by
  have hb := h.busy th (List.mem_of_getElem? ht)
  rw [htd] at hb
  have hf' := fresh_iff hf
  have hfr : ∀ n ∈ (xExec (s.obj th.obj) th.loc x s.nextTimer a).opens, ¬ ownOf s th.obj n := by
    intro n hn hh
    unfold ownOf at hh
    rw [hf'.1 n hn] at hh
    cases hh
  cases hb with
  | step h1 h2 =>
    have g1 := h1 x s.nextTimer hfr hf'.2.1
    have g2 := h2 x s.nextTimer hfr hf'.2.1
    generalize he : xExec (s.obj th.obj) th.loc x s.nextTimer a = e at *
    have hc : ∀ n ∈ e.closes, s.tab n = some (.obj th.obj) := g1.2
    have hmem : ∀ q ∈ s.threads.set k { th with loc := e.loc, todo := e.todo ++ l }, q = { th with loc := e.loc, todo := e.todo ++ l } ∨ (q ∈ s.threads ∧ q.obj ≠ th.obj) := by
      intro q hq
      obtain ⟨j, hj⟩ := List.mem_iff_getElem?.1 hq
      rw [List.getElem?_set] at hj
      by_cases hjk : k = j
      · rw [if_pos hjk] at hj
        split at hj
        · exact .inl (Option.some.inj hj).symm
        · cases hj
      · rw [if_neg hjk] at hj
        exact .inr ⟨List.mem_of_getElem? hj, nodup_idx h.one hj ht (fun h => hjk h.symm)⟩
    have hmap : (s.threads.set k { th with loc := e.loc, todo := e.todo ++ l }).map XThread.obj = s.threads.map XThread.obj := by
      apply List.ext_getElem?
      intro j
      rw [List.getElem?_map, List.getElem?_map, List.getElem?_set]
      by_cases hjk : k = j
      · subst hjk
        rw [if_pos rfl]
        split
        · rw [ht]; rfl
        · rename_i hl
          rw [List.getElem?_eq_none (Nat.le_of_not_lt hl)]
      · rw [if_neg hjk]
    have hid : ∀ i, Idle { s.apply th.obj e with threads := s.threads.set k { th with loc := e.loc, todo := e.todo ++ l } } i → Idle s i ∧ i ≠ th.obj := by
      intro i hi
      have hx : ∀ o ∈ (s.threads.set k { th with loc := e.loc, todo := e.todo ++ l }).map XThread.obj, o ≠ i := by
        intro o ho
        obtain ⟨q, hq, rfl⟩ := List.mem_map.1 ho
        exact hi q hq
      rw [hmap] at hx
      exact ⟨fun q hq => hx _ (List.mem_map.2 ⟨q, hq, rfl⟩), fun e => hx _ (List.mem_map.2 ⟨th, List.mem_of_getElem? ht, rfl⟩) e.symm⟩
    refine { one := ?_, idle := ?_, busy := ?_, cl := ?_, cl1 := ?_, given' := ?_, closed := ?_, alive := ?_ }
    · show (List.map _ (s.threads.set k _)).Nodup
      rw [hmap]; exact h.one
    · intro i hi
      have hi' := hid i hi
      have hg := h.idle i hi'.1
      show XGood ((s.apply th.obj e).obj i) (ownOf (s.apply th.obj e) i) (prOf (s.apply th.obj e) i) (arOf (s.apply th.obj e) i)
      rw [apply_obj, if_neg hi'.2]
      have : ownOf (s.apply th.obj e) i = ownOf s i := by
        funext n
        exact propext (apply_other hc hf'.1 (fun hh => hi'.2 (XOwner.obj.inj hh)) n)
      rw [this]
      refine hg.mono (fun p hp => ?_) (fun t w ha => ?_)
      · rcases apply_progs hp with hp | hp
        · exact hp.1
        · exact absurd hp.2 hi'.2
      · rcases apply_armed ha with ha | ha
        · exact ha.1
        · exact absurd ha.1 hi'.2
    · intro q hq
      rcases hmem q hq with rfl | ⟨hq, hne⟩
      · show XOk ((s.apply th.obj e).obj th.obj) (ownOf (s.apply th.obj e) th.obj) (prOf (s.apply th.obj e) th.obj) (arOf (s.apply th.obj e) th.obj) e.loc (e.todo ++ l)
        rw [apply_obj, if_pos rfl, apply_own hc]
        refine g2.mono _ _ (fun p hp => ?_) (fun t w ha => ?_)
        · rcases apply_progs hp with hp | hp
          · exact .inl hp
          · exact .inr hp.1
        · rcases apply_armed ha with ha | ha
          · exact .inl ha
          · exact .inr ha.2
      · show XOk ((s.apply th.obj e).obj q.obj) (ownOf (s.apply th.obj e) q.obj) (prOf (s.apply th.obj e) q.obj) (arOf (s.apply th.obj e) q.obj) q.loc q.todo
        rw [apply_obj, if_neg hne]
        have : ownOf (s.apply th.obj e) q.obj = ownOf s q.obj := by
          funext n
          exact propext (apply_other hc hf'.1 (fun hh => hne (XOwner.obj.inj hh)) n)
        rw [this]
        refine (h.busy q hq).mono _ _ (fun p hp => ?_) (fun t w ha => ?_)
        · rcases apply_progs hp with hp | hp
          · exact hp.1
          · exact absurd hp.2 hne
        · rcases apply_armed ha with ha | ha
          · exact ha.1
          · exact absurd ha.1 hne
    · intro c n
      show (s.apply th.obj e).tab n = _ ↔ (c, n) ∈ (e.closes.foldl (fun s n => s.closeFd (.obj th.obj) n) s).clients
      rw [(fold_rest e.closes s).2.2.2.2, apply_other (w := .client c) hc hf'.1 (fun h => nomatch h)]
      exact h.cl c n
    · show ∀ p ∈ (e.closes.foldl (fun s n => s.closeFd (.obj th.obj) n) s).clients, ∀ q ∈ (e.closes.foldl (fun s n => s.closeFd (.obj th.obj) n) s).clients, _
      rw [(fold_rest e.closes s).2.2.2.2]
      exact h.cl1
    · intro n
      show (s.apply th.obj e).tab n = _ ↔ _
      rw [apply_other (w := .given) hc hf'.1 (fun h => nomatch h)]
      exact h.given' n
    · exact apply_closed hc h.closed
    · exact g1.1

/-- The beginning of a call. -/
theorem inv_begin {given : Nat → Bool} {s : XSys} {i : Nat} {l : List XI} (h : OpenInv given s) (hi : Idle s i) (hl : ∀ v, XOk (s.obj i) (ownOf s i) (prOf s i) (arOf s i) v l) : OpenInv given (s.begin i l) where
  one := by
    show ((s.threads ++ [({ obj := i, todo := l } : XThread)]).map XThread.obj).Nodup
    rw [List.map_append, List.nodup_append]
    refine ⟨h.one, by simp, fun a ha b hb => ?_⟩
    obtain ⟨q, hq, rfl⟩ := List.mem_map.1 ha
    rw [List.map_singleton, List.mem_singleton] at hb
    rw [hb]
    exact hi q hq
  idle := fun j hj => h.idle j fun q hq => hj q (List.mem_append_left _ hq)
  busy := by
    intro q hq
    rcases List.mem_append.1 hq with hq | hq
    · exact h.busy q hq
    · rw [List.mem_singleton] at hq
      subst hq
      exact hl _
  cl := h.cl
  cl1 := h.cl1
  given' := h.given'
  closed := h.closed
  alive := h.alive

theorem inv_step {given : Nat → Bool} {s s' : XSys} {ev : XEv} (h : OpenInv given s) (ha : Apart s ev) (hs : s.step ev = some s') : OpenInv given s' := by
  unfold XSys.step at hs
  have hd : ¬ s.dead = true := by rw [h.alive]; exact fun h => nomatch h
  rw [if_neg hd] at hs
  cases ev with
  | call i c =>
    cases hs
    exact inv_begin h ha fun v => ok_call c (h.idle i ha)
  | fire t =>
    cases hf : s.armed.find? (fun a => a.1 == t) with
    | none => simp only [hf] at hs; cases hs
    | some q =>
      obtain ⟨t', i, w⟩ := q
      simp only [hf] at hs
      cases hs
      have hm := List.mem_of_find?_eq_some hf
      have ht := List.find?_some hf
      simp only [beq_iff_eq] at ht
      subst ht
      have hi : Idle s i := ha _ hm rfl
      have hg := h.idle i hi
      have h2 : OpenInv given { s with armed := s.armed.filter (fun a => a.1 ≠ t') } :=
        { one := h.one
          idle := fun j hj => (h.idle j hj).mono (fun _ h => h) (fun t w h => (List.mem_filter.1 h).1)
          busy := fun q hq => (h.busy q hq).mono _ _ (fun _ h => h) (fun t w h => (List.mem_filter.1 h).1)
          cl := h.cl, cl1 := h.cl1, given' := h.given', closed := h.closed, alive := h.alive }
      refine inv_begin h2 hi fun v => (ok_fire (t := t') (w := w) hg hm).mono _ _ (fun _ h => h) fun t w hh => ?_
      have := List.mem_filter.1 hh
      exact ⟨this.1, by simpa using this.2⟩
  | step k x =>
    cases ht : s.threads[k]? with
    | none => simp only [ht] at hs; cases hs
    | some th =>
      simp only [ht] at hs
      cases htd : th.todo with
      | cons a l =>
        simp only [htd] at hs
        by_cases hf : s.fresh (xExec (s.obj th.obj) th.loc x s.nextTimer a) = true
        · rw [if_pos hf] at hs
          cases hs
          exact inv_exec h ht htd hf
        · rw [if_neg hf] at hs; cases hs
      | nil =>
        simp only [htd] at hs
        cases hs
        have hb := h.busy th (List.mem_of_getElem? ht)
        rw [htd] at hb
        cases hb with
        | done hg =>
          refine { one := ?_, idle := ?_, busy := ?_, cl := h.cl, cl1 := h.cl1, given' := h.given', closed := h.closed, alive := h.alive }
          · exact h.one.sublist ((List.eraseIdx_sublist s.threads k).map _)
          · intro i hi
            by_cases e : i = th.obj
            · subst e; exact hg
            · refine h.idle i fun q hq => ?_
              obtain ⟨j, hj⟩ := List.mem_iff_getElem?.1 hq
              by_cases hjk : j = k
              · subst hjk
                rw [ht] at hj
                cases hj
                exact fun h => e h.symm
              · exact hi q (List.mem_eraseIdx_iff_getElem?.2 ⟨j, hjk, hj⟩)
          · exact fun q hq => h.busy q (List.mem_of_mem_eraseIdx hq)
  | accept c n =>
    dsimp only at hs
    by_cases hc : s.tab n = none ∧ (∀ p ∈ s.clients, p.1 ≠ c)
    · rw [if_pos hc] at hs
      cases hs
      have hob : ∀ i, ownOf { s with tab := fun m => if m = n then some (.client c) else s.tab m, clients := (c, n) :: s.clients } i = ownOf s i := by
        intro i
        funext m
        apply propext
        show (if m = n then some (XOwner.client c) else s.tab m) = some (.obj i) ↔ s.tab m = some (.obj i)
        by_cases e : m = n
        · rw [if_pos e, e, hc.1]; exact ⟨fun h => (nomatch h), fun h => (nomatch h)⟩
        · rw [if_neg e]
      refine { one := h.one, idle := fun i hi => ?_, busy := fun q hq => ?_, cl := fun d m => ?_, cl1 := ?_, given' := fun m => ?_, closed := h.closed, alive := h.alive }
      · rw [hob]; exact h.idle i hi
      · rw [hob]; exact h.busy q hq
      · show (if m = n then some (XOwner.client c) else s.tab m) = some (.client d) ↔ (d, m) ∈ (c, n) :: s.clients
        by_cases e : m = n
        · rw [if_pos e, e, List.mem_cons]
          constructor
          · intro h; cases h; exact .inl rfl
          · rintro (h | h')
            · cases h; rfl
            · rw [← h.cl, hc.1] at h'; cases h'
        · rw [if_neg e, List.mem_cons, h.cl]
          constructor
          · exact .inr
          · rintro (h | h')
            · cases h; exact absurd rfl e
            · exact h'
      · intro p hp q hq hpq
        rcases List.mem_cons.1 hp with rfl | hp <;> rcases List.mem_cons.1 hq with rfl | hq
        · rfl
        · exact absurd hpq.symm (hc.2 q hq)
        · exact absurd hpq (hc.2 p hp)
        · exact h.cl1 p hp q hq hpq
      · show (if m = n then some (XOwner.client c) else s.tab m) = some .given ↔ _
        by_cases e : m = n
        · rw [if_pos e, ← h.given' m, e, hc.1]; exact ⟨fun h => (nomatch h), fun h => (nomatch h)⟩
        · rw [if_neg e]; exact h.given' m
    · rw [if_neg hc] at hs; cases hs
  | drop c =>
    cases hf : s.clients.find? (fun p => p.1 == c) with
    | none => simp only [hf] at hs; cases hs
    | some q =>
      obtain ⟨c', n⟩ := q
      simp only [hf] at hs
      cases hs
      have hm := List.mem_of_find?_eq_some hf
      have ht := List.find?_some hf
      simp only [beq_iff_eq] at ht
      subst ht
      have htab : s.tab n = some (.client c') := (h.cl c' n).2 hm
      have hcl : s.closeFd (.client c') n = { s with tab := fun m => if m = n then none else s.tab m, closed := s.closed ++ [(.client c', .client c')] } := by
        unfold XSys.closeFd
        rw [htab]
      rw [hcl]
      have hob : ∀ w, w ≠ .client c' → ∀ m, (if m = n then none else s.tab m) = some w ↔ s.tab m = some w := by
        intro w hw m
        by_cases e : m = n
        · rw [if_pos e, e, htab]; exact ⟨fun h => (nomatch h), fun h => absurd (Option.some.inj h).symm hw⟩
        · rw [if_neg e]
      refine { one := h.one, idle := fun i hi => ?_, busy := fun q hq => ?_, cl := fun d m => ?_, cl1 := ?_, given' := fun m => ?_, closed := ?_, alive := h.alive }
      · have : ownOf { s with tab := fun m => if m = n then none else s.tab m, closed := s.closed ++ [(.client c', .client c')], clients := s.clients.filter (fun p => p.1 ≠ c') } i = ownOf s i := by
          funext m
          exact propext (hob (.obj i) (fun h => nomatch h) m)
        rw [this]; exact h.idle i hi
      · have : ownOf { s with tab := fun m => if m = n then none else s.tab m, closed := s.closed ++ [(.client c', .client c')], clients := s.clients.filter (fun p => p.1 ≠ c') } q.obj = ownOf s q.obj := by
          funext m
          exact propext (hob (.obj q.obj) (fun h => nomatch h) m)
        rw [this]; exact h.busy q hq
      · show (if m = n then none else s.tab m) = some (.client d) ↔ (d, m) ∈ s.clients.filter (fun p => p.1 ≠ c')
        rw [List.mem_filter, ← h.cl]
        by_cases e : d = c'
        · subst e
          refine ⟨fun hh => ?_, fun hh => absurd hh.2 (by simp)⟩
          by_cases e2 : m = n
          · rw [if_pos e2] at hh; cases hh
          · rw [if_neg e2, h.cl] at hh
            have := h.cl1 _ hh _ hm rfl
            cases this
            exact absurd rfl e2
        · rw [hob _ (fun hh => e (by cases hh; rfl))]
          exact ⟨fun h => ⟨h, by simpa using e⟩, fun h => h.1⟩
      · exact fun p hp q hq => h.cl1 p (List.mem_filter.1 hp).1 q (List.mem_filter.1 hq).1
      · exact (hob .given (fun h => nomatch h) m).trans (h.given' m)
      · intro q hq
        rcases List.mem_append.1 hq with hq | hq
        · exact h.closed q hq
        · rw [List.mem_singleton] at hq; rw [hq]
  | exit p =>
    cases hs
    exact { one := h.one
            idle := fun j hj => (h.idle j hj).mono (fun _ h => (List.mem_filter.1 h).1) (fun t w h => h)
            busy := fun q hq => (h.busy q hq).mono _ _ (fun _ h => (List.mem_filter.1 h).1) (fun t w h => h)
            cl := h.cl, cl1 := h.cl1, given' := h.given', closed := h.closed, alive := h.alive }

theorem inv_calm {kind : Nat → XKind} {given : Nat → Bool} {s : XSys} (h : XCalm kind given s) : OpenInv given s := by
  induction h with
  | start => exact inv_start kind given
  | step _ ha hs ih => exact inv_step ih ha hs

/-- What a step closes, and what it notes, was noted before or is new. -/
theorem exec_refs (o : XObj) (v : XLoc) (x : XAns) (t : Nat) (a : XI) :
    (∀ n ∈ (xExec o v x t a).closes, o.fd = some n ∨ v.a = some n ∨ v.b = some n) ∧
    (∀ n, (xExec o v x t a).o.fd = some n ∨ (xExec o v x t a).loc.a = some n ∨ (xExec o v x t a).loc.b = some n → (o.fd = some n ∨ v.a = some n ∨ v.b = some n) ∨ n ∈ (xExec o v x t a).opens) ∧
    (∀ p, (xExec o v x t a).kills = some p → o.pid = some p) ∧
    (∀ p, (xExec o v x t a).o.pid = some p ∨ (xExec o v x t a).loc.pid = some p → (o.pid = some p ∨ v.pid = some p) ∨ (xExec o v x t a).spawn = some p) := by
  obtain ⟨kind, state, fd, pid, timer⟩ := o
  obtain ⟨va, vb, vp⟩ := v
  obtain ⟨ok, conn, xn, xm⟩ := x
  cases a <;> simp only [xExec] <;> (try split) <;> (try split) <;> simp <;> grind

/-- Nobody knows of a descriptor that is open. -/
def Lost (s : XSys) (n : Nat) : Prop :=
  s.tab n ≠ none ∧ (∀ i, (s.obj i).fd ≠ some n) ∧ (∀ th ∈ s.threads, th.loc.a ≠ some n ∧ th.loc.b ≠ some n) ∧ ∀ c ∈ s.clients, c.2 ≠ n

/-- Nobody knows of a program that runs. -/
def Stray (s : XSys) (p : Nat) : Prop := (∃ i, (p, i) ∈ s.progs) ∧ (∀ i, (s.obj i).pid ≠ some p) ∧ ∀ th ∈ s.threads, th.loc.pid ≠ some p

theorem closeFd_tab (s : XSys) (w : XOwner) (k n : Nat) (h : n ≠ k) : (s.closeFd w k).tab n = s.tab n := by
  unfold XSys.closeFd
  split
  · rfl
  · exact if_neg h

theorem fold_tab {w : XOwner} (l : List Nat) : ∀ (s : XSys) (n : Nat), n ∉ l → (l.foldl (fun s n => s.closeFd w n) s).tab n = s.tab n := by
  induction l with
  | nil => exact fun s n _ => rfl
  | cons a l ih =>
    intro s n h
    rw [List.mem_cons, not_or] at h
    exact (ih _ n h.2).trans (closeFd_tab s w a n h.1)

theorem lost_step {s s' : XSys} {ev : XEv} {n : Nat} (h : Lost s n) (hs : s.step ev = some s') : Lost s' n ∧ s'.tab n = s.tab n := by
  unfold XSys.step at hs
  by_cases hd : s.dead = true
  · rw [if_pos hd] at hs; cases hs
  rw [if_neg hd] at hs
  obtain ⟨h0, h1, h2, h3⟩ := h
  have hb : ∀ i l, ∀ th ∈ s.threads ++ [({ obj := i, todo := l } : XThread)], th.loc.a ≠ some n ∧ th.loc.b ≠ some n := by
    intro i l th hth
    rcases List.mem_append.1 hth with hth | hth
    · exact h2 th hth
    · rw [List.mem_singleton] at hth
      subst hth
      exact ⟨fun h => (nomatch h), fun h => (nomatch h)⟩
  cases ev with
  | call i c =>
    cases hs
    exact ⟨⟨h0, h1, hb _ _, h3⟩, rfl⟩
  | fire t =>
    cases hf : s.armed.find? (fun a => a.1 == t) with
    | none => simp only [hf] at hs; cases hs
    | some q =>
      obtain ⟨t', i, w⟩ := q
      simp only [hf] at hs
      cases hs
      exact ⟨⟨h0, h1, hb _ _, h3⟩, rfl⟩
  | step k x =>
    cases ht : s.threads[k]? with
    | none => simp only [ht] at hs; cases hs
    | some th =>
      simp only [ht] at hs
      cases htd : th.todo with
      | nil =>
        simp only [htd] at hs
        cases hs
        exact ⟨⟨h0, h1, fun q hq => h2 q (List.mem_of_mem_eraseIdx hq), h3⟩, rfl⟩
      | cons a l =>
        simp only [htd] at hs
        by_cases hf : s.fresh (xExec (s.obj th.obj) th.loc x s.nextTimer a) = true
        · rw [if_pos hf] at hs
          cases hs
          have hr := exec_refs (s.obj th.obj) th.loc x s.nextTimer a
          have hth := h2 th (List.mem_of_getElem? ht)
          have hf' := fresh_iff hf
          generalize xExec (s.obj th.obj) th.loc x s.nextTimer a = e at *
          have hno : ∀ {P : Prop}, ((s.obj th.obj).fd = some n ∨ th.loc.a = some n ∨ th.loc.b = some n) → P := by
            rintro P (h | h | h)
            · exact absurd h (h1 _)
            · exact absurd h hth.1
            · exact absurd h hth.2
          have hnc : n ∉ e.closes := fun h => hno (hr.1 n h)
          have hnop : n ∉ e.opens := fun h => h0 (hf'.1 n h)
          have htab : (s.apply th.obj e).tab n = s.tab n := by
            show (if n ∈ e.opens then some (XOwner.obj th.obj) else (e.closes.foldl (fun s n => s.closeFd (.obj th.obj) n) s).tab n) = _
            rw [if_neg hnop, fold_tab _ _ _ hnc]
          have hnew : ∀ {P : Prop}, (e.o.fd = some n ∨ e.loc.a = some n ∨ e.loc.b = some n) → P := by
            intro P h
            rcases hr.2.1 n h with h | h
            · exact hno h
            · exact absurd h hnop
          refine ⟨⟨?_, fun i => ?_, fun q hq => ?_, ?_⟩, htab⟩
          · show (s.apply th.obj e).tab n ≠ none
            rw [htab]; exact h0
          · show ((s.apply th.obj e).obj i).fd ≠ some n
            rw [apply_obj]
            by_cases hi : i = th.obj
            · rw [if_pos hi]; exact fun h => hnew (.inl h)
            · rw [if_neg hi]; exact h1 i
          · rcases List.mem_or_eq_of_mem_set hq with hq | rfl
            · exact h2 q hq
            · exact ⟨fun h => hnew (.inr (.inl h)), fun h => hnew (.inr (.inr h))⟩
          · show ∀ c ∈ (e.closes.foldl (fun s n => s.closeFd (.obj th.obj) n) s).clients, c.2 ≠ n
            rw [(fold_rest e.closes s).2.2.2.2]
            exact h3
        · rw [if_neg hf] at hs; cases hs
  | accept c k =>
    dsimp only at hs
    by_cases hc : s.tab k = none ∧ (∀ p ∈ s.clients, p.1 ≠ c)
    · rw [if_pos hc] at hs
      cases hs
      have hne : n ≠ k := by rintro rfl; exact h0 hc.1
      have htab : (if n = k then some (XOwner.client c) else s.tab n) = s.tab n := if_neg hne
      refine ⟨⟨?_, h1, h2, fun p hp => ?_⟩, htab⟩
      · show (if n = k then some (XOwner.client c) else s.tab n) ≠ none
        rw [htab]; exact h0
      · rcases List.mem_cons.1 hp with rfl | hp
        · exact fun h => hne h.symm
        · exact h3 p hp
    · rw [if_neg hc] at hs; cases hs
  | drop c =>
    cases hf : s.clients.find? (fun p => p.1 == c) with
    | none => simp only [hf] at hs; cases hs
    | some q =>
      obtain ⟨c', k⟩ := q
      simp only [hf] at hs
      cases hs
      have hne : n ≠ k := fun h => h3 _ (List.mem_of_find?_eq_some hf) h.symm
      have htab := closeFd_tab s (.client c) k n hne
      have hr := closeFd_rest s (.client c) k
      refine ⟨⟨?_, fun i => ?_, ?_, fun p hp => h3 p (List.mem_filter.1 hp).1⟩, htab⟩
      · show (s.closeFd (.client c) k).tab n ≠ none
        rw [htab]; exact h0
      · show ((s.closeFd (.client c) k).obj i).fd ≠ _
        rw [hr.1]; exact h1 i
      · show ∀ th ∈ (s.closeFd (.client c) k).threads, _
        rw [hr.2.2.2.1]; exact h2
  | exit p =>
    cases hs
    exact ⟨⟨h0, h1, h2, h3⟩, rfl⟩

theorem lost_run {n : Nat} : ∀ (evs : List XEv) {s s' : XSys}, Lost s n → s.run evs = some s' → s'.tab n = s.tab n ∧ ∀ i, (s'.obj i).fd ≠ some n := by
  intro evs
  induction evs with
  | nil => intro s s' h hs; cases hs; exact ⟨rfl, h.2.1⟩
  | cons e es ih =>
    intro s s' h hs
    rw [XSys.run] at hs
    cases h1 : s.step e with
    | none => rw [h1] at hs; cases hs
    | some s1 =>
      rw [h1] at hs
      have h2 := lost_step h h1
      have h3 := ih h2.1 hs
      exact ⟨h3.1.trans h2.2, h3.2⟩

theorem stray_step {s s' : XSys} {ev : XEv} {p : Nat} (h : Stray s p) (he : ev ≠ .exit p) (hs : s.step ev = some s') : Stray s' p := by
  unfold XSys.step at hs
  by_cases hd : s.dead = true
  · rw [if_pos hd] at hs; cases hs
  rw [if_neg hd] at hs
  obtain ⟨⟨i0, h0⟩, h1, h2⟩ := h
  have hb : ∀ i l, ∀ th ∈ s.threads ++ [({ obj := i, todo := l } : XThread)], th.loc.pid ≠ some p := by
    intro i l th hth
    rcases List.mem_append.1 hth with hth | hth
    · exact h2 th hth
    · rw [List.mem_singleton] at hth
      subst hth
      exact fun h => (nomatch h)
  cases ev with
  | call i c =>
    cases hs
    exact ⟨⟨i0, h0⟩, h1, hb _ _⟩
  | fire t =>
    cases hf : s.armed.find? (fun a => a.1 == t) with
    | none => simp only [hf] at hs; cases hs
    | some q =>
      obtain ⟨t', i, w⟩ := q
      simp only [hf] at hs
      cases hs
      exact ⟨⟨i0, h0⟩, h1, hb _ _⟩
  | step k x =>
    cases ht : s.threads[k]? with
    | none => simp only [ht] at hs; cases hs
    | some th =>
      simp only [ht] at hs
      cases htd : th.todo with
      | nil =>
        simp only [htd] at hs
        cases hs
        exact ⟨⟨i0, h0⟩, h1, fun q hq => h2 q (List.mem_of_mem_eraseIdx hq)⟩
      | cons a l =>
        simp only [htd] at hs
        by_cases hf : s.fresh (xExec (s.obj th.obj) th.loc x s.nextTimer a) = true
        · rw [if_pos hf] at hs
          cases hs
          have hr := exec_refs (s.obj th.obj) th.loc x s.nextTimer a
          have hth := h2 th (List.mem_of_getElem? ht)
          have hf' := fresh_iff hf
          generalize xExec (s.obj th.obj) th.loc x s.nextTimer a = e at *
          have hno : ∀ {P : Prop}, ((s.obj th.obj).pid = some p ∨ th.loc.pid = some p) → P := by
            rintro P (h | h)
            · exact absurd h (h1 _)
            · exact absurd h hth
          have hnew : ∀ {P : Prop}, (e.o.pid = some p ∨ e.loc.pid = some p) → P := by
            intro P h
            rcases hr.2.2.2 p h with h | h
            · exact hno h
            · exact absurd rfl (hf'.2.2 p h _ h0)
          have hk : e.kills ≠ some p := fun h => hno (.inl (hr.2.2.1 p h))
          refine ⟨⟨i0, ?_⟩, fun i => ?_, fun q hq => ?_⟩
          · show (p, i0) ∈ (s.apply th.obj e).progs
            unfold XSys.apply
            dsimp only
            rw [(fold_rest e.closes s).2.1]
            refine List.mem_append_left _ ?_
            cases hkk : e.kills with
            | none => exact h0
            | some k => exact List.mem_filter.2 ⟨h0, by rw [hkk] at hk; simpa using fun h : p = k => hk (by rw [h])⟩
          · show ((s.apply th.obj e).obj i).pid ≠ some p
            rw [apply_obj]
            by_cases hi : i = th.obj
            · rw [if_pos hi]; exact fun h => hnew (.inl h)
            · rw [if_neg hi]; exact h1 i
          · rcases List.mem_or_eq_of_mem_set hq with hq | rfl
            · exact h2 q hq
            · exact fun h => hnew (.inr h)
        · rw [if_neg hf] at hs; cases hs
  | accept c k =>
    dsimp only at hs
    by_cases hc : s.tab k = none ∧ (∀ p ∈ s.clients, p.1 ≠ c)
    · rw [if_pos hc] at hs
      cases hs
      exact ⟨⟨i0, h0⟩, h1, h2⟩
    · rw [if_neg hc] at hs; cases hs
  | drop c =>
    cases hf : s.clients.find? (fun p => p.1 == c) with
    | none => simp only [hf] at hs; cases hs
    | some q =>
      obtain ⟨c', k⟩ := q
      simp only [hf] at hs
      cases hs
      have hr := closeFd_rest s (.client c) k
      refine ⟨⟨i0, ?_⟩, fun i => ?_, ?_⟩
      · show _ ∈ (s.closeFd (.client c) k).progs
        rw [hr.2.1]; exact h0
      · show ((s.closeFd (.client c) k).obj i).pid ≠ _
        rw [hr.1]; exact h1 i
      · show ∀ th ∈ (s.closeFd (.client c) k).threads, _
        rw [hr.2.2.2.1]; exact h2
  | exit q =>
    cases hs
    exact ⟨⟨i0, List.mem_filter.2 ⟨h0, by simpa using fun h : p = q => he (by rw [h])⟩⟩, h1, h2⟩

theorem stray_run {p : Nat} : ∀ (evs : List XEv) {s s' : XSys}, Stray s p → .exit p ∉ evs → s.run evs = some s' → Stray s' p := by
  intro evs
  induction evs with
  | nil => intro s s' h _ hs; cases hs; exact h
  | cons e es ih =>
    intro s s' h he hs
    rw [XSys.run] at hs
    rw [List.mem_cons, not_or] at he
    cases h1 : s.step e with
    | none => rw [h1] at hs; cases hs
    | some s1 =>
      rw [h1] at hs
      exact ih (stray_step h (fun h => he.1 h.symm) h1) he.2 hs

end Conman

namespace Conman
open Spec

instance (s : XSys) (i : Nat) : Decidable (Idle s i) := inferInstanceAs (Decidable (∀ th ∈ s.threads, th.obj ≠ i))

instance (s : XSys) (e : XEv) : Decidable (Apart s e) := by
  cases e
  case call i c => exact inferInstanceAs (Decidable (Idle s i))
  case fire t => exact inferInstanceAs (Decidable (∀ a ∈ s.armed, a.1 = t → Idle s a.2.1))
  all_goals exact isTrue trivial

def calmRun : XSys → List XEv → Bool
  | _, [] => true
  | s, e :: es => decide (Apart s e) && (match s.step e with | none => false | some s => calmRun s es)

theorem calm_run {kind : Nat → XKind} {given : Nat → Bool} : ∀ (evs : List XEv) {s s' : XSys}, XCalm kind given s → calmRun s evs = true → s.run evs = some s' → XCalm kind given s' := by
  intro evs
  induction evs with
  | nil => intro s s' h _ hs; cases hs; exact h
  | cons e es ih =>
    intro s s' h hc hs
    rw [XSys.run] at hs
    rw [calmRun] at hc
    cases h1 : s.step e with
    | none => rw [h1] at hs; cases hs
    | some s1 =>
      rw [h1] at hs hc
      simp only [Bool.and_eq_true, decide_eq_true_eq] at hc
      exact ih (.step h hc.1 h1) hc.2 hs

/-- Only object 0 is touched. -/
structure Zero (kind : Nat → XKind) (s : XSys) : Prop where
  th : ∀ th ∈ s.threads, th.obj = 0
  ar : ∀ a ∈ s.armed, a.2.1 = 0
  ob : ∀ i, i ≠ 0 → s.obj i = { kind := kind i }

theorem zero_step {kind : Nat → XKind} {s s' : XSys} {ev : XEv} (h : Zero kind s) (he : ∀ i c, ev = .call i c → i = 0) (hs : s.step ev = some s') : Zero kind s' := by
  unfold XSys.step at hs
  by_cases hd : s.dead = true
  · rw [if_pos hd] at hs; cases hs
  rw [if_neg hd] at hs
  have hb : ∀ i l, i = 0 → ∀ th ∈ s.threads ++ [({ obj := i, todo := l } : XThread)], th.obj = 0 := by
    intro i l hi th hth
    rcases List.mem_append.1 hth with hth | hth
    · exact h.th th hth
    · rw [List.mem_singleton] at hth
      subst hth
      exact hi
  cases ev with
  | call i c =>
    cases hs
    exact ⟨hb _ _ (he _ _ rfl), h.ar, h.ob⟩
  | fire t =>
    cases hf : s.armed.find? (fun a => a.1 == t) with
    | none => simp only [hf] at hs; cases hs
    | some q =>
      obtain ⟨t', i, w⟩ := q
      simp only [hf] at hs
      cases hs
      exact ⟨hb _ _ (h.ar _ (List.mem_of_find?_eq_some hf)), fun a ha => h.ar a (List.mem_filter.1 ha).1, h.ob⟩
  | step k x =>
    cases ht : s.threads[k]? with
    | none => simp only [ht] at hs; cases hs
    | some th =>
      simp only [ht] at hs
      have h0 := h.th th (List.mem_of_getElem? ht)
      cases htd : th.todo with
      | nil =>
        simp only [htd] at hs
        cases hs
        exact ⟨fun q hq => h.th q (List.mem_of_mem_eraseIdx hq), h.ar, h.ob⟩
      | cons a l =>
        simp only [htd] at hs
        by_cases hf : s.fresh (xExec (s.obj th.obj) th.loc x s.nextTimer a) = true
        · rw [if_pos hf] at hs
          cases hs
          refine ⟨fun q hq => ?_, fun a ha => ?_, fun i hi => ?_⟩
          · rcases List.mem_or_eq_of_mem_set hq with hq | rfl
            · exact h.th q hq
            · exact h0
          · obtain ⟨t, j, w⟩ := a
            rcases apply_armed ha with ha | ha
            · exact h.ar _ ha.1
            · exact ha.1.trans h0
          · exact (apply_obj i).trans ((if_neg (by rw [h0]; exact hi)).trans (h.ob i hi))
        · rw [if_neg hf] at hs; cases hs
  | accept c k =>
    dsimp only at hs
    by_cases hc : s.tab k = none ∧ (∀ p ∈ s.clients, p.1 ≠ c)
    · rw [if_pos hc] at hs
      cases hs
      exact ⟨h.th, h.ar, h.ob⟩
    · rw [if_neg hc] at hs; cases hs
  | drop c =>
    cases hf : s.clients.find? (fun p => p.1 == c) with
    | none => simp only [hf] at hs; cases hs
    | some q =>
      obtain ⟨c', k⟩ := q
      simp only [hf] at hs
      cases hs
      have hr := closeFd_rest s (.client c) k
      exact ⟨by show ∀ th ∈ (s.closeFd (.client c) k).threads, _; rw [hr.2.2.2.1]; exact h.th, by show ∀ a ∈ (s.closeFd (.client c) k).armed, _; rw [hr.2.2.1]; exact h.ar,
        fun i hi => by show (s.closeFd (.client c) k).obj i = _; rw [hr.1]; exact h.ob i hi⟩
  | exit p =>
    cases hs
    exact ⟨h.th, h.ar, h.ob⟩

theorem zero_run {kind : Nat → XKind} : ∀ (evs : List XEv) {s s' : XSys}, Zero kind s → (∀ e ∈ evs, ∀ i c, e = .call i c → i = 0) → s.run evs = some s' → Zero kind s' := by
  intro evs
  induction evs with
  | nil => intro s s' h _ hs; cases hs; exact h
  | cons e es ih =>
    intro s s' h hc hs
    rw [XSys.run] at hs
    cases h1 : s.step e with
    | none => rw [h1] at hs; cases hs
    | some s1 =>
      rw [h1] at hs
      exact ih (zero_step h (hc e List.mem_cons_self) h1) (fun e he => hc e (List.mem_cons_of_mem _ he)) hs

def XEv.zero : XEv → Bool
  | .call i _ => i == 0
  | _ => true

theorem zero_start {kind : Nat → XKind} {given : Nat → Bool} {evs : List XEv} {s : XSys} (h : evs.all XEv.zero = true) (hs : (XSys.start kind given).run evs = some s) : Zero kind s := by
  have h0 : Zero kind (XSys.start kind given) := ⟨fun th h => (nomatch h), fun a h => (nomatch h), fun i _ => rfl⟩
  refine zero_run evs h0 (fun e he i c hc => ?_) hs
  have := List.all_eq_true.1 h e he
  rw [hc] at this
  exact eq_of_beq this

end Conman
