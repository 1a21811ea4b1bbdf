import Verif.Lemma.PollTime

namespace Conman
open Spec

/-! Which parts an operation leaves alone. -/

theorem signal_timers (p : TPoll) : p.signal.timers = p.timers ∧ p.signal.nextId = p.nextId ∧ p.signal.used = p.used ∧ p.signal.blocked = p.blocked ∧
    p.signal.arr = p.arr ∧ p.signal.maxFd = p.maxFd ∧ p.signal.pipe = p.pipe ∧ (p.blocked = true → p.signal.signaled = true) ∧
    (p.signal.signaled = false → p.signaled = false) := by
  unfold TPoll.signal
  cases hs : p.signaled <;> cases hb : p.blocked <;> simp [hs, hb]

/-- The same timers. -/
def SameT (p q : TPoll) : Prop := q.timers = p.timers ∧ q.nextId = p.nextId ∧ q.blocked = p.blocked ∧ (q.signaled = false → p.signaled = false)

theorem SameT.refl (p : TPoll) : SameT p p := ⟨rfl, rfl, rfl, id⟩

theorem SameT.trans {p q r : TPoll} (h : SameT p q) (h' : SameT q r) : SameT p r :=
  ⟨h'.1.trans h.1, h'.2.1.trans h.2.1, h'.2.2.1.trans h.2.2.1, fun e => h.2.2.2 (h'.2.2.2 e)⟩

theorem signal_same (p : TPoll) : SameT p p.signal := by
  obtain ⟨h1, h2, _, h4, _, _, _, _, h9⟩ := signal_timers p
  exact ⟨h1, h2, h4, h9⟩

theorem setEv_same {p q : TPoll} {fd : Nat} {ev : UInt16} (h : p.setEv fd ev = some q) : SameT p q := by
  unfold TPoll.setEv at h
  split at h
  · simp at h
  · dsimp only at h
    split at h
    · cases h
      split
      · exact ⟨rfl, rfl, rfl, id⟩
      · exact SameT.trans (q := _) ⟨rfl, rfl, rfl, id⟩ (signal_same _)
    · split at h
      · cases h; exact SameT.refl _
      · cases h; exact SameT.trans (q := _) ⟨rfl, rfl, rfl, id⟩ (signal_same _)

theorem grow_same {p : TPoll} {n : Nat} {mem : Bool} {r : TPoll × Bool} (h : p.grow n mem = some r) : SameT p r.1 := by
  unfold TPoll.grow at h
  split at h
  · cases h; exact SameT.refl _
  · cases hg : growSize n 32 p.arr.length with
    | none => rw [hg] at h; simp at h
    | some k =>
      rw [hg, Option.map_some] at h
      cases h
      split
      · exact SameT.trans (signal_same p) ⟨rfl, rfl, rfl, id⟩
      · exact signal_same p

theorem set_same {p : TPoll} {fd : Nat} {ev : UInt16} {mem : Bool} {r : TPoll × Int} (h : p.set fd ev mem = some r) : SameT p r.1 := by
  unfold TPoll.set at h
  split at h
  · cases h; exact SameT.refl _
  · split at h
    · cases hq : p.setEv fd ev with
      | none => rw [hq] at h; simp at h
      | some q => rw [hq, Option.map_some] at h; cases h; exact setEv_same hq
    · split at h
      · simp at h
      · cases hg : p.grow (fd + 1) mem with
        | none => rw [hg] at h; simp at h
        | some g =>
          rw [hg, Option.bind_some] at h
          split at h
          · cases hq : g.1.setEv fd ev with
            | none => rw [hq] at h; simp at h
            | some q => rw [hq, Option.map_some] at h; cases h; exact (grow_same hg).trans (setEv_same hq)
          · cases h; exact grow_same hg

theorem clear_same {p q : TPoll} {fd : Nat} {ev : UInt16} (h : p.clear fd ev = some q) : SameT p q := by
  unfold TPoll.clear at h
  split at h
  · cases h; exact SameT.refl _
  · split at h
    · split at h
      · simp at h
      · split at h
        · dsimp only at h
          split at h
          · cases h; exact SameT.refl _
          · split at h
            · cases h; exact SameT.trans (q := _) ⟨rfl, rfl, rfl, id⟩ (signal_same _)
            · cases h; exact SameT.trans (q := _) ⟨rfl, rfl, rfl, id⟩ (signal_same _)
        · cases h; exact SameT.refl _
    · cases h; exact SameT.refl _

theorem zero_shape {p q : TPoll} {f t : Bool} (h : p.zero f t = some q) :
    (t = false → SameT p q) ∧ (t = true → q.timers = [] ∧ q.nextId = 1 ∧ q.blocked = p.blocked ∧ (p.blocked = true → q.signaled = true)) := by
  unfold TPoll.zero TPoll.init at h
  have hz : ∀ r, (if f = true then p.zeroFds else some p) = some r → SameT p r := by
    intro r hr
    split at hr
    · unfold TPoll.zeroFds at hr
      split at hr
      · cases hr; exact ⟨rfl, rfl, rfl, id⟩
      · simp at hr
    · cases hr; exact SameT.refl _
  cases hr : (if f = true then p.zeroFds else some p) with
  | none => rw [hr] at h; simp at h
  | some r =>
    rw [hr, Option.map_some, Option.map_some] at h
    cases h
    have hs := hz r hr
    refine ⟨fun ht => ?_, fun ht => ?_⟩
    · rw [ht]; exact hs.trans (signal_same _)
    · rw [ht]
      have := signal_timers r.zeroTimers
      refine ⟨this.1, this.2.1, this.2.2.2.1.trans hs.2.2.1, fun hb => this.2.2.2.2.2.2.2.1 (hs.2.2.1.trans hb)⟩

/-! The invariant for timers. -/

theorem creations_snoc (h : List TEv) (es : List TEv) : creations h ≤ creations (h ++ es) := by
  unfold creations; rw [List.filter_append, List.length_append]; omega

theorem pending_snoc (h : List TEv) (e : TEv) : pending (h ++ [e]) = pendStep (pending h) e := by
  unfold pending; rw [List.foldl_append]; rfl

structure TInv (p : TPoll) (h : List TEv) : Prop where
  sorted : p.timers = sortOf (pending h)
  distinct : DistinctIds (pending h)
  ids : ∀ t ∈ pending h, 1 ≤ t.id ∧ t.id < p.nextId
  next : 1 ≤ p.nextId ∧ p.nextId ≤ creations h + 1

theorem TInv.same {p q : TPoll} {h : List TEv} (i : TInv p h) (s : SameT p q) : TInv q h :=
  ⟨s.1.trans i.sorted, i.distinct, fun t ht => by rw [s.2.1]; exact i.ids t ht, by rw [s.2.1]; exact i.next⟩

theorem TInv.made {p q : TPoll} {h : List TEv} {t : Timer} (i : TInv p h) (hc : (creations (h ++ [.made t]) : Int) ≤ 2147483646)
    (ht : t.id = p.nextId) (h1 : q.timers = insTimer t p.timers) (h2 : q.nextId = bumpId p.nextId) : TInv q (h ++ [.made t]) := by
  have hcr : creations (h ++ [.made t]) = creations h + 1 := by unfold creations; rw [List.filter_append, List.length_append]; rfl
  have hb : bumpId p.nextId = p.nextId + 1 := by
    unfold bumpId intMax; rw [if_neg]; have := i.next; omega
  have hp : pending (h ++ [.made t]) = pending h ++ [t] := pending_snoc ..
  refine ⟨by rw [h1, i.sorted, hp, sortOf_snoc], ?_, ?_, ?_⟩
  · rw [hp]
    unfold DistinctIds
    rw [List.pairwise_append]
    refine ⟨i.distinct, List.pairwise_singleton _ _, fun a ha b hb => ?_⟩
    have := i.ids a ha
    rw [List.mem_singleton.1 hb, ht]; omega
  · intro u hu
    rw [hp, List.mem_append, List.mem_singleton] at hu
    rw [h2, hb]
    rcases hu with hu | hu
    · have := i.ids u hu; omega
    · have := i.next; rw [hu, ht]; omega
  · rw [h2, hb, hcr]; have := i.next; omega

theorem TInv.removed {p q : TPoll} {h : List TEv} {a b : List Timer} {t : Timer} {e : TEv} (i : TInv p h) (ha : p.timers = a ++ t :: b)
    (h1 : q.timers = a ++ b) (h2 : q.nextId = p.nextId) (he : pendStep (pending h) e = (pending h).filter (fun u => u.id ≠ t.id))
    (hc : creations (h ++ [e]) = creations h) : TInv q (h ++ [e]) := by
  obtain ⟨l, r, e1, e2, -⟩ := sortOf_remove (pending h) a t b (i.sorted.symm.trans ha)
  have hp : pending (h ++ [e]) = l ++ r := by
    rw [pending_snoc, he]
    conv => lhs; rw [e1]
    exact filter_split (by rw [← e1]; exact i.distinct)
  refine ⟨by rw [h1, hp, e2], ?_, ?_, by rw [h2, hc]; exact i.next⟩
  · rw [hp]; exact (distinct_split (by rw [← e1]; exact i.distinct)).2.2
  · intro u hu
    rw [h2]
    refine i.ids u ?_
    rw [hp] at hu
    rw [e1]
    simp only [List.mem_append, List.mem_cons] at hu ⊢
    rcases hu with h | h <;> simp [h]

theorem TInv.idle {p : TPoll} {h : List TEv} {e : TEv} (i : TInv p h) (he : pendStep (pending h) e = pending h)
    (hc : creations (h ++ [e]) = creations h) : TInv p (h ++ [e]) := by
  have hp : pending (h ++ [e]) = pending h := by rw [pending_snoc, he]
  exact ⟨by rw [hp]; exact i.sorted, by rw [hp]; exact i.distinct, by rw [hp]; exact i.ids, by rw [hc]; exact i.next⟩

theorem headDue_some {now : TV} {l m : List Timer} {t : Timer} (h : headDue now l = some (t, m)) : l = t :: m ∧ ¬ TV.before now t.tv := by
  unfold headDue at h
  split at h
  · simp at h
  · split at h
    · simp at h
    · rename_i e
      rw [Bool.not_eq_true, TV.lt_false] at e
      cases h; exact ⟨rfl, e⟩

theorem cancel_cases (p : TPoll) (id : Int) :
    (p.cancel id = (p, -1) ∧ id ≤ 0) ∨ (p.cancel id = (p, 0) ∧ 0 < id ∧ ∀ t ∈ p.timers, t.id ≠ id) ∨
    ((p.cancel id).2 = 1 ∧ 0 < id ∧ (∃ t ∈ p.timers, t.id = id) ∧ (p.cancel id).1.timers = dropTimer id p.timers ∧ (p.cancel id).1.nextId = p.nextId ∧
      (p.cancel id).1.blocked = p.blocked ∧ ((p.cancel id).1.signaled = false → p.signaled = false) ∧
      ((p.cancel id).1.signaled = false → p.blocked = true → p.timers.head?.map (·.id) ≠ some id)) := by
  unfold TPoll.cancel
  by_cases h0 : id ≤ 0
  · rw [if_pos h0]; exact Or.inl ⟨rfl, h0⟩
  · rw [if_neg h0]
    right
    by_cases h1 : p.timers.all (fun t => t.id ≠ id) = true
    · rw [if_pos h1]
      exact Or.inl ⟨rfl, by omega, fun t ht => by simpa using List.all_eq_true.1 h1 t ht⟩
    · rw [if_neg h1]
      right
      dsimp only
      have h2 : ∃ t ∈ p.timers, t.id = id := by
        simp only [List.all_eq_true, decide_eq_true_eq] at h1
        apply Classical.byContradiction
        intro hn
        exact h1 fun t ht he => hn ⟨t, ht, he⟩
      have hs := signal_timers p
      by_cases h3 : p.timers.head?.map (·.id) = some id
      · simp only [if_pos h3]
        refine ⟨trivial, by omega, h2, trivial, hs.2.1, hs.2.2.2.1, hs.2.2.2.2.2.2.2.2, fun e hb => ?_⟩
        have := hs.2.2.2.2.2.2.2.1 hb
        rw [e] at this; simp at this
      · simp only [if_neg h3]
        exact ⟨trivial, by omega, h2, trivial, trivial, trivial, fun e => e, fun _ _ => h3⟩

theorem timeoutAbs_shape (p : TPoll) (arg : Nat) (tv : TV) :
    (p.timeoutAbs arg tv).1.timers = insTimer { id := p.nextId, arg := arg, tv := tv } p.timers ∧ (p.timeoutAbs arg tv).1.nextId = bumpId p.nextId ∧
    (p.timeoutAbs arg tv).1.blocked = p.blocked ∧ ((p.timeoutAbs arg tv).1.signaled = false → p.signaled = false) ∧
    ((p.timeoutAbs arg tv).1.signaled = false → p.blocked = true → goesFirst tv p.timers = false) ∧ (p.timeoutAbs arg tv).2 = p.nextId := by
  unfold TPoll.timeoutAbs
  dsimp only
  have hs := signal_timers p
  cases h : goesFirst tv p.timers with
  | true =>
    simp only [if_true]
    refine ⟨trivial, trivial, hs.2.2.2.1, hs.2.2.2.2.2.2.2.2, fun e hb => ?_, trivial⟩
    have := hs.2.2.2.2.2.2.2.1 hb
    rw [e] at this; simp at this
  | false => simp

theorem TInv.step {s : PSys} {h : List TEv} {a : PAct} {o : POut} (i : TInv s.p h) (en : s.enabled a = true) (st : s.step a = some o)
    (hc : (creations (h ++ s.evs a) : Int) ≤ 2147483646) : TInv o.s.p (h ++ s.evs a) := by
  have nocr : ∀ e : TEv, (∀ t, e ≠ .made t) → creations (h ++ [e]) = creations h := by
    intro e he
    unfold creations
    rw [List.filter_append, List.length_append]
    cases e with
    | made t => exact absurd rfl (he t)
    | _ => rfl
  cases a with
  | op op =>
    have st : (s.p.op op).map (fun r => ({ s := ⟨r.1, s.pc⟩ } : POut)) = some o := by
      unfold PSys.step at st; cases hpc : s.pc <;> simp only [hpc] at st ⊢ <;> exact st
    cases hr : s.p.op op with
    | none => rw [hr] at st; simp at st
    | some r =>
      rw [hr, Option.map_some] at st
      cases st
      dsimp only
      cases op with
      | set fd ev mem => rw [show s.evs (.op (.set fd ev mem)) = [] from rfl, List.append_nil]; exact i.same (set_same hr)
      | clear fd ev =>
        rw [show s.evs (.op (.clear fd ev)) = [] from rfl, List.append_nil]
        simp only [TPoll.op] at hr
        cases hq : s.p.clear fd ev with
        | none => rw [hq] at hr; simp at hr
        | some q => rw [hq, Option.map_some] at hr; cases hr; exact i.same (clear_same hq)
      | zero f t =>
        simp only [TPoll.op] at hr
        cases hq : s.p.zero f t with
        | none => rw [hq] at hr; simp at hr
        | some q =>
          rw [hq, Option.map_some] at hr; cases hr
          have hz := zero_shape hq
          cases t with
          | false => rw [show s.evs (.op (.zero f false)) = [] from rfl, List.append_nil]; exact i.same (hz.1 rfl)
          | true =>
            rw [show s.evs (.op (.zero f true)) = [.zeroed] from rfl]
            have hp : pending (h ++ [.zeroed]) = [] := pending_snoc ..
            have hz := hz.2 rfl
            refine ⟨by rw [hp]; exact hz.1, by rw [hp]; exact List.Pairwise.nil, by rw [hp]; simp, ?_⟩
            rw [hz.2.1]; omega
      | make arg tv =>
        rw [show s.evs (.op (.make arg tv)) = [.made { id := s.p.nextId, arg := arg, tv := tv }] from rfl] at hc ⊢
        simp only [TPoll.op, Option.some.injEq] at hr
        subst hr
        have hs := timeoutAbs_shape s.p arg tv
        exact i.made hc rfl hs.1 hs.2.1
      | makeRel arg now ms =>
        rw [show s.evs (.op (.makeRel arg now ms)) = [.made { id := s.p.nextId, arg := arg, tv := getTimeval now ms }] from rfl] at hc ⊢
        simp only [TPoll.op, Option.some.injEq] at hr
        subst hr
        have hs := timeoutAbs_shape s.p arg (getTimeval now ms)
        exact i.made hc rfl hs.1 hs.2.1
      | cancel id =>
        rw [show s.evs (.op (.cancel id)) = [.cancelled id (s.p.cancel id).2] from rfl]
        simp only [TPoll.op, Option.some.injEq] at hr
        subst hr
        have none_id : (∀ t ∈ pending h, t.id ≠ id) → ∀ rc, pendStep (pending h) (.cancelled id rc) = pending h := by
          intro hn rc
          exact List.filter_eq_self.2 (fun t ht => by simpa using hn t ht)
        rcases cancel_cases s.p id with ⟨e, h0⟩ | ⟨e, h0, h1⟩ | ⟨e, h0, h1, h2, h3, -⟩
        · rw [e]
          exact i.idle (none_id (fun t ht => by have := i.ids t ht; omega) _) (nocr _ (by simp))
        · rw [e]
          refine i.idle (none_id (fun t ht => h1 t ?_) _) (nocr _ (by simp))
          rw [i.sorted]; exact (sortOf_perm _).symm.subset ht
        · obtain ⟨a, t, b, e1, e2, e3⟩ := dropTimer_split s.p.timers id h1
          refine i.removed e1 (h2.trans e3) h3 ?_ (nocr _ (by simp))
          rw [e2]; rfl
  | enter ms t0 t1 =>
    rw [show s.evs (.enter ms t0 t1) = [] from rfl, List.append_nil]
    have : o.s.p = s.p := by
      unfold PSys.step at st; cases hpc : s.pc <;> simp only [hpc] at st <;> cases st <;> rfl
    rw [this]; exact i
  | fire =>
    cases hpc : s.pc with
    | run ms dl now =>
      simp only [PSys.enabled, hpc] at en
      cases hd : headDue now s.p.timers with
      | none => rw [hd] at en; simp at en
      | some r =>
        obtain ⟨t, l⟩ := r
        simp only [PSys.step, hpc, hd] at st
        cases st
        have he : s.evs .fire = [.fired t now] := by simp only [PSys.evs, hpc, hd]
        rw [he]
        exact i.removed (a := []) (headDue_some hd).1 rfl rfl rfl (nocr _ (by simp))
    | _ => simp [PSys.enabled, hpc] at en
  | ret =>
    rw [show s.evs .ret = [] from rfl, List.append_nil]
    cases hpc : s.pc with
    | call ms dl now t => simp only [PSys.step, hpc] at st; cases st; exact i
    | _ => simp [PSys.enabled, hpc] at en
  | block t =>
    cases hpc : s.pc with
    | run ms dl now =>
      have he : s.evs (.block t) = [.waits now] := by simp only [PSys.evs, hpc]
      rw [he]
      simp only [PSys.step, hpc] at st
      cases ht : s.p.timeout ms dl t with
      | none => rw [ht] at st; simp at st
      | some k =>
        rw [ht, Option.map_some] at st; cases st
        have j := i.idle (e := .waits now) rfl (nocr _ (by simp))
        exact ⟨j.sorted, j.distinct, j.ids, j.next⟩
    | _ => simp [PSys.enabled, hpc] at en
  | wake n K t =>
    rw [show s.evs (.wake n K t) = [] from rfl, List.append_nil]
    cases hpc : s.pc with
    | wait ms dl now clock k size nfds =>
      simp only [PSys.step, hpc] at st
      split at st
      · simp at st
      · split at st
        · cases st
          unfold afterPoll
          dsimp only
          have keep : ∀ q : TPoll, q.timers = s.p.timers → q.nextId = s.p.nextId → TInv q h := fun q h1 h2 =>
            ⟨h1.trans i.sorted, i.distinct, fun t ht => by rw [h2]; exact i.ids t ht, by rw [h2]; exact i.next⟩
          split
          · exact keep _ rfl rfl
          · split
            · exact keep _ rfl rfl
            · cases hk : decide (K s.p.pipe &&& pollIn ≠ 0)
              · simp only [Bool.false_eq_true, if_false]
                split
                · exact keep _ rfl rfl
                · split
                  · exact keep _ rfl rfl
                  · split <;> exact keep _ rfl rfl
              · simp only [if_true]
                split
                · exact keep _ rfl rfl
                · split
                  · exact keep _ rfl rfl
                  · split <;> exact keep _ rfl rfl
        · simp at st
    | _ => simp [PSys.enabled, hpc] at en

theorem afterPoll_next (p : TPoll) (ms : Int) (dl now : TV) (n : Int) (K : Nat → UInt16) (t : TV) :
    (afterPoll p ms dl now n K t).s.p.nextId = p.nextId ∧ (afterPoll p ms dl now n K t).s.p.timers = p.timers := by
  unfold afterPoll
  split
  · exact ⟨rfl, rfl⟩
  · split
    · exact ⟨rfl, rfl⟩
    · dsimp only
      cases hk : decide (K p.pipe &&& pollIn ≠ 0)
      · simp only [Bool.false_eq_true, if_false]
        split
        · exact ⟨rfl, rfl⟩
        · split
          · exact ⟨rfl, rfl⟩
          · split <;> exact ⟨rfl, rfl⟩
      · simp only [if_true]
        split
        · exact ⟨rfl, rfl⟩
        · split
          · exact ⟨rfl, rfl⟩
          · split <;> exact ⟨rfl, rfl⟩

theorem afterPoll_pc (p : TPoll) (ms : Int) (dl now : TV) (n : Int) (K : Nat → UInt16) (t : TV) :
    (afterPoll p ms dl now n K t).s.pc = .idle ∨ ∃ now', (afterPoll p ms dl now n K t).s.pc = .run ms dl now' := by
  unfold afterPoll
  split
  · exact Or.inl rfl
  · split
    · exact Or.inr ⟨_, rfl⟩
    · dsimp only
      cases hk : decide (K p.pipe &&& pollIn ≠ 0)
      · simp only [Bool.false_eq_true, if_false]
        split
        · exact Or.inl rfl
        · split
          · exact Or.inl rfl
          · split
            · exact Or.inl rfl
            · exact Or.inr ⟨_, rfl⟩
      · simp only [if_true]
        split
        · exact Or.inl rfl
        · split
          · exact Or.inl rfl
          · split
            · exact Or.inl rfl
            · exact Or.inr ⟨_, rfl⟩

/-- The next identifier after an event. -/
def nextOf (n : Int) : List TEv → Int
  | [.zeroed] => 1
  | [.made _] => bumpId n
  | _ => n

theorem step_next {s : PSys} {a : PAct} {o : POut} (st : s.step a = some o) :
    o.s.p.nextId = nextOf s.p.nextId (s.evs a) := by
  cases a with
  | op op =>
    have st : (s.p.op op).map (fun r => ({ s := ⟨r.1, s.pc⟩ } : POut)) = some o := by
      unfold PSys.step at st; cases hpc : s.pc <;> simp only [hpc] at st ⊢ <;> exact st
    cases hr : s.p.op op with
    | none => rw [hr] at st; simp at st
    | some r =>
      rw [hr, Option.map_some] at st
      cases st
      dsimp only
      cases op with
      | set fd ev mem => exact (set_same hr).2.1
      | clear fd ev =>
        simp only [TPoll.op] at hr
        cases hq : s.p.clear fd ev with
        | none => rw [hq] at hr; simp at hr
        | some q => rw [hq, Option.map_some] at hr; cases hr; exact (clear_same hq).2.1
      | zero f t =>
        simp only [TPoll.op] at hr
        cases hq : s.p.zero f t with
        | none => rw [hq] at hr; simp at hr
        | some q =>
          rw [hq, Option.map_some] at hr; cases hr
          have hz := zero_shape hq
          cases t with
          | false => exact (hz.1 rfl).2.1
          | true => exact (hz.2 rfl).2.1
      | make arg tv =>
        simp only [TPoll.op, Option.some.injEq] at hr
        subst hr
        exact (timeoutAbs_shape s.p arg tv).2.1
      | makeRel arg now ms =>
        simp only [TPoll.op, Option.some.injEq] at hr
        subst hr
        exact (timeoutAbs_shape s.p arg (getTimeval now ms)).2.1
      | cancel id =>
        simp only [TPoll.op, Option.some.injEq] at hr
        subst hr
        rcases cancel_cases s.p id with ⟨e, _⟩ | ⟨e, _⟩ | ⟨_, _, _, _, h3, _⟩
        · rw [e]; rfl
        · rw [e]; rfl
        · exact h3
  | enter ms t0 t1 =>
    unfold PSys.step at st; cases hpc : s.pc <;> simp only at st <;> cases st <;> rfl
  | fire =>
    cases hpc : s.pc with
    | run ms dl now =>
      cases hd : headDue now s.p.timers with
      | none => simp only [PSys.step, PSys.evs, hpc, hd] at st ⊢; cases st; rfl
      | some r => simp only [PSys.step, PSys.evs, hpc, hd] at st ⊢; cases st; rfl
    | _ => simp only [PSys.step, PSys.evs, hpc] at st ⊢; cases st; rfl
  | ret =>
    cases hpc : s.pc <;> simp only [PSys.step, hpc] at st <;> cases st <;> rfl
  | block t =>
    have h1 : nextOf s.p.nextId (s.evs (.block t)) = s.p.nextId := by simp only [PSys.evs]; split <;> rfl
    rw [h1]
    cases hpc : s.pc with
    | run ms dl now =>
      simp only [PSys.step, hpc] at st
      cases ht : s.p.timeout ms dl t with
      | none => rw [ht] at st; simp at st
      | some k => rw [ht, Option.map_some] at st; cases st; rfl
    | _ => simp only [PSys.step, hpc] at st; cases st; rfl
  | wake n K t =>
    cases hpc : s.pc with
    | wait ms dl now clock k size nfds =>
      simp only [PSys.step, hpc] at st
      split at st
      · simp at st
      · split at st
        · cases st; exact (afterPoll_next ..).1
        · simp at st
    | _ => simp only [PSys.step, hpc] at st; cases st; rfl

theorem create_inv {n pipe : Nat} {p : TPoll} (h : TPoll.create n pipe = some p) : TInv p [] := by
  unfold TPoll.create TPoll.init at h
  simp only [if_true] at h
  cases hz : TPoll.zeroFds { arr := List.replicate (if n = 0 then 256 else n) PFd.free, pipe := pipe, used := 0, maxFd := 0, timers := [], nextId := 1, blocked := false, realloced := false, signaled := false } with
  | none => rw [hz] at h; simp at h
  | some q =>
    rw [hz, Option.map_some] at h
    cases h
    exact ⟨rfl, List.Pairwise.nil, by simp [pending], by simp [TPoll.zeroTimers, creations]⟩

theorem PReach.inv {s : PSys} {h : List TEv} (r : PReach s h) : (creations h : Int) ≤ 2147483646 → TInv s.p h := by
  induction r with
  | start e => intro _; exact create_inv e
  | step r en st ih =>
    intro hc
    refine (ih ?_).step en st hc
    have := creations_snoc ‹_› (PSys.evs ‹_› ‹_›)
    exact Int.le_trans (by exact_mod_cast this) hc

end Conman
