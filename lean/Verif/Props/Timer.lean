import Verif.Lemma.PollRun

/-
C33: timers.  C34: how long the poll module waits.

`PReach s h`: the module can be in state `s` after the history `h` (Spec/Poll.lean), calls and steps of the polling thread coming in any order,
callbacks and other threads included, clock readings arbitrary.
-/
namespace Conman
open Spec

theorem evs_one (s : PSys) (a : PAct) : s.evs a = [] ∨ ∃ e, s.evs a = [e] := by
  unfold PSys.evs
  repeat' split
  all_goals first | exact Or.inl rfl | exact Or.inr ⟨_, rfl⟩

/-- Every event of a history comes from a step in a state reached with the history before it. -/
theorem PReach.event {s : PSys} {h : List TEv} (r : PReach s h) : ∀ {h1 h2 : List TEv} {e : TEv}, h = h1 ++ e :: h2 →
    ∃ s1 a o, PReach s1 h1 ∧ s1.enabled a = true ∧ s1.step a = some o ∧ s1.evs a = [e] := by
  induction r with
  | start _ => intro h1 h2 e he; simp at he
  | @step s h a o r en st ih =>
    intro h1 h2 e he
    rcases evs_one s a with hv | ⟨e', hv⟩
    · rw [hv, List.append_nil] at he; exact ih he
    · rw [hv] at he
      rcases h2.eq_nil_or_concat with rfl | ⟨h2', e2, rfl⟩
      · have := List.append_inj' he rfl
        obtain ⟨h1', h2'⟩ := this
        subst h1'
        cases h2'
        exact ⟨s, a, o, r, en, st, hv⟩
      · rw [List.concat_eq_append, ← List.cons_append, ← List.append_assoc] at he
        exact ih (List.append_inj' he rfl).1

theorem creations_prefix (h1 h2 : List TEv) : creations h1 ≤ creations (h1 ++ h2) := creations_snoc h1 h2

/-- C33. When the callback of a timer is called, the timer was pending, its deadline is not after the clock reading, it is the earliest of all that
were pending and, among those with the same deadline, the one created first. -/
theorem C33_order {s : PSys} {h h1 h2 : List TEv} {t : Timer} {now : TV} (r : PReach s h) (hc : creations h ≤ 2147483646)
    (he : h = h1 ++ .fired t now :: h2) :
    ∃ l r, pending h1 = l ++ t :: r ∧ pending (h1 ++ [.fired t now]) = l ++ r ∧ ¬ TV.before now t.tv ∧
      (∀ u ∈ l, TV.before t.tv u.tv) ∧ (∀ u ∈ r, ¬ TV.before u.tv t.tv) := by
  obtain ⟨s1, a, o, r1, en, st, ev⟩ := r.event he
  have i := r1.inv (by have := creations_prefix h1 (.fired t now :: h2); rw [← he] at this; omega)
  have key : ∃ l, s1.p.timers = t :: l ∧ ¬ TV.before now t.tv := by
    unfold PSys.evs at ev
    split at ev <;> try simp at ev
    split at ev <;> try simp at ev
    split at ev
    · rename_i hd
      simp only [List.cons.injEq, TEv.fired.injEq, and_true] at ev
      obtain ⟨e1, e2⟩ := ev
      subst e1 e2
      exact ⟨_, headDue_some hd⟩
    · simp at ev
    · split at ev <;> simp at ev
  obtain ⟨l0, hl, hnow⟩ := key
  obtain ⟨l, r, e1, e2, e3⟩ := sortOf_remove (pending h1) [] t l0 (i.sorted.symm.trans hl)
  refine ⟨l, r, e1, ?_, hnow, (e3 rfl).1, (e3 rfl).2⟩
  rw [pending_snoc]
  show (pending h1).filter _ = _
  conv => lhs; rw [e1]
  exact filter_split (by rw [← e1]; exact i.distinct)

/-- C33. Before the module goes to wait, every timer whose deadline the clock has reached has been dispatched. -/
theorem C33_all_due {s : PSys} {h h1 h2 : List TEv} {now : TV} (r : PReach s h) (hc : creations h ≤ 2147483646) (he : h = h1 ++ .waits now :: h2) :
    ∀ t ∈ pending h1, TV.before now t.tv := by
  obtain ⟨s1, a, o, r1, en, st, ev⟩ := r.event he
  have i := r1.inv (by have := creations_prefix h1 (.waits now :: h2); rw [← he] at this; omega)
  have key : headDue now s1.p.timers = none := by
    cases a with
    | block t =>
      cases hpc : s1.pc with
      | run ms dl n =>
        simp only [PSys.evs, hpc, List.cons.injEq, TEv.waits.injEq, and_true] at ev
        subst ev
        simp only [PSys.enabled, hpc] at en
        simpa using en
      | _ => simp [PSys.enabled, hpc] at en
    | fire =>
      simp only [PSys.evs] at ev
      split at ev
      · split at ev <;> simp at ev
      · simp at ev
    | op op =>
      cases op with
      | zero f t => cases t <;> simp [PSys.evs] at ev
      | _ => simp [PSys.evs] at ev
    | _ => simp [PSys.evs] at ev
  intro t ht
  have hs := i.sorted
  have hmem : t ∈ s1.p.timers := by rw [hs]; exact (sortOf_perm _).symm.subset ht
  cases htm : s1.p.timers with
  | nil => rw [htm] at hmem; simp at hmem
  | cons u l =>
    rw [htm] at key hmem
    simp only [headDue] at key
    split at key
    · rename_i hlt
      rw [TV.lt_iff] at hlt
      rcases List.mem_cons.1 hmem with rfl | hm
      · exact hlt
      · have hso := sortOf_sorted (pending h1)
        rw [← hs, htm] at hso
        have := (List.pairwise_cons.1 hso).1 t hm
        unfold TV.before at *; omega
    · simp at key

/-- C33. Cancelling a timer that is pending returns 1, cancelling anything else 0 (-1 if the identifier is not positive). -/
theorem C33_cancel {s : PSys} {h h1 h2 : List TEv} {id rc : Int} (r : PReach s h) (hc : creations h ≤ 2147483646)
    (he : h = h1 ++ .cancelled id rc :: h2) :
    rc = if id ≤ 0 then -1 else if (pending h1).any (fun t => t.id = id) then 1 else 0 := by
  obtain ⟨s1, a, o, r1, en, st, ev⟩ := r.event he
  have i := r1.inv (by have := creations_prefix h1 (.cancelled id rc :: h2); rw [← he] at this; omega)
  have key : (s1.p.cancel id).2 = rc := by
    cases a with
    | op op =>
      cases op with
      | cancel id' =>
        simp only [PSys.evs, List.cons.injEq, TEv.cancelled.injEq, and_true] at ev
        rw [← ev.1, ev.2]
      | zero f t => cases t <;> simp [PSys.evs] at ev
      | _ => simp [PSys.evs] at ev
    | fire =>
      simp only [PSys.evs] at ev
      split at ev
      · split at ev <;> simp at ev
      · simp at ev
    | block t =>
      simp only [PSys.evs] at ev
      split at ev <;> simp at ev
    | _ => simp [PSys.evs] at ev
  have mem : ∀ t, t ∈ s1.p.timers ↔ t ∈ pending h1 := by
    intro t; rw [i.sorted]; exact (sortOf_perm _).mem_iff
  rcases cancel_cases s1.p id with ⟨e, h0⟩ | ⟨e, h0, hn⟩ | ⟨e, h0, ⟨t, ht, hid⟩, -⟩
  · rw [e] at key; rw [if_pos h0, ← key]
  · rw [e] at key
    rw [if_neg (by omega), if_neg, ← key]
    simp only [List.any_eq_true, decide_eq_true_eq]
    rintro ⟨t, ht, hid⟩
    exact hn t ((mem t).2 ht) hid
  · rw [e] at key
    rw [if_neg (by omega), if_pos, ← key]
    simp only [List.any_eq_true, decide_eq_true_eq]
    exact ⟨t, (mem t).1 ht, hid⟩

/-- What is pending at the end was pending before or was created since. -/
theorem pending_from (h1 h2 : List TEv) : ∀ t ∈ pending (h1 ++ h2), t ∈ pending h1 ∨ .made t ∈ h2 := by
  induction h2 using rev_induction with
  | h0 => intro t ht; rw [List.append_nil] at ht; exact Or.inl ht
  | h1 h2 e ih =>
    intro t ht
    rw [← List.append_assoc, pending_snoc] at ht
    have keep : t ∈ pending (h1 ++ h2) → t ∈ pending h1 ∨ .made t ∈ h2 ++ [e] := by
      intro hh
      rcases ih t hh with h | h
      · exact Or.inl h
      · exact Or.inr (by simp [h])
    cases e with
    | made u =>
      simp only [pendStep, List.mem_append, List.mem_singleton] at ht
      rcases ht with ht | ht
      · exact keep (by simpa using ht)
      · right; simp [ht]
    | cancelled id rc => exact keep (List.mem_filter.1 ht).1
    | zeroed => simp [pendStep] at ht
    | fired u now => exact keep (List.mem_filter.1 ht).1
    | waits now => exact keep ht

/-- C33. A timer that was cancelled does not fire any more (a timer with its identifier fires only if it was created after the cancellation). -/
theorem C33_never_after_cancel {s : PSys} {h h1 h2 h3 : List TEv} {id rc : Int} {t : Timer} {now : TV} (r : PReach s h) (hc : creations h ≤ 2147483646)
    (he : h = h1 ++ .cancelled id rc :: (h2 ++ .fired t now :: h3)) (hid : t.id = id) : .made t ∈ h2 := by
  obtain ⟨l, r, e, -⟩ := C33_order (h1 := h1 ++ .cancelled id rc :: h2) (t := t) (now := now) (h2 := h3) r hc (by rw [he]; simp)
  have hm : t ∈ pending ((h1 ++ [.cancelled id rc]) ++ h2) := by
    rw [List.append_assoc, List.singleton_append, e]; exact List.mem_append_right _ (List.mem_cons_self)
  rcases pending_from _ _ t hm with hm | hm
  · rw [pending_snoc] at hm
    have := (List.mem_filter.1 hm).2
    simp [hid] at this
  · exact hm

/-- C33. The same for a timer that has fired. -/
theorem C33_not_again {s : PSys} {h h1 h2 h3 : List TEv} {t u : Timer} {now now' : TV} (r : PReach s h) (hc : creations h ≤ 2147483646)
    (he : h = h1 ++ .fired t now :: (h2 ++ .fired u now' :: h3)) (hid : u.id = t.id) : .made u ∈ h2 := by
  obtain ⟨l, r, e, -⟩ := C33_order (h1 := h1 ++ .fired t now :: h2) (t := u) (now := now') (h2 := h3) r hc (by rw [he]; simp)
  have hm : u ∈ pending ((h1 ++ [.fired t now]) ++ h2) := by
    rw [List.append_assoc, List.singleton_append, e]; exact List.mem_append_right _ (List.mem_cons_self)
  rcases pending_from _ _ u hm with hm | hm
  · rw [pending_snoc] at hm
    have := (List.mem_filter.1 hm).2
    simp [hid] at this
  · exact hm

theorem made_id {s : PSys} {a : PAct} {t : Timer} (h : s.evs a = [.made t]) : t.id = s.p.nextId := by
  unfold PSys.evs at h
  split at h <;> try simp at h
  · rw [← h]
  · rw [← h]
  all_goals (split at h <;> try simp at h)
  all_goals (split at h <;> simp at h)

/-- How the next identifier develops. -/
theorem nextId_mono {s : PSys} {h : List TEv} (r : PReach s h) : ∀ (h1 h2 : List TEv) (t : Timer), h = h1 ++ .made t :: h2 → .zeroed ∉ h2 →
    creations h ≤ 2147483646 → t.id < s.p.nextId := by
  induction r with
  | start _ => intro h1 h2 t he; simp at he
  | @step s h a o r en st ih =>
    intro h1 h2 t he hz hc
    have hc0 : creations h ≤ 2147483646 := Nat.le_trans (creations_snoc _ _) hc
    have i := (r.inv (by omega)).next
    have hn := step_next st
    rcases evs_one s a with hv | ⟨e', hv⟩
    · rw [hv, List.append_nil] at he
      rw [hv] at hn
      rw [show o.s.p.nextId = s.p.nextId from hn]
      exact ih h1 h2 t he hz hc0
    · rw [hv] at he
      have hb : ∀ u, e' = .made u → bumpId s.p.nextId = s.p.nextId + 1 := by
        intro u hu
        unfold bumpId intMax
        rw [if_neg]
        have : creations (h ++ s.evs a) = creations h + 1 := by
          rw [hv, hu]; unfold creations; rw [List.filter_append, List.length_append]; rfl
        omega
      rcases h2.eq_nil_or_concat with rfl | ⟨h2', e2, rfl⟩
      · have := (List.append_inj' he rfl).2
        cases this
        rw [hv] at hn
        have hn : o.s.p.nextId = bumpId s.p.nextId := hn
        have := hb t rfl
        have := made_id hv
        omega
      · rw [List.concat_eq_append, ← List.cons_append, ← List.append_assoc] at he
        have h3 := List.append_inj' he rfl
        have h4 : e' = e2 := by simpa using h3.2
        have h5 := ih h1 h2' t h3.1 (fun hh => hz (by rw [List.concat_eq_append]; simp [hh])) hc0
        rw [hn, hv]
        cases e' with
        | zeroed => exact absurd (by rw [List.concat_eq_append, ← h4]; simp) hz
        | made u => show t.id < bumpId s.p.nextId; have := hb u rfl; omega
        | _ => exact h5

theorem pending_made (h : List TEv) : ∀ t ∈ pending h, ∃ a b, h = a ++ .made t :: b ∧ .zeroed ∉ b := by
  induction h using rev_induction with
  | h0 => intro t ht; simp [pending] at ht
  | h1 h e ih =>
    intro t ht
    rw [pending_snoc] at ht
    have keep : t ∈ pending h → e ≠ .zeroed → ∃ a b, h ++ [e] = a ++ .made t :: b ∧ .zeroed ∉ b := by
      intro hh hz
      obtain ⟨a, b, e1, e2⟩ := ih t hh
      refine ⟨a, b ++ [e], by rw [e1]; simp, ?_⟩
      simp only [List.mem_append, List.mem_singleton, not_or]
      exact ⟨e2, fun e => hz e.symm⟩
    cases e with
    | made u =>
      simp only [pendStep, List.mem_append, List.mem_singleton] at ht
      rcases ht with ht | ht
      · exact keep ht (by simp)
      · subst ht; exact ⟨h, [], rfl, by simp⟩
    | cancelled id rc => exact keep (List.mem_filter.1 ht).1 (by simp)
    | zeroed => simp [pendStep] at ht
    | fired u now => exact keep (List.mem_filter.1 ht).1 (by simp)
    | waits now => exact keep ht (by simp)

/-- C33. Timers created one after the other have increasing identifiers, all positive (unless all timers were cancelled at once in between, which
starts over). -/
theorem C33_ids {s : PSys} {h h1 h2 h3 : List TEv} {t u : Timer} (r : PReach s h) (hc : creations h ≤ 2147483646)
    (he : h = h1 ++ .made t :: (h2 ++ .made u :: h3)) (hz : .zeroed ∉ h2) : 0 < t.id ∧ t.id < u.id := by
  obtain ⟨s1, a, o, r1, en, st, ev⟩ := r.event (h1 := h1 ++ .made t :: h2) (e := .made u) (h2 := h3) (by rw [he]; simp)
  have hc1 : creations (h1 ++ .made t :: h2) ≤ 2147483646 := by
    have := creations_prefix (h1 ++ .made t :: h2) (.made u :: h3)
    rw [show h1 ++ .made t :: h2 ++ .made u :: h3 = h by rw [he]; simp] at this
    omega
  rw [made_id ev]
  refine ⟨?_, nextId_mono r1 h1 h2 t rfl hz hc1⟩
  obtain ⟨s0, a0, o0, r0, _, _, ev0⟩ := r.event he
  have := (r0.inv (by have := creations_prefix h1 (.made t :: (h2 ++ .made u :: h3)); rw [← he] at this; omega)).next
  rw [made_id ev0]; omega

/-- C33. No timer fires twice. -/
theorem C33_once {s : PSys} {h h1 h2 h3 : List TEv} {t u : Timer} {now now' : TV} (r : PReach s h) (hc : creations h ≤ 2147483646)
    (he : h = h1 ++ .fired t now :: (h2 ++ .fired u now' :: h3)) (hz : .zeroed ∉ h2) : u.id ≠ t.id := by
  intro hid
  have hm := C33_not_again r hc he hid
  obtain ⟨a, b, hab⟩ := List.append_of_mem hm
  obtain ⟨l, r', e, -⟩ := C33_order r hc he
  obtain ⟨c, d, hcd, hzd⟩ := pending_made h1 t (by rw [e]; simp)
  have := C33_ids (h1 := c) (t := t) (h2 := d ++ .fired t now :: a) (u := u) (h3 := b ++ .fired u now' :: h3) r hc (by rw [he, hcd, hab]; simp) (by
    simp only [List.mem_append, List.mem_cons, reduceCtorEq, false_or, not_or]
    refine ⟨hzd, fun hh => hz ?_⟩
    rw [hab]; simp [hh])
  omega

/-! ### Waiting -/

/-- C34, the part that holds. The wait computed for a time that is not past is at least the time left and at most one millisecond more; it is a
full millisecond more exactly if the microseconds of the deadline exceed those of the clock by a whole number of milliseconds.  Missing: the
excess is not always less than a millisecond (`C34_full_millisecond`), and times more than 24 days away (`C34_far_spins`). -/
theorem C34_wait_partial {deadline now : TV} (hd : TV.Normal deadline) (hn : TV.Normal now) (h : ¬ TV.before deadline now)
    (hr : deadline.sec - now.sec ≤ 2147482) :
    ∃ ms, diffTimeval deadline now = some ms ∧ TV.us deadline - TV.us now ≤ ms * 1000 ∧ ms * 1000 ≤ TV.us deadline - TV.us now + 1000 ∧
      (ms * 1000 = TV.us deadline - TV.us now + 1000 ↔ now.usec < deadline.usec ∧ (deadline.usec - now.usec) % 1000 = 0) :=
  diff_future hd hn h hr

/-- C34. For a time that is past, there is no wait. -/
theorem C34_past {deadline now : TV} (hd : TV.Normal deadline) (hn : TV.Normal now) (h : TV.before deadline now) (hr : now.sec - deadline.sec ≤ 2147482) :
    ∃ ms, diffTimeval deadline now = some ms ∧ ms < 0 := diff_past hd hn h hr

/-- C34. A relative timer is due exactly the given number of milliseconds from now. -/
theorem C34_relative {now : TV} {ms : Int} (h : TV.Normal now) (hms : 0 < ms) :
    TV.Normal (getTimeval now ms) ∧ TV.us (getTimeval now ms) = TV.us now + ms * 1000 := getTimeval_us h hms

/-- C34 is not met to the letter: one millisecond to go, two milliseconds waited. -/
theorem C34_full_millisecond : diffTimeval ⟨10, 5000⟩ ⟨10, 4000⟩ = some 2 := by decide

/-- C34 fails for a timer 30 days away: the difference does not fit an `int`, the wait is none at all, and the module spins. -/
theorem C34_far_spins : ({ arr := [], pipe := 0, used := 0, maxFd := 0, timers := [⟨1, 0, ⟨2592000, 0⟩⟩], nextId := 2, blocked := false, realloced := false, signaled := false } : TPoll).timeout (-1) ⟨0, 0⟩ ⟨0, 0⟩ = some 0 := by
  decide

theorem timeout_congr {p q : TPoll} {ms : Int} {dl clock : TV} (hh : q.timers.head? = p.timers.head?) (hc : 0 ≤ ms ∨ p.timers ≠ []) :
    q.timeout ms dl clock = p.timeout ms dl clock := by
  have hw : waitTarget ms dl q.timers = waitTarget ms dl p.timers := by
    cases hp : p.timers <;> cases hq : q.timers <;> rw [hp, hq] at hh <;> simp at hh
    simp only [waitTarget]; rw [hh]
  have hn : q.timers = [] ↔ p.timers = [] := by rw [← List.head?_eq_none_iff, hh, List.head?_eq_none_iff]
  unfold TPoll.timeout
  rw [hw]
  by_cases h0 : ms = 0
  · rw [if_pos h0, if_pos h0]
  · rw [if_neg h0, if_neg h0]
    have h1 : ¬ (ms < 0 ∧ p.timers = []) := fun e => by
      rcases hc with hc | hc
      · omega
      · exact hc e.2
    rw [if_neg h1, if_neg (fun e => h1 ⟨e.1, hn.1 e.2⟩)]

/-- While a thread waits and has not been signalled, its timeout is the one it would compute from the present timers. -/
theorem PReach.waiting {s : PSys} {h : List TEv} (r : PReach s h) : ∀ {ms : Int} {dl now clock : TV} {k : Int} {size nfds : Nat},
    s.pc = .wait ms dl now clock k size nfds → s.p.blocked = true ∧ (s.p.signaled = false → (0 ≤ ms ∨ s.p.timers ≠ []) → s.p.timeout ms dl clock = some k) := by
  induction r with
  | start _ => intro _ _ _ _ _ _ _ h; cases h
  | @step s h a o r en st ih =>
    intro ms dl now clock k size nfds hpc
    cases a with
    | op op =>
      have st : (s.p.op op).map (fun r => ({ s := ⟨r.1, s.pc⟩ } : POut)) = some o := by
        unfold PSys.step at st; cases hpc : s.pc <;> simp only [hpc] at st ⊢ <;> exact st
      cases hr : s.p.op op with
      | none => rw [hr] at st; simp at st
      | some r =>
        rw [hr, Option.map_some] at st
        cases st
        dsimp only at hpc ⊢
        obtain ⟨hb, hk⟩ := ih hpc
        have same : SameT s.p r.1 → r.1.blocked = true ∧ (r.1.signaled = false → (0 ≤ ms ∨ r.1.timers ≠ []) → r.1.timeout ms dl clock = some k) := by
          intro hs
          refine ⟨hs.2.2.1.trans hb, fun hsig hc => ?_⟩
          rw [hs.1] at hc
          rw [timeout_congr (by rw [hs.1]) hc]
          exact hk (hs.2.2.2 hsig) hc
        have make : ∀ arg tv, r = s.p.timeoutAbs arg tv → r.1.blocked = true ∧ (r.1.signaled = false → (0 ≤ ms ∨ r.1.timers ≠ []) → r.1.timeout ms dl clock = some k) := by
          intro arg tv he
          subst he
          obtain ⟨h1, _, h3, h4, h5, _⟩ := timeoutAbs_shape s.p arg tv
          refine ⟨h3.trans hb, fun hsig _ => ?_⟩
          have hf := h5 hsig hb
          cases ht : s.p.timers with
          | nil => rw [ht] at hf; simp [goesFirst] at hf
          | cons u l =>
            have hne : s.p.timers ≠ [] := by rw [ht]; simp
            rw [timeout_congr (p := s.p) _ (Or.inr hne)]
            · exact hk (h4 hsig) (Or.inr hne)
            · rw [h1, ht]
              rw [ht] at hf
              simp only [goesFirst] at hf
              simp only [insTimer, hf, Bool.false_eq_true, if_false, List.head?_cons]
        cases op with
        | set fd ev mem => exact same (set_same hr)
        | clear fd ev =>
          simp only [TPoll.op] at hr
          cases hq : s.p.clear fd ev with
          | none => rw [hq] at hr; simp at hr
          | some q => rw [hq, Option.map_some] at hr; cases hr; exact same (clear_same hq)
        | zero f t =>
          simp only [TPoll.op] at hr
          cases hq : s.p.zero f t with
          | none => rw [hq] at hr; simp at hr
          | some q =>
            rw [hq, Option.map_some] at hr; cases hr
            have hz := zero_shape hq
            cases t with
            | false => exact same (hz.1 rfl)
            | true =>
              have hz := hz.2 rfl
              refine ⟨hz.2.2.1.trans hb, fun hsig => ?_⟩
              have := hz.2.2.2 hb
              dsimp only at hsig
              rw [hsig] at this; simp at this
        | make arg tv =>
          simp only [TPoll.op, Option.some.injEq] at hr
          exact make arg tv hr.symm
        | makeRel arg nw ms' =>
          simp only [TPoll.op, Option.some.injEq] at hr
          exact make arg (getTimeval nw ms') hr.symm
        | cancel id =>
          simp only [TPoll.op, Option.some.injEq] at hr
          subst hr
          rcases cancel_cases s.p id with ⟨e, _⟩ | ⟨e, _⟩ | ⟨_, _, _, h1, h2, h3, h4, h5⟩
          · rw [e] at same ⊢; exact same (SameT.refl _)
          · rw [e] at same ⊢; exact same (SameT.refl _)
          · refine ⟨h3.trans hb, fun hsig _ => ?_⟩
            have hf := h5 hsig hb
            cases ht : s.p.timers with
            | nil =>
              rename_i hex _
              obtain ⟨t, htm, _⟩ := hex
              rw [ht] at htm; simp at htm
            | cons u l =>
              have hne : s.p.timers ≠ [] := by rw [ht]; simp
              rw [timeout_congr (p := s.p) _ (Or.inr hne)]
              · exact hk (h4 hsig) (Or.inr hne)
              · rw [h1, ht]
                rw [ht] at hf
                have hid : ¬ u.id = id := by simpa using hf
                simp only [dropTimer, hid, if_false, List.head?_cons]
    | enter ms' t0 t1 =>
      have : ∃ x y z, o.s.pc = .run x y z := by
        unfold PSys.step at st; cases hpc : s.pc <;> simp only at st <;> cases st <;> exact ⟨_, _, _, rfl⟩
      obtain ⟨x, y, z, e⟩ := this
      rw [e] at hpc; cases hpc
    | fire =>
      cases hs : s.pc with
      | run ms' dl' now' =>
        cases hd : headDue now' s.p.timers with
        | none => simp [PSys.enabled, hs, hd] at en
        | some r => simp only [PSys.step, hs, hd] at st; cases st; cases hpc
      | _ => simp [PSys.enabled, hs] at en
    | ret =>
      cases hs : s.pc with
      | call ms' dl' now' t => simp only [PSys.step, hs] at st; cases st; cases hpc
      | _ => simp [PSys.enabled, hs] at en
    | block t =>
      cases hs : s.pc with
      | run ms' dl' now' =>
        simp only [PSys.step, hs] at st
        cases ht : s.p.timeout ms' dl' t with
        | none => rw [ht] at st; simp at st
        | some k' =>
          rw [ht, Option.map_some] at st
          cases st
          cases hpc
          refine ⟨rfl, fun _ hc => ?_⟩
          exact (timeout_congr (p := s.p) rfl hc).trans ht
      | _ => simp [PSys.enabled, hs] at en
    | wake n K t =>
      cases hs : s.pc with
      | wait ms' dl' now' clock' k' size' nfds' =>
        simp only [PSys.step, hs] at st
        split at st
        · simp at st
        · split at st
          · cases st
            exfalso
            rcases afterPoll_pc { s.p with arr := writeRev K 0 (s.p.arr.take nfds') ++ s.p.arr.drop nfds', blocked := false } ms' dl' now' n K t with e | ⟨_, e⟩
            · rw [e] at hpc; cases hpc
            · rw [e] at hpc; cases hpc
          · simp at st
      | _ => simp [PSys.enabled, hs] at en

/-- C33. While a thread waits, either it has been signalled (so that the wait ends) or the wait it is in ends, for every pending timer, at most
one millisecond after the deadline, however timers were created and cancelled in the meantime (deadlines less than 24 days away). -/
theorem C33_wakes_in_time {s : PSys} {h : List TEv} (r : PReach s h) (hc : creations h ≤ 2147483646) {ms : Int} {dl now clock : TV} {k : Int}
    {size nfds : Nat} (hpc : s.pc = .wait ms dl now clock k size nfds) (hms : ms ≠ 0) (hsig : s.p.signaled = false) (hdl : TV.Normal dl)
    (hcl : TV.Normal clock) (hn : ∀ t ∈ pending h, TV.Normal t.tv)
    (hr : (dl.sec - clock.sec).natAbs ≤ 2147482 ∧ ∀ t ∈ pending h, (t.tv.sec - clock.sec).natAbs ≤ 2147482) :
    ∀ t ∈ pending h, 0 ≤ k ∧ (k = 0 ∨ k * 1000 ≤ TV.us t.tv - TV.us clock + 1000) := by
  intro t ht
  have i := r.inv (by omega)
  have hmem : t ∈ s.p.timers := by rw [i.sorted]; exact (sortOf_perm _).symm.subset ht
  have hne : s.p.timers ≠ [] := fun e => by rw [e] at hmem; simp at hmem
  have hk := (r.waiting hpc).2 hsig (Or.inr hne)
  unfold TPoll.timeout at hk
  rw [if_neg hms, if_neg (fun e => hne e.2)] at hk
  -- the target is not after any timer
  obtain ⟨u, l, hul⟩ : ∃ u l, s.p.timers = u :: l := by
    cases hh : s.p.timers with
    | nil => exact absurd hh hne
    | cons u l => exact ⟨u, l, rfl⟩
  have hu : u ∈ pending h := by
    refine (sortOf_perm _).subset ?_
    rw [← i.sorted, hul]; simp
  have hut : ¬ TV.before t.tv u.tv := by
    have hso := sortOf_sorted (pending h)
    rw [← i.sorted, hul] at hso
    rw [hul] at hmem
    rcases List.mem_cons.1 hmem with rfl | hm
    · unfold TV.before; omega
    · exact (List.pairwise_cons.1 hso).1 t hm
  have htgt : ∃ w, waitTarget ms dl s.p.timers = w ∧ TV.Normal w ∧ (w.sec - clock.sec).natAbs ≤ 2147482 ∧ ¬ TV.before u.tv w := by
    refine ⟨_, rfl, ?_⟩
    rw [hul]
    unfold waitTarget
    dsimp only
    split
    · exact ⟨hn u hu, hr.2 u hu, by unfold TV.before; omega⟩
    · split
      · rename_i e
        rw [TV.lt_iff] at e
        exact ⟨hdl, hr.1, by unfold TV.before at *; omega⟩
      · exact ⟨hn u hu, hr.2 u hu, by unfold TV.before; omega⟩
  obtain ⟨w, hw, hwn, hwr, hwu⟩ := htgt
  rw [hw] at hk
  by_cases hpast : TV.before w clock
  · obtain ⟨d, hd, hneg⟩ := diff_past hwn hcl hpast (by omega)
    rw [hd, Option.map_some, if_neg (by omega), Option.some.injEq] at hk
    omega
  · obtain ⟨d, hd, _, hle, _⟩ := diff_future hwn hcl hpast (by omega)
    rw [hd, Option.map_some, Option.some.injEq] at hk
    have hwt : TV.us w ≤ TV.us t.tv := by
      have h3 : ¬ TV.before t.tv w := by unfold TV.before at *; omega
      rw [TV.before_us (hn t ht) hwn] at h3
      omega
    split at hk
    · omega
    · omega

/-! ### A case: three timers, one cancelled, one created by a callback. -/

def pollDemo : PSys → List PAct → Option (PSys × List TEv)
  | s, [] => some (s, [])
  | s, a :: l => if s.enabled a then (s.step a).bind fun o => (pollDemo o.s l).map fun r => (r.1, s.evs a ++ r.2) else none

theorem pollDemo_reach : ∀ (l : List PAct) {s s' : PSys} {h es : List TEv}, PReach s h → pollDemo s l = some (s', es) → PReach s' (h ++ es)
  | [], _, _, _, _, r, e => by cases e; rw [List.append_nil]; exact r
  | a :: l, s, s', h, es, r, e => by
    simp only [pollDemo] at e
    split at e
    · rename_i en
      cases st : s.step a with
      | none => rw [st] at e; simp at e
      | some o =>
        rw [st, Option.bind_some] at e
        cases hd : pollDemo o.s l with
        | none => rw [hd] at e; simp at e
        | some r2 =>
          rw [hd, Option.map_some] at e
          cases e
          rw [← List.append_assoc]
          exact pollDemo_reach l (PReach.step r en st) hd
    · simp at e

def pollNew : PSys := ⟨(TPoll.create 8 3).getD ⟨[], 0, 0, 0, [], 0, false, false, false⟩, .idle⟩

theorem pollNew_reach : PReach pollNew [] := PReach.start (n := 8) (pipe := 3) rfl

def pollActs : List PAct :=
  [.op (.make 10 ⟨5, 0⟩), .op (.make 11 ⟨4, 0⟩), .op (.make 12 ⟨5, 0⟩), .op (.make 13 ⟨4, 500000⟩), .op (.cancel 4),
   .enter (-1) ⟨3, 999000⟩ ⟨3, 999000⟩, .block ⟨3, 999500⟩, .wake 0 (fun _ => 0) ⟨4, 100⟩, .fire, .op (.make 14 ⟨4, 0⟩), .ret, .fire, .ret,
   .block ⟨4, 300⟩, .wake 0 (fun _ => 0) ⟨5, 0⟩, .fire, .ret, .fire, .ret, .block ⟨5, 1⟩]

/-- They fire in the order of their deadlines, those of one deadline in the order of creation. -/
theorem pollActs_history : (pollDemo pollNew pollActs).map (·.2) = some
    [.made ⟨1, 10, ⟨5, 0⟩⟩, .made ⟨2, 11, ⟨4, 0⟩⟩, .made ⟨3, 12, ⟨5, 0⟩⟩, .made ⟨4, 13, ⟨4, 500000⟩⟩, .cancelled 4 1, .waits ⟨3, 999000⟩,
     .fired ⟨2, 11, ⟨4, 0⟩⟩ ⟨4, 100⟩, .made ⟨5, 14, ⟨4, 0⟩⟩, .fired ⟨5, 14, ⟨4, 0⟩⟩ ⟨4, 100⟩, .waits ⟨4, 100⟩,
     .fired ⟨1, 10, ⟨5, 0⟩⟩ ⟨5, 0⟩, .fired ⟨3, 12, ⟨5, 0⟩⟩ ⟨5, 0⟩, .waits ⟨5, 0⟩] := by decide +kernel

/-- The theorems apply to it. -/
example : ∃ s h1 h2, PReach s (h1 ++ .fired ⟨1, 10, ⟨5, 0⟩⟩ ⟨5, 0⟩ :: h2) ∧ creations (h1 ++ .fired ⟨1, 10, ⟨5, 0⟩⟩ ⟨5, 0⟩ :: h2) ≤ 2147483646 := by
  have e := pollActs_history
  cases hd : pollDemo pollNew pollActs with
  | none => rw [hd] at e; simp at e
  | some r =>
    obtain ⟨s, es⟩ := r
    have hr := pollDemo_reach pollActs pollNew_reach hd
    rw [hd, Option.map_some, Option.some.injEq] at e
    dsimp only at e
    rw [List.nil_append, e] at hr
    exact ⟨s, [.made ⟨1, 10, ⟨5, 0⟩⟩, .made ⟨2, 11, ⟨4, 0⟩⟩, .made ⟨3, 12, ⟨5, 0⟩⟩, .made ⟨4, 13, ⟨4, 500000⟩⟩, .cancelled 4 1, .waits ⟨3, 999000⟩,
      .fired ⟨2, 11, ⟨4, 0⟩⟩ ⟨4, 100⟩, .made ⟨5, 14, ⟨4, 0⟩⟩, .fired ⟨5, 14, ⟨4, 0⟩⟩ ⟨4, 100⟩, .waits ⟨4, 100⟩],
      [.fired ⟨3, 12, ⟨5, 0⟩⟩ ⟨5, 0⟩, .waits ⟨5, 0⟩], hr, by decide⟩

/-- While it waits for the timer due at 4 s, created by 2, the wait is 1 ms; a timer created meanwhile for an earlier time signals it. -/
example : (pollDemo pollNew (pollActs.take 7)).map (fun r => (r.1.pc, r.1.p.signaled)) = some (.wait (-1) ⟨3, 999000⟩ ⟨3, 999000⟩ ⟨3, 999500⟩ 1 8 4, false) := by
  decide +kernel

example : (pollDemo pollNew (pollActs.take 7 ++ [.op (.make 15 ⟨3, 999900⟩)])).map (fun r => r.1.p.signaled) = some true := by decide +kernel

/-- The hypotheses of `C34_wait_partial` and `C34_past`, and what they give: 1.5 ms are left, 2 ms are waited; a deadline that has passed; `C34_relative` over the end of a second. -/
example : TV.Normal ⟨10, 5500⟩ ∧ TV.Normal ⟨10, 4000⟩ ∧ ¬ TV.before ⟨10, 5500⟩ ⟨10, 4000⟩ ∧ diffTimeval ⟨10, 5500⟩ ⟨10, 4000⟩ = some 2 ∧
    TV.Normal ⟨9, 999000⟩ ∧ TV.before ⟨9, 999000⟩ ⟨10, 4000⟩ ∧ (diffTimeval ⟨9, 999000⟩ ⟨10, 4000⟩).map (fun k => decide (k < 0)) = some true ∧
    getTimeval ⟨9, 999000⟩ 1500 = ⟨11, 499000⟩ := by
  simp only [TV.Normal, TV.before]
  decide +kernel

end Conman
