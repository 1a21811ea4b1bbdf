import Verif.Lemma.PollFd
import Verif.Props.Timer

/-
C32: the table of descriptors.

`FReach s h`: the module can be in state `s` after the calls `h` on descriptors (Spec/Poll.lean), in any order and interleaved in any way with the
steps of a polling thread and with timers.
-/
namespace Conman
open Spec

theorem FReach.timers {s : PSys} {h : List FOp} (r : FReach s h) : ∃ h', PReach s h' := by
  induction r with
  | start e => exact ⟨[], .start e⟩
  | step _ en _ st ih => obtain ⟨h', ih⟩ := ih; exact ⟨_, .step ih en st⟩

theorem zeroFds_len {p q : TPoll} (h : p.zeroFds = some q) : p.pipe < p.arr.length := by
  unfold TPoll.zeroFds at h
  split at h
  · assumption
  · simp at h

theorem FReach.inv {s : PSys} {h : List FOp} (r : FReach s h) : FdInv s.p (interest h) := by
  induction r with
  | @start n pipe p e =>
    unfold TPoll.create TPoll.init at e
    simp only [if_true] at e
    cases hz : TPoll.zeroFds { arr := List.replicate (if n = 0 then 256 else n) PFd.free, pipe := pipe, used := 0, maxFd := 0, timers := [], nextId := 1, blocked := false, realloced := false, signaled := false } with
    | none => rw [hz] at e; simp at e
    | some q =>
      have hp := zeroFds_len hz
      obtain ⟨q', e1, e2⟩ := zeroFds_inv hp
      rw [hz] at e1
      cases e1
      rw [hz, Option.map_some] at e
      cases e
      exact e2.congr rfl rfl rfl rfl
  | @step s h a o r en own st ih =>
    cases a with
    | op op =>
      have st : (s.p.op op).map (fun r => ({ s := ⟨r.1, s.pc⟩ } : POut)) = some o := by
        unfold PSys.step at st; cases hpc : s.pc <;> simp only [hpc] at st ⊢ <;> exact st
      cases hr : s.p.op op with
      | none => rw [hr] at st; simp at st
      | some r =>
        rw [hr, Option.map_some] at st
        cases st
        dsimp only
        have keep : s.fdEvs (.op op) = [] → FdInv r.1 (interest h) → FdInv r.1 (interest (h ++ s.fdEvs (.op op))) := by
          intro e hI; rw [e, List.append_nil]; exact hI
        have one : ∀ e, s.fdEvs (.op op) = [e] → FdInv r.1 (fdStep (interest h) e) → FdInv r.1 (interest (h ++ s.fdEvs (.op op))) := by
          intro e he hI; rw [he]; unfold interest; rw [List.foldl_append]; exact hI
        cases op with
        | set fd ev mem =>
          obtain ⟨r', e, hcase⟩ := set_inv (ev := ev) (mem := mem) ih own.1 own.2
          simp only [TPoll.op] at hr
          rw [hr] at e
          cases e
          rcases hcase with ⟨h1, h2, _⟩ | ⟨h1, h2, _⟩
          · refine one (.set fd ev) ?_ h2
            simp only [PSys.fdEvs, hr]
            obtain ⟨q, rc⟩ := r
            dsimp only at h1; subst h1; rfl
          · refine keep ?_ h2
            simp only [PSys.fdEvs, hr]
            obtain ⟨q, rc⟩ := r
            dsimp only at h1; subst h1; rfl
        | clear fd ev =>
          obtain ⟨q, e, h1, _⟩ := clear_inv (ev := ev) ih own
          simp only [TPoll.op, e, Option.map_some, Option.some.injEq] at hr
          subst hr
          exact one (.clear fd ev) rfl h1
        | zero f t =>
          simp only [TPoll.op] at hr
          unfold TPoll.zero TPoll.init at hr
          cases f with
          | false =>
            simp only [Bool.false_eq_true, if_false, Option.map_some, Option.some.injEq] at hr
            subst hr
            refine keep rfl (FdInv.signal ?_)
            split
            · exact ih.congr rfl rfl rfl rfl
            · exact ih
          | true =>
            obtain ⟨q, e1, e2⟩ := zeroFds_inv ih.len
            simp only [if_true, e1, Option.map_some, Option.some.injEq] at hr
            subst hr
            refine one .zero rfl (FdInv.signal ?_)
            split
            · exact e2.congr rfl rfl rfl rfl
            · exact e2
        | make arg tv =>
          simp only [TPoll.op, Option.some.injEq] at hr
          subst hr
          refine keep rfl ?_
          unfold TPoll.timeoutAbs
          dsimp only
          split
          · exact ih.signal.congr rfl rfl rfl rfl
          · exact ih.congr rfl rfl rfl rfl
        | makeRel arg now ms =>
          simp only [TPoll.op, Option.some.injEq] at hr
          subst hr
          refine keep rfl ?_
          unfold TPoll.timeoutRel TPoll.timeoutAbs
          dsimp only
          split
          · exact ih.signal.congr rfl rfl rfl rfl
          · exact ih.congr rfl rfl rfl rfl
        | cancel id =>
          simp only [TPoll.op, Option.some.injEq] at hr
          subst hr
          refine keep rfl ?_
          unfold TPoll.cancel
          split
          · exact ih
          · split
            · exact ih
            · dsimp only
              split
              · exact ih.signal.congr rfl rfl rfl rfl
              · exact ih.congr rfl rfl rfl rfl
    | enter ms t0 t1 =>
      rw [show s.fdEvs (.enter ms t0 t1) = [] from rfl, List.append_nil]
      have : o.s.p = s.p := by
        unfold PSys.step at st; cases hpc : s.pc <;> simp only at st <;> cases st <;> rfl
      rw [this]; exact ih
    | fire =>
      rw [show s.fdEvs .fire = [] from rfl, List.append_nil]
      cases hpc : s.pc with
      | run ms dl now =>
        cases hd : headDue now s.p.timers with
        | none => simp only [PSys.step, hpc, hd] at st; cases st; exact ih
        | some r => simp only [PSys.step, hpc, hd] at st; cases st; exact ih.congr rfl rfl rfl rfl
      | _ => simp [PSys.enabled, hpc] at en
    | ret =>
      rw [show s.fdEvs .ret = [] from rfl, List.append_nil]
      cases hpc : s.pc with
      | call ms dl now t => simp only [PSys.step, hpc] at st; cases st; exact ih
      | _ => simp [PSys.enabled, hpc] at en
    | block t =>
      rw [show s.fdEvs (.block t) = [] from rfl, List.append_nil]
      cases hpc : s.pc with
      | run ms dl now =>
        simp only [PSys.step, hpc] at st
        cases ht : s.p.timeout ms dl t with
        | none => rw [ht] at st; simp at st
        | some k => rw [ht, Option.map_some] at st; cases st; exact ih.congr rfl rfl rfl rfl
      | _ => simp [PSys.enabled, hpc] at en
    | wake n K t =>
      rw [show s.fdEvs (.wake n K t) = [] from rfl, List.append_nil]
      cases hpc : s.pc with
      | wait ms dl now clock k size nfds =>
        simp only [PSys.step, hpc] at st
        split at st
        · simp at st
        · split at st
          · cases st
            obtain ⟨h1, h2, h3, h4⟩ := afterPoll_fds { s.p with arr := writeRev K 0 (s.p.arr.take nfds) ++ s.p.arr.drop nfds, blocked := false } ms dl now n K t
            exact ih.polled h1 h2 h3 h4
          · simp at st
      | _ => simp [PSys.enabled, hpc] at en

/-! ### The table -/

/-- What the system is asked to watch. -/
def TPoll.watched (p : TPoll) : List PFd := p.arr.take (p.maxFd + 1).toNat

/-- The events asked for a descriptor, one item for each entry it has. -/
def askedFor (l : List PFd) (fd : Nat) : List UInt16 := (l.filter (fun e => e.fd = (fd : Int))).map (·.ev)

theorem filter_index : ∀ (l : List PFd) (k : Nat), (∀ j e, l[j]? = some e → e.fd = -1 ∨ e.fd = ((k + j : Nat) : Int)) → ∀ fd, k ≤ fd →
    askedFor l fd = match l[fd - k]? with | some e => if e.fd = (fd : Int) then [e.ev] else [] | none => []
  | [], k, _, fd, _ => by simp [askedFor]
  | e :: l, k, h, fd, hk => by
    have h0 := h 0 e rfl
    have hl : ∀ j e', l[j]? = some e' → e'.fd = -1 ∨ e'.fd = ((k + 1 + j : Nat) : Int) := by
      intro j e' he
      have := h (j + 1) e' (by rw [List.getElem?_cons_succ]; exact he)
      omega
    unfold askedFor
    rw [List.filter_cons]
    by_cases hfd : fd = k
    · subst hfd
      rw [Nat.sub_self, List.getElem?_cons_zero]
      have hrest : l.filter (fun e => e.fd = (fd : Int)) = [] := by
        rw [List.filter_eq_nil_iff]
        intro a ha
        obtain ⟨j, hj⟩ := List.getElem?_of_mem ha
        have := hl j a hj
        simp; omega
      rw [hrest]
      dsimp only
      by_cases he : e.fd = (fd : Int)
      · rw [if_pos (by simpa using he), if_pos he]; rfl
      · rw [if_neg (by simpa using he), if_neg he]; rfl
    · rw [if_neg (by simp; omega)]
      have ih := filter_index l (k + 1) hl fd (by omega)
      unfold askedFor at ih
      rw [ih, show fd - k = (fd - (k + 1)) + 1 by omega, List.getElem?_cons_succ]

theorem FdInv.watched {p : TPoll} {m : Nat → UInt16} (i : FdInv p m) (fd : Nat) :
    askedFor p.watched fd = if fd = p.pipe then [pollIn] else if m fd = 0 then [] else [m fd] := by
  have hidx : ∀ j e, p.watched[j]? = some e → Ent p.pipe m j e := by
    intro j e he
    unfold TPoll.watched at he
    rw [List.getElem?_take] at he
    split at he
    · exact i.ent j e he
    · simp at he
  rw [filter_index p.watched 0 (by
    intro j e he
    have := hidx j e he
    unfold Ent at this
    split at this
    · rename_i hj; rw [this.1]; omega
    · split at this <;> rw [this.1] <;> omega) fd (by omega), Nat.sub_zero]
  cases hw : p.watched[fd]? with
  | none =>
    unfold TPoll.watched at hw
    have hmx := i.maxLt
    have hmp := i.maxPipe
    rw [List.getElem?_eq_none_iff, List.length_take] at hw
    dsimp only
    rw [if_neg (by omega), if_pos (i.maxAll fd (by omega))]
  | some e =>
    have he := hidx fd e hw
    unfold Ent at he
    dsimp only
    by_cases hp : fd = p.pipe
    · rw [if_pos hp] at he ⊢
      rw [if_pos (by rw [he.1, hp]), he.2]
    · rw [if_neg hp] at he ⊢
      by_cases h0 : m fd = 0
      · rw [if_pos h0] at he ⊢
        rw [if_neg (by omega)]
      · rw [if_neg h0] at he ⊢
        rw [if_pos he.1, he.2]

/-- C32. After any sequence of calls, for every descriptor: if events have been set and not cleared since, the system is asked for exactly these, once;
otherwise it is not asked to watch the descriptor. -/
theorem C32_interests {s : PSys} {h : List FOp} (r : FReach s h) (fd : Nat) (hfd : fd ≠ s.p.pipe) :
    askedFor s.p.watched fd = if interest h fd = 0 then [] else [interest h fd] := by
  rw [r.inv.watched, if_neg hfd]

/-- C32. The pipe by which a waiting thread is woken is watched at all times. -/
theorem C32_pipe_watched {s : PSys} {h : List FOp} (r : FReach s h) : askedFor s.p.watched s.p.pipe = [pollIn] := by
  rw [r.inv.watched, if_pos rfl]

theorem op_step (s : PSys) (op : POp) : s.step (.op op) = (s.p.op op).map (fun r => ({ s := ⟨r.1, s.pc⟩ } : POut)) := by
  unfold PSys.step; cases hpc : s.pc <;> simp only

/-- C32. No call on the table goes outside it, however high the descriptor; setting fails only if memory runs out, and then changes nothing. -/
theorem C32_calls_defined {s : PSys} {h : List FOp} (r : FReach s h) :
    (∀ fd ev mem, fd ≠ s.p.pipe → fd < 1073741824 → ∃ o rc, s.p.set fd ev mem = some (o, rc) ∧ (mem = true → rc = 0) ∧ (rc = -1 → ∀ i, askedFor o.watched i = askedFor s.p.watched i)) ∧
    (∀ fd ev, fd ≠ s.p.pipe → (s.p.clear fd ev).isSome) ∧ (∀ f t, (s.p.zero f t).isSome) ∧ (∀ fd ev, (s.p.isSet fd ev).isSome) := by
  have i := r.inv
  refine ⟨fun fd ev mem h1 h2 => ?_, fun fd ev h1 => ?_, fun f t => ?_, fun fd ev => ?_⟩
  · obtain ⟨⟨o, rc⟩, e, hc⟩ := set_inv (ev := ev) (mem := mem) i h1 h2
    refine ⟨o, rc, e, fun hm => ?_, fun hrc j => ?_⟩
    · rcases hc with ⟨hc, _⟩ | ⟨_, _, hc, _⟩
      · exact hc
      · rw [hc] at hm; simp at hm
    · rcases hc with ⟨hc, _⟩ | ⟨_, hc, _⟩
      · dsimp only at hc; omega
      · have hsame : o.pipe = s.p.pipe := by
          -- the pipe never changes
          have hp : (askedFor o.watched o.pipe) = [pollIn] := by rw [hc.watched, if_pos rfl]
          unfold TPoll.set at e
          split at e
          · cases e; rfl
          · split at e
            · cases hq : s.p.setEv fd ev with
              | none => rw [hq] at e; simp at e
              | some q => rw [hq, Option.map_some] at e; cases e; simp at hrc
            · split at e
              · simp at e
              · cases hg : s.p.grow (fd + 1) mem with
                | none => rw [hg] at e; simp at e
                | some g =>
                  rw [hg, Option.bind_some] at e
                  split at e
                  · cases hq : g.1.setEv fd ev with
                    | none => rw [hq] at e; simp at e
                    | some q => rw [hq, Option.map_some] at e; cases e; simp at hrc
                  · cases e
                    unfold TPoll.grow at hg
                    split at hg
                    · cases hg; rfl
                    · cases hgs : growSize (fd + 1) 32 s.p.arr.length with
                      | none => rw [hgs] at hg; simp at hg
                      | some k =>
                        rw [hgs, Option.map_some] at hg
                        cases hg
                        have := signal_timers s.p
                        split <;> exact this.2.2.2.2.2.2.1
        rw [hc.watched, i.watched, hsame]
  · obtain ⟨q, e, _⟩ := clear_inv (ev := ev) i h1
    rw [e]; rfl
  · unfold TPoll.zero TPoll.init
    cases f with
    | false => simp
    | true =>
      obtain ⟨q, e, _⟩ := zeroFds_inv i.len
      rw [if_pos rfl, e]; rfl
  · unfold TPoll.isSet
    split
    · rfl
    · have := i.maxLt
      rw [List.getElem?_eq_getElem (by omega)]
      dsimp only
      split <;> rfl

/-- C32. A call that changes what a waiting thread should watch wakes it. -/
theorem C32_change_wakes {s : PSys} {h : List FOp} (r : FReach s h) {ms : Int} {dl now clock : TV} {k : Int} {size nfds : Nat}
    (hpc : s.pc = .wait ms dl now clock k size nfds) {op : POp} (own : s.ownFd (.op op)) {o : POut} (st : s.step (.op op) = some o) {fd : Nat}
    (hne : interest (h ++ s.fdEvs (.op op)) fd ≠ interest h fd) (hop : ∀ f t, op ≠ .zero f t) : o.s.p.signaled = true := by
  obtain ⟨h', rp⟩ := r.timers
  have hb := (rp.waiting hpc).1
  have i := r.inv
  rw [op_step] at st
  have ifold : ∀ e, interest (h ++ [e]) = fdStep (interest h) e := by intro e; unfold interest; rw [List.foldl_append]; rfl
  cases op with
  | set f ev mem =>
    obtain ⟨⟨q, rc⟩, e, hc⟩ := set_inv (ev := ev) (mem := mem) i own.1 own.2
    simp only [TPoll.op, e, Option.map_some, Option.some.injEq] at st
    subst st
    rcases hc with ⟨hrc, _, hs⟩ | ⟨hrc, _⟩
    · dsimp only at hrc
      subst hrc
      have he : s.fdEvs (.op (.set f ev mem)) = [.set f ev] := by simp only [PSys.fdEvs, e]
      rw [he, ifold] at hne
      refine hs hb ?_
      by_cases hf : fd = f
      · rw [hf] at hne; exact hne
      · simp only [fdStep, if_neg hf] at hne; exact absurd rfl hne
    · dsimp only at hrc
      subst hrc
      have he : s.fdEvs (.op (.set f ev mem)) = [] := by simp only [PSys.fdEvs, e]
      rw [he, List.append_nil] at hne
      exact absurd rfl hne
  | clear f ev =>
    obtain ⟨q, e, _, hs⟩ := clear_inv (ev := ev) i own
    simp only [TPoll.op, e, Option.map_some, Option.some.injEq] at st
    subst st
    rw [show s.fdEvs (.op (.clear f ev)) = [.clear f ev] from rfl, ifold] at hne
    refine hs hb ?_
    by_cases hf : fd = f
    · rw [hf] at hne; exact hne
    · simp only [fdStep, if_neg hf] at hne; exact absurd rfl hne
  | zero f t => exact absurd rfl (hop f t)
  | _ => rw [show s.fdEvs (.op _) = [] from rfl, List.append_nil] at hne; exact absurd rfl hne

/-! ### What polling reports -/

theorem FdInv.isSet {p : TPoll} {m : Nat → UInt16} (i : FdInv p m) (fd : Nat) (ev : UInt16) (hfd : fd ≠ p.pipe) :
    p.isSet fd ev = some (if m fd = 0 then 0 else (p.arr[fd]?.map (·.rev)).getD 0 &&& ev) := by
  unfold TPoll.isSet
  have hml := i.maxLt
  by_cases h : (fd : Int) > p.maxFd
  · rw [if_pos h, if_pos (i.maxAll fd h)]
  · rw [if_neg h]
    have he : p.arr[fd]? = some p.arr[fd] := List.getElem?_eq_getElem (by omega)
    rw [he]
    dsimp only
    have hent := i.ent fd _ he
    unfold Ent at hent
    rw [if_neg hfd] at hent
    by_cases h0 : m fd = 0
    · rw [if_pos h0] at hent ⊢
      rw [if_pos (by omega)]
    · rw [if_neg h0] at hent ⊢
      rw [if_neg (by omega)]; rfl

/-- C32. After polling, a descriptor that is registered is reported exactly the events the system found, restricted to those asked about; one that is
not registered is reported none. -/
theorem C32_reports {s : PSys} {h : List FOp} (r : FReach s h) {ms : Int} {dl now clock : TV} {k : Int} {size nfds : Nat}
    (hpc : s.pc = .wait ms dl now clock k size nfds) {n : Int} {K : Nat → UInt16} {t : TV} {o : POut} (st : s.step (.wake n K t) = some o)
    (fd : Nat) (ev : UInt16) (hfd : fd ≠ s.p.pipe) (hn : fd < nfds) :
    o.s.p.isSet fd ev = some (if interest h fd = 0 then 0 else K fd &&& ev) := by
  have i := r.inv
  simp only [PSys.step, hpc] at st
  split at st
  · simp at st
  · split at st
    · cases st
      obtain ⟨h1, h2, h3, h4⟩ := afterPoll_fds { s.p with arr := writeRev K 0 (s.p.arr.take nfds) ++ s.p.arr.drop nfds, blocked := false } ms dl now n K t
      have hI := i.polled h1 h2 h3 h4
      rw [hI.isSet fd ev (by rw [h2]; exact hfd)]
      by_cases h0 : interest h fd = 0
      · rw [if_pos h0, if_pos h0]
      · rw [if_neg h0, if_neg h0, h1]
        have hlt : fd < s.p.arr.length := by
          rcases Nat.lt_or_ge fd s.p.arr.length with hl | hl
          · exact hl
          · exact absurd (i.out fd hl) h0
        rw [List.getElem?_append, writeRev_length, List.length_take, if_pos (by omega), writeRev_get, List.getElem?_take, if_pos hn,
          List.getElem?_eq_getElem hlt, Nat.zero_add]; rfl
    · simp at st

/-- C32. The number returned is the number of the caller's descriptors that are ready (the kernel's contract: `n` counts the entries it marked). -/
theorem C32_counts {s : PSys} {ms : Int} {dl now clock : TV} {k : Int} {size nfds : Nat} (hpc : s.pc = .wait ms dl now clock k size nfds)
    {K : Nat → UInt16} {t : TV} {o : POut} (hp : s.p.pipe < nfds) (hK : K s.p.pipe = 0 ∨ K s.p.pipe = pollIn)
    (st : s.step (.wake ((List.range nfds).countP (fun i => K i ≠ 0) : Nat) K t) = some o) {rc : Int} (hrc : o.ret = some rc) :
    rc = ((List.range nfds).countP (fun i => i ≠ s.p.pipe ∧ K i ≠ 0) : Nat) := by
  have hcount : (List.range nfds).countP (fun i => K i ≠ 0) =
      (List.range nfds).countP (fun i => i ≠ s.p.pipe ∧ K i ≠ 0) + (if K s.p.pipe ≠ 0 then 1 else 0) := by
    have gen : ∀ (l : List Nat), l.Nodup → l.countP (fun i => K i ≠ 0) =
        l.countP (fun i => i ≠ s.p.pipe ∧ K i ≠ 0) + (if s.p.pipe ∈ l ∧ K s.p.pipe ≠ 0 then 1 else 0) := by
      intro l
      induction l with
      | nil => intro _; simp
      | cons a l ih =>
        intro hnd
        have hnd := List.nodup_cons.1 hnd
        rw [List.countP_cons, List.countP_cons, ih hnd.2]
        by_cases ha : a = s.p.pipe
        · rw [ha] at hnd ⊢
          by_cases h0 : K s.p.pipe = 0
          · simp [h0]
          · simp [h0, hnd.1]
        · by_cases h0 : K a = 0
          · simp [h0, List.mem_cons, Ne.symm ha]
          · simp [h0, ha, List.mem_cons, Ne.symm ha]; omega
    rw [gen _ List.nodup_range]
    simp [hp]
  simp only [PSys.step, hpc] at st
  split at st
  · simp at st
  · split at st
    · cases st
      generalize hc1 : (List.range nfds).countP (fun i => K i ≠ 0) = c1 at *
      generalize hc2 : (List.range nfds).countP (fun i => i ≠ s.p.pipe ∧ K i ≠ 0) = c2 at *
      revert hrc
      unfold afterPoll
      rw [if_neg (by omega)]
      split
      · intro hh; cases hh
      · dsimp only
        rcases hK with hK | hK
        · rw [hK] at hcount ⊢
          simp only [UInt16.zero_and, ne_eq, not_true_eq_false, decide_false, Bool.false_eq_true, if_false] at hcount ⊢
          split
          · intro hh; cases hh; omega
          · split
            · intro hh; cases hh; omega
            · split
              · intro hh; cases hh; omega
              · intro hh; cases hh
        · rw [hK] at hcount ⊢
          have e1 : decide (pollIn &&& pollIn ≠ 0) = true := by decide
          have e2 : pollIn ≠ 0 := by decide
          rw [if_pos e2] at hcount
          simp only [e1, if_true]
          split
          · intro hh; cases hh; omega
          · split
            · intro hh; cases hh; omega
            · split
              · intro hh; cases hh; omega
              · intro hh; cases hh
    · simp at st

/-- C34. With a positive timeout, polling returns 0 only when the clock has reached the end of it. -/
theorem C34_full_timeout {s : PSys} {ms : Int} {dl now clock : TV} {k : Int} {size nfds : Nat} (hpc : s.pc = .wait ms dl now clock k size nfds) (hms : 0 < ms)
    {n : Int} {K : Nat → UInt16} {t : TV} {o : POut} (hn : 0 ≤ n) (st : s.step (.wake n K t) = some o) (hrc : o.ret = some 0) : ¬ TV.before t dl := by
  simp only [PSys.step, hpc] at st
  split at st
  · simp at st
  · split at st
    · cases st
      revert hrc
      unfold afterPoll
      rw [if_neg (by omega)]
      split
      · intro hh; cases hh
      · dsimp only
        cases hk : decide (K s.p.pipe &&& pollIn ≠ 0)
        · simp only [Bool.false_eq_true, if_false]
          split
          · intro hh; cases hh; omega
          · rw [if_neg (by omega)]
            split
            · rename_i hh; intro _; rw [← TV.lt_false]; exact hh.2
            · intro hh; cases hh
        · simp only [if_true]
          split
          · intro hh; simp only [Option.some.injEq] at hh; omega
          · rw [if_neg (by omega)]
            split
            · rename_i hh; intro _; rw [← TV.lt_false]; exact hh.2
            · intro hh; cases hh
    · simp at st

/-- C32. The module waits without a time limit only while something is registered: there are no interests exactly if the count of descriptors is zero. -/
theorem C32_used {s : PSys} {h : List FOp} (r : FReach s h) : s.p.used = 0 ↔ ∀ fd, interest h fd = 0 := by
  have i := r.inv
  have hu := i.used
  have hlen := i.len
  have hpe : s.p.arr[s.p.pipe]? = some s.p.arr[s.p.pipe] := List.getElem?_eq_getElem i.len
  have hpin : inUse s.p.arr[s.p.pipe] = true := by
    have := i.ent _ _ hpe
    unfold Ent at this
    rw [if_pos rfl] at this
    unfold inUse; rw [this.1]; simp; omega
  have hset := List.countP_set (p := inUse) (l := s.p.arr) (i := s.p.pipe) (a := PFd.free) i.len
  rw [hpin] at hset
  have hfree : inUse PFd.free = false := by decide
  rw [hfree] at hset
  simp only [if_true, Bool.false_eq_true, if_false, Nat.add_zero] at hset
  have hpos : 0 < s.p.arr.countP inUse := List.countP_pos_iff.2 ⟨_, List.getElem_mem i.len, hpin⟩
  constructor
  · intro h0 fd
    apply Classical.byContradiction
    intro hne
    have hlt : fd < s.p.arr.length := by
      rcases Nat.lt_or_ge fd s.p.arr.length with hl | hl
      · exact hl
      · exact absurd (i.out fd hl) hne
    have hfp : s.p.pipe ≠ fd := fun e => hne (by rw [← e]; exact i.pipe0)
    have hge : s.p.arr[fd]? = some s.p.arr[fd] := List.getElem?_eq_getElem hlt
    have hent := i.ent fd _ hge
    unfold Ent at hent
    rw [if_neg (fun e => hfp e.symm), if_neg hne] at hent
    have hmem : s.p.arr[fd] ∈ s.p.arr.set s.p.pipe PFd.free := by
      refine List.mem_of_getElem? (i := fd) ?_
      rw [List.getElem?_set, if_neg hfp]; exact hge
    have : 0 < (s.p.arr.set s.p.pipe PFd.free).countP inUse := List.countP_pos_iff.2 ⟨_, hmem, by unfold inUse; rw [hent.1]; simp; omega⟩
    omega
  · intro hall
    have hz : (s.p.arr.set s.p.pipe PFd.free).countP inUse = 0 := by
      rw [List.countP_eq_zero]
      intro e he
      obtain ⟨j, hj⟩ := List.getElem?_of_mem he
      rw [List.getElem?_set] at hj
      split at hj
      · cases hj; simp [hfree]
      · rename_i hjp
        have := i.ent j e hj
        unfold Ent at this
        rw [if_neg (fun e => hjp e.symm), if_pos (hall j)] at this
        unfold inUse; rw [this.1]; simp
    omega

/-- C34. Polling waits without a limit exactly if the caller gave none, no timer is set and some descriptor is registered; with nothing to wait for it
does not wait. -/
theorem C34_unlimited {s : PSys} {h : List FOp} (r : FReach s h) {ms : Int} {dl now t : TV} (hpc : s.pc = .run ms dl now) {o : POut} (st : s.step (.block t) = some o) :
    ∃ k size nfds, o.s.pc = .wait ms dl now t k size nfds ∧ -1 ≤ k ∧ (k = -1 ↔ ms < 0 ∧ s.p.timers = [] ∧ ∃ fd, interest h fd ≠ 0) ∧
      (ms < 0 → s.p.timers = [] → (∀ fd, interest h fd = 0) → k = 0) := by
  have hu := C32_used r
  have hpos : 0 ≤ s.p.used := by
    have i := r.inv
    have hu := i.used
    have : 0 < s.p.arr.countP inUse := by
      have hlen := i.len
      have := i.ent s.p.pipe s.p.arr[s.p.pipe] (List.getElem?_eq_getElem i.len)
      unfold Ent at this
      rw [if_pos rfl] at this
      exact List.countP_pos_iff.2 ⟨_, List.getElem_mem i.len, by unfold inUse; rw [this.1]; simp; omega⟩
    omega
  simp only [PSys.step, hpc] at st
  cases ht : s.p.timeout ms dl t with
  | none => rw [ht] at st; simp at st
  | some k =>
    rw [ht, Option.map_some] at st
    cases st
    refine ⟨k, _, _, rfl, ?_⟩
    unfold TPoll.timeout at ht
    split at ht
    · rename_i h0
      cases ht
      exact ⟨by omega, ⟨fun e => by omega, fun e => by omega⟩, fun _ _ _ => rfl⟩
    · split at ht
      · rename_i h0 h1
        cases ht
        by_cases hus : s.p.used > 0
        · rw [if_pos hus]
          have hex : ∃ fd, interest h fd ≠ 0 := by
            apply Classical.byContradiction
            intro hne
            have : s.p.used = 0 := hu.2 (fun fd => Classical.byContradiction fun e => hne ⟨fd, e⟩)
            omega
          exact ⟨by omega, ⟨fun _ => ⟨h1.1, h1.2, hex⟩, fun _ => rfl⟩, fun _ _ hall => by obtain ⟨fd, e⟩ := hex; exact absurd (hall fd) e⟩
        · rw [if_neg hus]
          refine ⟨by omega, ⟨fun e => by omega, fun ⟨_, _, fd, e⟩ => absurd (hu.1 (by omega) fd) e⟩, fun _ _ _ => rfl⟩
      · rename_i h0 h1
        cases hd : diffTimeval (waitTarget ms dl s.p.timers) t with
        | none => rw [hd] at ht; simp at ht
        | some d =>
          rw [hd, Option.map_some, Option.some.injEq] at ht
          have hk : 0 ≤ k := by split at ht <;> omega
          exact ⟨by omega, ⟨fun e => by omega, fun ⟨e1, e2, _⟩ => absurd ⟨e1, e2⟩ h1⟩, fun e1 e2 _ => absurd ⟨e1, e2⟩ h1⟩

/-- The events last found for an entry. -/
def TPoll.found (p : TPoll) (i : Nat) : UInt16 := (p.arr[i]?.map (·.rev)).getD 0

theorem signal_found (p : TPoll) (i : Nat) : p.signal.found i = p.found i ∧ p.signal.pipe = p.pipe := by
  have := signal_timers p
  unfold TPoll.found
  rw [this.2.2.2.2.1]
  exact ⟨rfl, this.2.2.2.2.2.2.1⟩

theorem setEv_found {p q : TPoll} {fd : Nat} {ev : UInt16} (h : p.setEv fd ev = some q) (i : Nat) : q.found i = p.found i ∧ q.pipe = p.pipe := by
  unfold TPoll.setEv at h
  cases he : p.arr[fd]? with
  | none => rw [he] at h; cases h
  | some e =>
    have key : ∀ e' : PFd, e'.rev = e.rev → ((p.arr.set fd e')[i]?.map (·.rev)).getD 0 = (p.arr[i]?.map (·.rev)).getD 0 := by
      intro e' hr
      rw [List.getElem?_set]
      split
      · rename_i hi
        rw [← hi, he]
        split
        · simp [hr]
        · rename_i hl; rw [List.getElem?_eq_none (by omega)] at he; cases he
      · rfl
    rw [he] at h
    dsimp only at h
    split at h
    · cases h
      split
      · exact ⟨key _ rfl, rfl⟩
      · rw [(signal_found _ i).1, (signal_found _ i).2]; exact ⟨key _ rfl, rfl⟩
    · split at h
      · cases h; exact ⟨rfl, rfl⟩
      · cases h
        rw [(signal_found _ i).1, (signal_found _ i).2]; exact ⟨key _ rfl, rfl⟩

theorem set_found {p q : TPoll} {fd : Nat} {ev : UInt16} {mem : Bool} {rc : Int} (h : p.set fd ev mem = some (q, rc)) (i : Nat) :
    q.found i = p.found i ∧ q.pipe = p.pipe := by
  unfold TPoll.set at h
  split at h
  · cases h; exact ⟨rfl, rfl⟩
  · split at h
    · cases hq : p.setEv fd ev with
      | none => rw [hq] at h; simp at h
      | some q' => rw [hq, Option.map_some] at h; cases h; exact setEv_found hq i
    · split at h
      · simp at h
      · cases hg : p.grow (fd + 1) mem with
        | none => rw [hg] at h; simp at h
        | some g =>
          have hgf : g.1.found i = p.found i ∧ g.1.pipe = p.pipe := by
            unfold TPoll.grow at hg
            split at hg
            · cases hg; exact ⟨rfl, rfl⟩
            · cases hgs : growSize (fd + 1) 32 p.arr.length with
              | none => rw [hgs] at hg; simp at hg
              | some k =>
                rw [hgs, Option.map_some] at hg
                cases hg
                split
                · refine ⟨?_, (signal_found p i).2⟩
                  unfold TPoll.found
                  dsimp only
                  rw [List.getElem?_append]
                  split
                  · rfl
                  · rename_i hl
                    rw [List.getElem?_eq_none (l := p.arr) (by omega), List.getElem?_replicate]
                    split <;> rfl
                · exact signal_found p i
          rw [hg, Option.bind_some] at h
          split at h
          · cases hq : g.1.setEv fd ev with
            | none => rw [hq] at h; simp at h
            | some q' =>
              rw [hq, Option.map_some] at h; cases h
              have := setEv_found hq i
              exact ⟨this.1.trans hgf.1, this.2.trans hgf.2⟩
          · cases h; exact hgf

theorem clear_found {p q : TPoll} {fd : Nat} {ev : UInt16} (h : p.clear fd ev = some q) (i : Nat) (hi : i ≠ fd) : q.found i = p.found i ∧ q.pipe = p.pipe := by
  have key : ∀ e' : PFd, ((p.arr.set fd e')[i]?.map (·.rev)).getD 0 = (p.arr[i]?.map (·.rev)).getD 0 := by
    intro e'
    rw [List.getElem?_set, if_neg (fun e => hi e.symm)]
  unfold TPoll.clear at h
  split at h
  · cases h; exact ⟨rfl, rfl⟩
  · split at h
    · cases he : p.arr[fd]? with
      | none => rw [he] at h; cases h
      | some e =>
        rw [he] at h
        dsimp only at h
        split at h
        · split at h
          · cases h; exact ⟨rfl, rfl⟩
          · split at h
            · cases h; rw [(signal_found _ i).1, (signal_found _ i).2]; exact ⟨key _, rfl⟩
            · cases h; rw [(signal_found _ i).1, (signal_found _ i).2]; exact ⟨key _, rfl⟩
        · cases h; exact ⟨rfl, rfl⟩
    · cases h; exact ⟨rfl, rfl⟩

/-- C32. What is reported for a descriptor is not changed by calls on other descriptors, so the results of one poll can be worked through one by one. -/
theorem C32_others_kept {s : PSys} {h : List FOp} (r : FReach s h) (fd : Nat) (hfd : fd ≠ s.p.pipe) (ev : UInt16) :
    (∀ fd' ev' mem q rc, fd' ≠ fd → fd' ≠ s.p.pipe → fd' < 1073741824 → s.p.set fd' ev' mem = some (q, rc) → q.isSet fd ev = s.p.isSet fd ev) ∧
    (∀ fd' ev' q, fd' ≠ fd → fd' ≠ s.p.pipe → s.p.clear fd' ev' = some q → q.isSet fd ev = s.p.isSet fd ev) := by
  have i := r.inv
  constructor
  · intro fd' ev' mem q rc h1 h2 h3 e
    obtain ⟨r', e', hc⟩ := set_inv (ev := ev') (mem := mem) i h2 h3
    rw [e] at e'
    cases e'
    obtain ⟨hf, hp⟩ := set_found e fd
    unfold TPoll.found at hf
    have : ∃ m', FdInv q m' ∧ m' fd = interest h fd := by
      rcases hc with ⟨_, hc, _⟩ | ⟨_, hc, _⟩
      · exact ⟨_, hc, by simp only [fdStep]; rw [if_neg (fun e => h1 e.symm)]⟩
      · exact ⟨_, hc, rfl⟩
    obtain ⟨m', im, hm⟩ := this
    rw [im.isSet fd ev (by rw [hp]; exact hfd), i.isSet fd ev hfd, hm, hf]
  · intro fd' ev' q h1 h2 e
    obtain ⟨q', e', hc, _⟩ := clear_inv (ev := ev') i h2
    rw [e] at e'
    cases e'
    obtain ⟨hf, hp⟩ := clear_found e fd (fun e => h1 e.symm)
    unfold TPoll.found at hf
    have hm : fdStep (interest h) (.clear fd' ev') fd = interest h fd := by simp only [fdStep]; rw [if_neg (fun e => h1 e.symm)]
    rw [hc.isSet fd ev (by rw [hp]; exact hfd), i.isSet fd ev hfd, hf, hm]

/-! ### The table and the kernel

Full statement: poll() always writes its results into the table in use.  It does not hold: `tpoll_set` by one thread may move the table while another
thread is inside poll() with the old address (the mutex is released, src/tpoll.c:638-655); the kernel then writes the results into freed memory. -/

/-- C32, the part that holds: unless the table was moved while the thread waited, the results are written into it. -/
theorem C32_poll_in_table_partial {s : PSys} {h : List FOp} (r : FReach s h) {ms : Int} {dl now clock : TV} {k : Int} {size nfds : Nat}
    (hpc : s.pc = .wait ms dl now clock k size nfds) (hmoved : s.p.arr.length = size) (n : Int) (K : Nat → UInt16) (t : TV) :
    (s.step (.wake n K t)).isSome := by
  simp only [PSys.step, hpc]
  rw [if_neg (by omega), if_pos r.inv.len]; rfl

/-- Steps taken one after the other, with what was asked of the table. -/
def fdDemo : PSys → List PAct → Option (PSys × List FOp)
  | s, [] => some (s, [])
  | s, a :: l => if s.enabled a then (s.step a).bind fun o => (fdDemo o.s l).map fun r => (r.1, s.fdEvs a ++ r.2) else none

theorem step_pipe {s : PSys} {a : PAct} {o : POut} (en : s.enabled a = true) (st : s.step a = some o) : o.s.p.pipe = s.p.pipe := by
  cases a with
  | op op =>
    rw [op_step] at st
    cases hr : s.p.op op with
    | none => rw [hr] at st; simp at st
    | some x =>
      rw [hr, Option.map_some] at st
      cases st
      dsimp only
      cases op with
      | set fd ev mem => simp only [TPoll.op] at hr; obtain ⟨q, rc⟩ := x; exact (set_found hr 0).2
      | clear fd ev =>
        simp only [TPoll.op] at hr
        cases hq : s.p.clear fd ev with
        | none => rw [hq] at hr; simp at hr
        | some q => rw [hq, Option.map_some] at hr; cases hr; exact (clear_found hq (fd + 1) (by omega)).2
      | zero f t =>
        simp only [TPoll.op] at hr
        unfold TPoll.zero TPoll.init at hr
        cases f with
        | false =>
          simp only [Bool.false_eq_true, if_false, Option.map_some, Option.some.injEq] at hr
          subst hr
          rw [(signal_found _ 0).2]
          split <;> rfl
        | true =>
          cases hq : s.p.zeroFds with
          | none => rw [if_pos rfl, hq] at hr; simp at hr
          | some q =>
            have hqp : q.pipe = s.p.pipe := by
              unfold TPoll.zeroFds at hq
              split at hq
              · cases hq; rfl
              · simp at hq
            simp only [if_true, hq, Option.map_some, Option.some.injEq] at hr
            subst hr
            rw [(signal_found _ 0).2]
            split <;> exact hqp
      | make arg tv =>
        simp only [TPoll.op, Option.some.injEq] at hr
        subst hr
        unfold TPoll.timeoutAbs
        dsimp only
        split
        · exact (signal_found _ 0).2
        · rfl
      | makeRel arg now ms =>
        simp only [TPoll.op, Option.some.injEq] at hr
        subst hr
        unfold TPoll.timeoutRel TPoll.timeoutAbs
        dsimp only
        split
        · exact (signal_found _ 0).2
        · rfl
      | cancel id =>
        simp only [TPoll.op, Option.some.injEq] at hr
        subst hr
        unfold TPoll.cancel
        split
        · rfl
        · split
          · rfl
          · dsimp only
            split
            · exact (signal_found _ 0).2
            · rfl
  | enter ms t0 t1 => unfold PSys.step at st; cases hpc : s.pc <;> simp only at st <;> cases st <;> rfl
  | fire =>
    cases hpc : s.pc with
    | run ms dl now =>
      cases hd : headDue now s.p.timers with
      | none => simp only [PSys.step, hpc, hd] at st; cases st; rfl
      | some r => simp only [PSys.step, hpc, hd] at st; cases st; rfl
    | _ => simp [PSys.enabled, hpc] at en
  | ret =>
    cases hpc : s.pc with
    | call ms dl now t => simp only [PSys.step, hpc] at st; cases st; rfl
    | _ => simp [PSys.enabled, hpc] at en
  | block t =>
    cases hpc : s.pc with
    | run ms dl now =>
      simp only [PSys.step, hpc] at st
      cases ht : s.p.timeout ms dl t with
      | none => rw [ht] at st; simp at st
      | some k => rw [ht, Option.map_some] at st; cases st; rfl
    | _ => simp [PSys.enabled, hpc] at en
  | wake n K t =>
    cases hpc : s.pc with
    | wait ms dl now clock k size nfds =>
      simp only [PSys.step, hpc] at st
      split at st
      · simp at st
      · split at st
        · cases st
          exact (afterPoll_fds { s.p with arr := writeRev K 0 (s.p.arr.take nfds) ++ s.p.arr.drop nfds, blocked := false } ms dl now n K t).2.1
        · simp at st
    | _ => simp [PSys.enabled, hpc] at en

/-- The caller's descriptors in a list of steps. -/
def ownSteps (pipe : Nat) : List PAct → Bool
  | [] => true
  | .op (.set fd _ _) :: l => decide (fd ≠ pipe) && decide (fd < 1073741824) && ownSteps pipe l
  | .op (.clear fd _) :: l => decide (fd ≠ pipe) && ownSteps pipe l
  | _ :: l => ownSteps pipe l

theorem fdDemo_reach : ∀ (l : List PAct) {s s' : PSys} {h es : List FOp}, FReach s h → ownSteps s.p.pipe l = true → fdDemo s l = some (s', es) → FReach s' (h ++ es)
  | [], _, _, _, _, r, _, e => by cases e; rw [List.append_nil]; exact r
  | a :: l, s, s', h, es, r, own, e => by
    simp only [fdDemo] at e
    split at e
    · rename_i en
      cases st : s.step a with
      | none => rw [st] at e; simp at e
      | some o =>
        rw [st, Option.bind_some] at e
        cases hd : fdDemo o.s l with
        | none => rw [hd] at e; simp at e
        | some r2 =>
          rw [hd, Option.map_some] at e
          cases e
          rw [← List.append_assoc]
          have h2 : s.ownFd a ∧ ownSteps s.p.pipe l = true := by
            cases a with
            | op op =>
              cases op with
              | set fd ev mem => simp only [ownSteps, Bool.and_eq_true, decide_eq_true_eq] at own; exact own
              | clear fd ev => simp only [ownSteps, Bool.and_eq_true, decide_eq_true_eq] at own; exact own
              | _ => exact ⟨trivial, own⟩
            | _ => exact ⟨trivial, own⟩
          exact fdDemo_reach l (FReach.step r en h2.1 st) (by rw [step_pipe en st]; exact h2.2) hd
    · simp at e

theorem pollNew_fds : FReach pollNew [] := FReach.start (n := 8) (pipe := 3) rfl

/-- Interests set before and during a poll. -/
def fdActs : List PAct :=
  [.op (.set 5 1 true), .op (.set 7 5 true), .op (.set 4 4 true), .op (.clear 7 4), .op (.clear 4 4), .enter (-1) ⟨1, 0⟩ ⟨1, 0⟩, .block ⟨1, 0⟩]

example : (fdDemo pollNew fdActs).map (fun r => (r.1.pc, r.1.p.watched.map (fun e => (e.fd, e.ev)), r.1.p.used)) =
    some (.wait (-1) ⟨1, 0⟩ ⟨1, 0⟩ ⟨1, 0⟩ (-1) 8 8, [(-1, 0), (-1, 0), (-1, 0), (3, 1), (-1, 0), (5, 1), (-1, 0), (7, 1)], 2) := by decide +kernel

/-- The state reached by these steps satisfies the hypotheses of the theorems above. -/
theorem fdActs_reach : ∃ s h, fdDemo pollNew fdActs = some (s, h) ∧ FReach s h := by
  cases hd : fdDemo pollNew fdActs with
  | none =>
    have : (fdDemo pollNew fdActs).isSome = true := by decide +kernel
    rw [hd] at this; simp at this
  | some r => exact ⟨r.1, r.2, rfl, by simpa using fdDemo_reach fdActs (h := []) pollNew_fds (by decide) hd⟩

/-- Both descriptors are found ready, the pipe is not: polling returns 2, and each is reported. -/
example : (fdDemo pollNew fdActs).bind (fun r => (r.1.step (.wake 2 (fun i => if i = 5 then 1 else if i = 7 then 17 else 0) ⟨2, 0⟩)).map fun o =>
    (o.ret, o.s.p.isSet 5 1, o.s.p.isSet 7 1, o.s.p.isSet 4 4)) = some (some 2, some 1, some 1, some 0) := by decide +kernel

/-- Clearing an interest wakes the thread; setting what is set already does not. -/
example : (fdDemo pollNew (fdActs ++ [.op (.clear 5 1)])).map (fun r => r.1.p.signaled) = some true ∧
    (fdDemo pollNew (fdActs ++ [.op (.set 5 1 true)])).map (fun r => r.1.p.signaled) = some false := by decide +kernel

/-- The pipe becoming readable is not counted. -/
example : (fdDemo pollNew (fdActs ++ [.op (.clear 5 1)])).bind (fun r => (r.1.step (.wake 1 (fun i => if i = 3 then 1 else 0) ⟨2, 0⟩)).map fun o =>
    (o.ret, o.s.pc, o.s.p.signaled)) = some (none, .run (-1) ⟨1, 0⟩ ⟨2, 0⟩, false) := by decide +kernel

/-- A table of 8 entries grows to hold descriptor 40 and loses nothing. -/
example : (fdDemo pollNew (fdActs.take 5 ++ [.op (.set 40 1 true)])).map (fun r => (r.1.p.arr.length, askedFor r.1.p.watched 5, askedFor r.1.p.watched 40)) =
    some (64, [1], [1]) := by decide +kernel

/-- Full statement of C32 fails: descriptor 8 is set while a thread waits on a table of 8 entries; the results of poll() go to memory that was freed. -/
theorem C32_moved_while_polling : ∃ s h, FReach s h ∧ (∃ ms dl now clock k size nfds, s.pc = .wait ms dl now clock k size nfds) ∧
    ∀ n K t, s.step (.wake n K t) = none := by
  cases hd : fdDemo pollNew (fdActs ++ [.op (.set 8 1 true)]) with
  | none =>
    have : (fdDemo pollNew (fdActs ++ [.op (.set 8 1 true)])).isSome = true := by decide +kernel
    rw [hd] at this; simp at this
  | some r =>
    have hr := fdDemo_reach _ (h := []) pollNew_fds (by decide) hd
    have e : (fdDemo pollNew (fdActs ++ [.op (.set 8 1 true)])).map (fun r => (r.1.pc, r.1.p.arr.length)) = some (.wait (-1) ⟨1, 0⟩ ⟨1, 0⟩ ⟨1, 0⟩ (-1) 8 8, 16) := by
      decide +kernel
    rw [hd, Option.map_some, Option.some.injEq, Prod.mk.injEq] at e
    refine ⟨r.1, _, hr, ⟨_, _, _, _, _, _, _, e.1⟩, fun n K t => ?_⟩
    simp only [PSys.step, e.1]
    rw [if_pos (by omega)]

/-- Creating an object with a small table when low descriptors are taken writes outside the table: there is no check against the pipe's number,
src/tpoll.c:169-202. -/
theorem C32_small_table {n pipe : Nat} (hn : 0 < n) (h : n ≤ pipe) : TPoll.create n pipe = none := by
  unfold TPoll.create TPoll.init TPoll.zeroFds
  simp only [if_neg (show ¬ n = 0 by omega), List.length_replicate, if_true]
  rw [if_neg (show ¬ pipe < n by omega)]; rfl

example : TPoll.create 4 5 = none := C32_small_table (by decide) (by decide)

end Conman
