import Verif.Lemma.Locks

/-
C72: one daemon per configuration.  C73: control commands.  C74: locks of logs.
-/
namespace Conman

/-- The process runs with this file as configuration. -/
def Daemons.runs (s : Daemons) (p : Int) (i : Nat) : Prop := s.phase p = some (.running i)

/-- C72.  Whatever happens, no two daemons run with the same file, as long as no program has a lock of an open file description on it.
`t` is a pid file left by an earlier daemon. -/
theorem C72_exclusive_partial (f : Option Nat) (t : Option (List UInt8)) (h : List DEv) (ho : ∀ p i w, DEv.other p i w ∈ h → 0 < p) (p q : Int) (i : Nat)
    (hp : (Daemons.run { file := f, pidfile := t } h).runs p i) (hq : (Daemons.run { file := f, pidfile := t } h).runs q i) : p = q := by
  have inv := (DaemonInv.init f t).run h (by
    intro x hx
    cases x with
    | other p i w => exact ho p i w hx
    | _ => trivial)
  exact inv.excl p q _ _ hp hq rfl rfl rfl

/-- A history of daemons only, and of the one configuration file. -/
def Daemons.only (h : List DEv) : Prop := ∀ x ∈ h, (∃ p, x = .start p) ∨ (∃ p k, x = .step p k) ∨ (∃ p, x = .kill p) ∨ (∃ p, x = .stop p)

theorem only_mine {h : List DEv} (hm : Daemons.only h) : ∀ x ∈ h, x.mine = true := by
  intro x hx
  rcases hm x hx with ⟨_, rfl⟩ | ⟨_, _, rfl⟩ | ⟨_, rfl⟩ | ⟨_, rfl⟩ <;> rfl

/-- C72.  If the configuration file is not replaced, there is at most one daemon. -/
theorem C72_one (f : Nat) (t : Option (List UInt8)) (h : List DEv) (hm : Daemons.only h) (p q : Int) (i j : Nat)
    (hp : (Daemons.run { file := some f, pidfile := t } h).runs p i) (hq : (Daemons.run { file := some f, pidfile := t } h).runs q j) : p = q := by
  have o := (DaemonOwn.init f t).run h (only_mine hm)
  exact o.inv.excl p q _ _ hp hq rfl rfl ((o.inos p _ hp).trans (o.inos q _ hq).symm)

instance (s : Daemons) (p : Int) (i : Nat) : Decidable (s.runs p i) := inferInstanceAs (Decidable (s.phase p = some (.running i)))

/-- A race of two daemons that the second one wins, and a third one that is refused; the winner is killed, and then another one starts. -/
def raceHistory : List DEv :=
  [.start 10, .start 11, .step 10 0, .step 11 0, .step 10 0, .step 10 0, .step 11 0, .step 11 0, .start 12, .step 12 0, .step 12 0, .step 12 0]

example : (∀ p i w, DEv.other p i w ∈ raceHistory → 0 < p) ∧ Daemons.only raceHistory ∧ (Daemons.run { file := some 7, pidfile := some (bs "10\n") } raceHistory).runs 11 7 ∧
    (Daemons.run { file := some 7, pidfile := some (bs "10\n") } raceHistory).phase 10 = none ∧ (Daemons.run { file := some 7, pidfile := some (bs "10\n") } raceHistory).phase 12 = none := by
  refine ⟨?_, ?_, by decide +kernel, by decide +kernel, by decide +kernel⟩
  · intro p i w h
    simp [raceHistory] at h
  · intro x hx
    simp only [raceHistory, List.mem_cons, List.not_mem_nil, or_false] at hx
    rcases hx with rfl | rfl | rfl | rfl | rfl | rfl | rfl | rfl | rfl | rfl | rfl | rfl <;> simp

/-- C72 is false of locks of open file descriptions: they are reported as those of process -1, which the daemon does not see.  Here 11 starts while a program has locked
the file for reading in that way, 10 has it locked as well, but the lock of the program is the one that is reported. -/
theorem C72_ofd : ∃ h : List DEv, (Daemons.run { file := some 7 } h).runs 10 7 ∧ (Daemons.run { file := some 7 } h).runs 11 7 :=
  ⟨[.other (-1) 7 false, .start 10, .step 10 0, .step 10 0, .step 10 0, .start 11, .step 11 0, .step 11 0, .step 11 0], by decide +kernel, by decide +kernel⟩

/-- C72 is false of names: after the file is replaced (as editors do) a second daemon starts, with the same name of a configuration file, and so the same consoles and port. -/
theorem C72_replaced : ∃ h : List DEv, (∀ p i w, DEv.other p i w ∉ h) ∧ (Daemons.run { file := some 7 } h).runs 10 7 ∧ (Daemons.run { file := some 7 } h).runs 11 8 :=
  ⟨[.start 10, .step 10 0, .step 10 0, .step 10 0, .replace (some 8), .start 11, .step 11 0, .step 11 0, .step 11 0], by simp, by decide +kernel, by decide +kernel⟩

/-- C72 is false of two daemons that start at the same time: each may find the other one, and both exit. -/
theorem C72_both_refused : ∃ h : List DEv, Daemons.only h ∧ .start 10 ∈ h ∧ .start 11 ∈ h ∧ (∀ p, .kill p ∉ h ∧ .stop p ∉ h) ∧ (Daemons.run { file := some 7 } h).locks = [] ∧
    (Daemons.run { file := some 7 } h).phase 10 = none ∧ (Daemons.run { file := some 7 } h).phase 11 = none ∧ (Daemons.run { file := some 7 } h).pidfile = none :=
  ⟨[.start 10, .start 11, .step 10 0, .step 11 0, .step 10 0, .step 11 0, .step 10 0, .step 11 0], by
    intro x hx
    simp only [List.mem_cons, List.not_mem_nil, or_false] at hx
    rcases hx with rfl | rfl | rfl | rfl | rfl | rfl | rfl | rfl <;> simp, by simp, by simp, by simp, by decide +kernel, by decide +kernel, by decide +kernel, by decide +kernel⟩

/-- C72.  A daemon starts when no other daemon is there, whatever happened before: killed daemons leave nothing that is in its way. -/
theorem C72_starts (f : Nat) (t : Option (List UInt8)) (h : List DEv) (hm : Daemons.only h)
    (p : Int) (h1 : 1 < p) (h2 : p ≤ 2147483647) (hn : ∀ q, (Daemons.run { file := some f, pidfile := t } h).phase q = none) (a b c : Nat) :
    (Daemons.run { file := some f, pidfile := t } (h ++ [.start p, .step p a, .step p b, .step p c])).runs p f := by
  have o := (DaemonOwn.init f t).run h (by
    intro x hx
    rcases hm x hx with ⟨_, rfl⟩ | ⟨_, _, rfl⟩ | ⟨_, rfl⟩ | ⟨_, rfl⟩ <;> rfl)
  have e : Daemons.run { file := some f, pidfile := t } (h ++ [.start p, .step p a, .step p b, .step p c]) =
      ((((Daemons.run { file := some f, pidfile := t } h).step (.start p)).step (.step p a)).step (.step p b)).step (.step p c) := by
    unfold Daemons.run
    rw [List.foldl_append]
    rfl
  rw [e]
  generalize Daemons.run { file := some f, pidfile := t } h = s at o hn
  have hl : s.locks = [] := by
    cases hl : s.locks with
    | nil => rfl
    | cons l r =>
      obtain ⟨x, hx, _⟩ := o.own l (by rw [hl]; exact List.mem_cons_self)
      rw [hn] at hx
      cases hx
  have self : ∀ (s : Daemons) (x : DPhase), (s.setPhase p (some x)).phase p = some x := fun s x => by rw [phase_set, if_pos rfl]
  have s1 : (s.step (.start p)).phase p = some (.opened f) ∧ (s.step (.start p)).locks = [] := by
    rw [Daemons.step, if_neg (by rw [hn]; intro g; rcases g with g | g | g <;> first | omega | exact g rfl), o.file]
    refine ⟨self s _, ?_⟩
    show dropLocks s.locks p = []
    rw [hl]; rfl
  generalize s.step (.start p) = t1 at s1
  have s2 : (t1.step (.step p a)).phase p = some (.locked f) ∧ (t1.step (.step p a)).locks = [⟨p, f, false⟩] := by
    rw [Daemons.step]
    unfold Daemons.advance
    rw [s1.1]
    dsimp only
    rw [s1.2]
    exact ⟨self t1 _, rfl⟩
  generalize t1.step (.step p a) = t2 at s2
  have s3 : (t2.step (.step p b)).phase p = some (.checked f) := by
    rw [Daemons.step]
    unfold Daemons.advance
    rw [s2.1]
    dsimp only
    have hc : lockConflicts [⟨p, f, false⟩] p f true = [] := by
      unfold lockConflicts
      simp
    have ht : testLock [⟨p, f, false⟩] p f true b = 0 := by
      rcases testLock_spec [⟨p, f, false⟩] p f b with g | ⟨l, g, _⟩
      · exact g.2
      · rw [hc] at g; cases g
    rw [s2.2, ht, if_neg (by decide)]
    exact self t2 _
  generalize t2.step (.step p b) = t3 at s3
  unfold Daemons.runs
  rw [Daemons.step]
  unfold Daemons.advance
  rw [s3]
  exact self t3 _

theorem race_only : Daemons.only (raceHistory ++ [.kill 11]) := by
  intro x hx
  simp only [raceHistory, List.mem_cons, List.not_mem_nil, or_false, List.mem_append] at hx
  rcases hx with (rfl | rfl | rfl | rfl | rfl | rfl | rfl | rfl | rfl | rfl | rfl | rfl) | rfl <;> simp

theorem race_absent (q : Int) : (Daemons.run { file := some 7, pidfile := none } (raceHistory ++ [.kill 11])).phase q = none := by
  by_cases hq : .start q ∈ raceHistory ++ [DEv.kill 11]
  · simp only [raceHistory, List.mem_cons, List.not_mem_nil, or_false, List.mem_append, DEv.start.injEq, reduceCtorEq, false_or] at hq
    rcases hq with rfl | rfl | rfl <;> decide +kernel
  · exact run_absent rfl _ hq

/-- After the race of `raceHistory`, with 11 killed. -/
example (a b c : Nat) : (Daemons.run { file := some 7, pidfile := none } (raceHistory ++ [.kill 11] ++ [.start 13, .step 13 a, .step 13 b, .step 13 c])).runs 13 7 :=
  C72_starts 7 none _ race_only 13 (by omega) (by omega) race_absent a b c

/-- C73.  A control command acts on the daemon that runs, if no other one is about to start. -/
theorem C73_control_partial (f : Nat) (t : Option (List UInt8)) (h : List DEv) (hm : Daemons.only h) (p self : Int) (hs : self ≠ p) (pick : Nat)
    (hp : (Daemons.run { file := some f, pidfile := t } h).runs p f)
    (hn : ∀ q, q ≠ p → ∀ x, (Daemons.run { file := some f, pidfile := t } h).phase q = some x → x = .opened f) :
    (Daemons.run { file := some f, pidfile := t } h).control self pick = some p := by
  have o := (DaemonOwn.init f t).run h (only_mine hm)
  generalize Daemons.run { file := some f, pidfile := t } h = s at o hn hp
  unfold Daemons.control
  rw [o.file]
  dsimp only
  obtain ⟨l, l1, l2, l3⟩ := o.inv.held p _ hp rfl
  have hc : l ∈ lockConflicts s.locks self f true := mem_conflicts.2 ⟨l1, by rw [l2]; exact Ne.symm hs, l3⟩
  have all : ∀ l ∈ lockConflicts s.locks self f true, l.pid = p := by
    intro l hl
    obtain ⟨x, x1, x2, _⟩ := o.own l (mem_conflicts.1 hl).1
    rcases Decidable.em (l.pid = p) with g | g
    · exact g
    · rw [hn l.pid g x x1] at x2; cases x2
  have pp := o.inv.pid p (by rw [hp]; intro g; cases g)
  rcases testLock_spec s.locks self f pick with ⟨g, _⟩ | ⟨l', g1, g2⟩
  · rw [g] at hc; cases hc
  · rw [g2, all l' g1, if_pos (show p ≠ 0 by omega)]

/-- C73.  The process a control command acts on was started as a daemon with this configuration (or is that of a pid file found at the beginning). -/
theorem C73_started (f : Nat) (h : List DEv) (hm : Daemons.only h) (self q : Int) (pick : Nat)
    (hc : (Daemons.run { file := some f } h).control self pick = some q) (hq : q ≠ 0) : .start q ∈ h := by
  have o := (DaemonOwn.init f none).run h (only_mine hm)
  -- processes and the text of the pid file come from starts
  have key : ∀ (h' : List DEv) (s : Daemons) (S : Int → Prop), (∀ p, s.phase p ≠ none → S p ∧ 1 < p ∧ p ≤ 2147483647) →
      (∀ x, s.pidfile = some x → ∃ p, S p ∧ 1 < p ∧ p ≤ 2147483647 ∧ x = pidText p) → s.file = some f → (∀ x ∈ h', x.mine = true) → (∀ p, .start p ∈ h' → S p) →
      (∀ p, (s.run h').phase p ≠ none → S p) ∧ (∀ x, (s.run h').pidfile = some x → ∃ p, S p ∧ 1 < p ∧ p ≤ 2147483647 ∧ x = pidText p) := by
    intro h'
    induction h' with
    | nil => intro s S a b _ _ _; exact ⟨fun p hp => (a p hp).1, b⟩
    | cons x r ih =>
      intro s S a b hf hx hS
      have ended : ∀ pid, (∀ p, (s.ended pid).phase p ≠ none → S p ∧ 1 < p ∧ p ≤ 2147483647) := by
        intro pid p hp
        have hp : (if p = pid then none else s.phase p) ≠ none := hp
        split at hp
        · exact absurd rfl hp
        · exact a p hp
      have hS' : ∀ p, DEv.start p ∈ r → S p := fun p hp => hS p (List.mem_cons_of_mem _ hp)
      have hx' : ∀ y ∈ r, y.mine = true := fun y hy => hx y (List.mem_cons_of_mem _ hy)
      show (∀ p, ((s.step x).run r).phase p ≠ none → S p) ∧ (∀ y, ((s.step x).run r).pidfile = some y → _)
      cases x with
      | start pid =>
        have hsp := hS pid List.mem_cons_self
        rw [Daemons.step]
        split
        · exact ih s S a b hf hx' hS'
        · rename_i hc
          rw [hf]
          refine ih _ S ?_ b hf hx' hS'
          intro p hp
          have hp : (if p = pid then some (DPhase.opened f) else s.phase p) ≠ none := hp
          split at hp
          · rename_i e; subst e
            refine ⟨hsp, ?_, ?_⟩
            · rcases Int.lt_or_le 1 p with g | g
              · exact g
              · exact absurd (Or.inl g) hc
            · rcases Int.lt_or_le 2147483647 p with g | g
              · exact absurd (Or.inr (Or.inl g)) hc
              · exact g
          · exact a p hp
      | step pid k =>
        rw [Daemons.step]
        unfold Daemons.advance
        have set : ∀ ph, s.phase pid ≠ none → ∀ p, (s.setPhase pid ph).phase p ≠ none → S p ∧ 1 < p ∧ p ≤ 2147483647 := by
          intro ph hne p hp
          rw [phase_set] at hp
          split at hp
          · rename_i e; subst e; exact a p hne
          · exact a p hp
        cases hp : s.phase pid with
        | none => exact ih s S a b hf hx' hS'
        | some ph =>
          have hne : s.phase pid ≠ none := by rw [hp]; intro g; cases g
          cases ph with
          | opened i =>
            dsimp only
            cases setLock s.locks pid i false with
            | none => exact ih _ S (ended pid) b hf hx' hS'
            | some t => exact ih _ S (set _ hne) b hf hx' hS'
          | locked i =>
            dsimp only
            split
            · exact ih _ S (set _ hne) b hf hx' hS'
            · exact ih _ S (set _ hne) b hf hx' hS'
          | refused i => exact ih _ S (ended pid) b hf hx' hS'
          | checked i =>
            refine ih _ S (set _ hne) ?_ hf hx' hS'
            intro x hx
            cases hx
            obtain ⟨s1, s2, s3⟩ := a pid hne
            exact ⟨pid, s1, s2, s3, rfl⟩
          | running i => exact ih s S a b hf hx' hS'
      | kill pid => exact ih _ S (ended pid) b hf hx' hS'
      | stop pid =>
        rw [Daemons.step]
        unfold Daemons.stopped
        split
        · exact ih _ S (ended pid) (fun _ h => by cases h) hf hx' hS'
        · exact ih _ S (ended pid) b hf hx' hS'
      | replace g => exact absurd (hx _ List.mem_cons_self) (by intro h; cases h)
      | other p i w => exact absurd (hx _ List.mem_cons_self) (by intro h; cases h)
  obtain ⟨k1, k2⟩ := key h { file := some f } (fun p => .start p ∈ h) (fun p hp => absurd rfl hp) (fun x hx => by cases hx) rfl (only_mine hm) (fun p hp => hp)
  generalize Daemons.run { file := some f } h = s at o hc k1 k2
  unfold Daemons.control at hc
  rw [o.file] at hc
  dsimp only at hc
  split at hc
  · rename_i ht
    cases hc
    rcases testLock_spec s.locks self f pick with ⟨_, g⟩ | ⟨l, g1, g2⟩
    · exact absurd g ht
    · rw [g2]
      obtain ⟨x, x1, _⟩ := o.own l (mem_conflicts.1 g1).1
      exact k1 l.pid (by rw [x1]; intro g; cases g)
  · cases hpf : s.pidfile with
    | none => rw [hpf] at hc; cases hc; exact absurd rfl hq
    | some x =>
      obtain ⟨p, p1, p2, p3, rfl⟩ := k2 x hpf
      rw [hpf, readPidfile_pidText p2 p3] at hc
      cases hc
      exact p1

/-- C73.  As long as a daemon runs, the pid file has its process id. -/
theorem C73_pidfile (f : Nat) (t : Option (List UInt8)) (h : List DEv) (hm : Daemons.only h) (p : Int) (hp : (Daemons.run { file := some f, pidfile := t } h).runs p f) :
    (Daemons.run { file := some f, pidfile := t } h).pidfile = some (pidText p) ∧ readPidfile (Daemons.run { file := some f, pidfile := t } h).pidfile = some p := by
  have o := (DaemonOwn.init f t).run h (only_mine hm)
  have e := o.pidfile p f hp
  obtain ⟨h1, h2⟩ := o.inv.pid p (by rw [hp]; intro g; cases g)
  exact ⟨e, by rw [e]; exact readPidfile_pidText h1 h2⟩

/-- C73 is false while another daemon starts: the command may be given the process that is about to be refused, and signals it instead of the daemon. -/
theorem C73_starter : ∃ (h : List DEv) (pick : Nat), Daemons.only h ∧ (Daemons.run { file := some 7 } h).runs 10 7 ∧ (Daemons.run { file := some 7 } h).control 99 pick = some 11 :=
  ⟨[.start 10, .step 10 0, .step 10 0, .step 10 0, .start 11, .step 11 0], 1, by
    intro x hx
    simp only [List.mem_cons, List.not_mem_nil, or_false] at hx
    rcases hx with rfl | rfl | rfl | rfl | rfl | rfl <;> simp, by decide +kernel, by decide +kernel⟩

/-- C73 is false of daemons that were killed: their pid file stays, and the command signals whatever process has got this id. -/
theorem C73_stale : ∃ h : List DEv, Daemons.only h ∧ (Daemons.run { file := some 7 } h).phase 10 = none ∧ (Daemons.run { file := some 7 } h).locks = [] ∧ (Daemons.run { file := some 7 } h).control 99 0 = some 10 :=
  ⟨[.start 10, .step 10 0, .step 10 0, .step 10 0, .kill 10], by
    intro x hx
    simp only [List.mem_cons, List.not_mem_nil, or_false] at hx
    rcases hx with rfl | rfl | rfl | rfl | rfl <;> simp, by decide +kernel, by decide +kernel, by decide +kernel⟩

/-- C73 is false of other programs with a lock of the file: they get the signal, although they are no daemons; and if the lock is of an open file description the process is -1,
which for `kill` is every process. -/
theorem C73_lock_holder : (Daemons.run { file := some 7 } [.other 50 7 false]).control 99 0 = some 50 ∧ (Daemons.run { file := some 7 } [.other (-1) 7 false]).control 99 0 = some (-1) := by
  decide +kernel

/-- C73 is false after the file is replaced: the command does not find the daemon by its lock, but by the pid file; and if then a second daemon is started and the first one
stops, it removes the pid file of the second one. -/
theorem C73_replaced : ∃ h : List DEv, (∀ p i w, DEv.other p i w ∉ h) ∧ (Daemons.run { file := some 7 } h).runs 11 8 ∧ (Daemons.run { file := some 7 } h).pidfile = none :=
  ⟨[.start 10, .step 10 0, .step 10 0, .step 10 0, .replace (some 8), .start 11, .step 11 0, .step 11 0, .step 11 0, .stop 10], by simp, by decide +kernel, by decide +kernel⟩

example : Daemons.only [.start 10, .step 10 0, .step 10 0, .step 10 0, .start 11] ∧
    (Daemons.run { file := some 7, pidfile := some (bs "55\n") } [.start 10, .step 10 0, .step 10 0, .step 10 0, .start 11]).runs 10 7 ∧
    (∀ q, q ≠ 10 → ∀ x, (Daemons.run { file := some 7, pidfile := some (bs "55\n") } [.start 10, .step 10 0, .step 10 0, .step 10 0, .start 11]).phase q = some x → x = .opened 7) ∧
    (Daemons.run { file := some 7, pidfile := some (bs "55\n") } [.start 10, .step 10 0, .step 10 0, .step 10 0, .start 11]).control 99 3 = some 10 ∧
    (Daemons.run { file := some 7, pidfile := some (bs "55\n") } [.start 10, .step 10 0, .step 10 0, .step 10 0, .start 11]).pidfile = some (bs "10\n") := by
  refine ⟨?_, by decide +kernel, ?_, by decide +kernel, by decide +kernel⟩
  · intro x hx
    simp only [List.mem_cons, List.not_mem_nil, or_false] at hx
    rcases hx with rfl | rfl | rfl | rfl | rfl <;> simp
  · intro q hq x hx
    by_cases h11 : q = 11
    · subst h11
      rw [show (Daemons.run { file := some 7, pidfile := some (bs "55\n") } [.start 10, .step 10 0, .step 10 0, .step 10 0, .start 11]).phase 11 = some (.opened 7) by decide +kernel] at hx
      cases hx; rfl
    · have : (Daemons.run { file := some 7, pidfile := some (bs "55\n") } [.start 10, .step 10 0, .step 10 0, .step 10 0, .start 11]).phase q = none := by
        simp [Daemons.run, Daemons.step, Daemons.advance, Daemons.setPhase, setLock, lockConflicts, testLock, dropLocks, hq, h11]
      rw [this] at hx; cases hx

/-! ### Logs -/

/-- No two logs of the daemon are the same file at the end of any part of the history, and the log of the daemon is never reopened as the file it is. -/
def LogLocks.apart (me : Int) (h : List LEv) : Prop :=
  ∀ a b, h = a ++ b → (∀ l l' i, (LogLocks.run me {} a).console l = some i → (LogLocks.run me {} a).console l' = some i → l = l') ∧
    (∀ l i, (LogLocks.run me {} a).console l = some i → (LogLocks.run me {} a).daemon ≠ some i) ∧
    (∀ i c, b = .daemon i :: c → (LogLocks.run me {} a).daemon ≠ some i ∧ ∀ l, (LogLocks.run me {} a).console l ≠ some i) ∧
    (∀ l i c, b = .console l i :: c → (LogLocks.run me {} a).daemon ≠ some i ∧ ∀ l', l' ≠ l → (LogLocks.run me {} a).console l' ≠ some i)

/-- C74.  Logs that are open are locked, if no two of them are the same file and the log of the daemon is a new file whenever it is reopened. -/
theorem C74_locked_partial (me : Int) (h : List LEv) (ha : LogLocks.apart me h) (i : Nat)
    (hi : (∃ l, (LogLocks.run me {} h).console l = some i) ∨ (LogLocks.run me {} h).daemon = some i) (p : Int) (hp : p ≠ me) (wr : Bool) :
    setLock (LogLocks.run me {} h).locks p i wr = none := by
  have key : ∀ b a, h = a ++ b → ((∀ l i, (LogLocks.run me {} a).console l = some i → ⟨me, i, true⟩ ∈ (LogLocks.run me {} a).locks) ∧
      (∀ i, (LogLocks.run me {} a).daemon = some i → ⟨me, i, true⟩ ∈ (LogLocks.run me {} a).locks)) →
      ((∀ l i, (LogLocks.run me {} h).console l = some i → ⟨me, i, true⟩ ∈ (LogLocks.run me {} h).locks) ∧
      (∀ i, (LogLocks.run me {} h).daemon = some i → ⟨me, i, true⟩ ∈ (LogLocks.run me {} h).locks)) := by
    intro b
    induction b with
    | nil => intro a e hh; rw [e, List.append_nil]; exact hh
    | cons x b ih =>
      intro a e hh
      obtain ⟨a1, a2, a3, a4⟩ := ha a (x :: b) e
      refine ih (a ++ [x]) (by rw [e]; simp) ?_
      have er : LogLocks.run me {} (a ++ [x]) = (LogLocks.run me {} a).step me x := by
        unfold LogLocks.run
        rw [List.foldl_append]
        rfl
      rw [er]
      generalize LogLocks.run me {} a = s at hh a1 a2 a3 a4
      obtain ⟨k1, k2⟩ := hh
      cases x with
      | console l ino =>
        obtain ⟨d1, d2⟩ := a4 l ino b rfl
        rw [LogLocks.step]
        unfold LogLocks.openConsole
        have ht1 : ∀ l' i, l' ≠ l → s.console l' = some i → ⟨me, i, true⟩ ∈ closeOld s.locks me (s.console l) :=
          fun l' i hl hc => mem_closeOld (k1 l' i hc) (fun old ho g => hl (a1 l' l i hc (by rw [ho, ← g.2])))
        have ht2 : ∀ i, s.daemon = some i → ⟨me, i, true⟩ ∈ closeOld s.locks me (s.console l) :=
          fun i hd => mem_closeOld (k2 i hd) (fun old ho g => a2 l old ho (by rw [hd, ← g.2]))
        dsimp only
        generalize closeOld s.locks me (s.console l) = t at ht1 ht2
        cases hs : setLock t me ino true with
        | none =>
          refine ⟨?_, ?_⟩
          · intro l' i hc
            have hc : (if l' = l then none else s.console l') = some i := hc
            split at hc
            · cases hc
            · rename_i hl
              exact mem_closeFile.2 ⟨ht1 l' i hl hc, fun g => d2 l' hl (by rw [hc, ← g.2])⟩
          · intro i hd
            exact mem_closeFile.2 ⟨ht2 i hd, fun g => d1 (by rw [← g.2]; exact hd)⟩
        | some t' =>
          have hm := setLock_mem hs
          refine ⟨?_, ?_⟩
          · intro l' i hc
            have hc : (if l' = l then some ino else s.console l') = some i := hc
            split at hc
            · cases hc; exact (hm _).2 (Or.inr rfl)
            · rename_i hl
              exact (hm _).2 (Or.inl ⟨ht1 l' i hl hc, fun g => d2 l' hl (by rw [hc, ← g.2])⟩)
          · intro i hd
            exact (hm _).2 (Or.inl ⟨ht2 i hd, fun g => d1 (by rw [← g.2]; exact hd)⟩)
      | daemon ino =>
        obtain ⟨d1, d2⟩ := a3 ino b rfl
        rw [LogLocks.step]
        unfold LogLocks.openDaemon
        cases hs : setLock s.locks me ino true with
        | none =>
          refine ⟨?_, fun i hd => by cases hd⟩
          intro l i hc
          exact mem_closeOld (mem_closeFile.2 ⟨k1 l i hc, fun g => d2 l (by rw [hc, ← g.2])⟩) (fun old ho g => a2 l i hc (by rw [ho, ← g.2]))
        | some t =>
          have hm := setLock_mem hs
          refine ⟨?_, ?_⟩
          · intro l i hc
            exact mem_closeOld ((hm _).2 (Or.inl ⟨k1 l i hc, fun g => d2 l (by rw [hc, ← g.2])⟩)) (fun old ho g => a2 l i hc (by rw [ho, ← g.2]))
          · intro i hd
            cases hd
            exact mem_closeOld ((hm _).2 (Or.inr rfl)) (fun old ho g => d1 (by rw [ho, ← g.2]))
      | other pid ino =>
        rw [LogLocks.step]
        split
        · exact ⟨k1, k2⟩
        · rename_i hpm
          cases hs : setLock s.locks pid ino true with
          | none => exact ⟨k1, k2⟩
          | some t =>
            have hm := setLock_mem hs
            exact ⟨fun l i hc => (hm _).2 (Or.inl ⟨k1 l i hc, fun g => hpm g.1.symm⟩), fun i hd => (hm _).2 (Or.inl ⟨k2 i hd, fun g => hpm g.1.symm⟩)⟩
      | free pid ino =>
        rw [LogLocks.step]
        split
        · exact ⟨k1, k2⟩
        · rename_i hpm
          exact ⟨fun l i hc => mem_closeFile.2 ⟨k1 l i hc, fun g => hpm g.1.symm⟩, fun i hd => mem_closeFile.2 ⟨k2 i hd, fun g => hpm g.1.symm⟩⟩
  obtain ⟨k1, k2⟩ := key h [] rfl ⟨(fun _ _ h => by cases h), (fun _ h => by cases h)⟩
  have hmem : ⟨me, i, true⟩ ∈ (LogLocks.run me {} h).locks := by
    rcases hi with ⟨l, hl⟩ | hd
    · exact k1 l i hl
    · exact k2 i hd
  unfold setLock
  rw [if_neg]
  intro g
  have : (⟨me, i, true⟩ : FLock) ∈ lockConflicts (LogLocks.run me {} h).locks p i wr := by
    unfold lockConflicts
    rw [List.mem_filter]
    exact ⟨hmem, by simp [Ne.symm hp]⟩
  rw [g] at this
  cases this

/-- Two console logs and that of the daemon, which are all rotated. -/
example : LogLocks.apart 5 [.daemon 1, .console 0 2, .console 1 3, .other 9 2, .daemon 4, .console 0 6, .console 1 3] := by
  intro a b e
  have : ∃ n, n ≤ 7 ∧ a = List.take n [.daemon 1, .console 0 2, .console 1 3, .other 9 2, .daemon 4, .console 0 6, .console 1 3] ∧
      b = List.drop n [.daemon 1, .console 0 2, .console 1 3, .other 9 2, .daemon 4, .console 0 6, .console 1 3] := by
    refine ⟨a.length, ?_, ?_, ?_⟩
    · have := congrArg List.length e
      simp at this
      omega
    · rw [e, List.take_left']; rfl
    · rw [e, List.drop_left']; rfl
  obtain ⟨n, hn, rfl, rfl⟩ := this
  have hc : n = 0 ∨ n = 1 ∨ n = 2 ∨ n = 3 ∨ n = 4 ∨ n = 5 ∨ n = 6 ∨ n = 7 := by omega
  rcases hc with rfl | rfl | rfl | rfl | rfl | rfl | rfl | rfl <;>
    (simp [LogLocks.run, LogLocks.step, LogLocks.openConsole, LogLocks.openDaemon, setLock, lockConflicts, closeOld, closeFile] <;> grind)

/-- C74 is false of the log of the daemon: if SIGHUP reopens it and it still is the same file, the old descriptor is closed after the file was locked by means of the
new one, and the lock is gone. -/
theorem C74_daemon_reopened : (LogLocks.run 5 {} [.daemon 1, .daemon 1]).daemon = some 1 ∧ setLock (LogLocks.run 5 {} [.daemon 1, .daemon 1]).locks 9 1 true ≠ none := by
  decide +kernel

/-- C74.  The log of a console is still locked if it is reopened as the same file. -/
theorem C74_console_reopened (me p : Int) (hp : p ≠ me) (l i : Nat) (s : LogLocks) (wr : Bool) (h : (s.openConsole me l i).console l = some i) :
    setLock (s.openConsole me l i).locks p i wr = none := by
  have hmem : ⟨me, i, true⟩ ∈ (s.openConsole me l i).locks := by
    unfold LogLocks.openConsole at h ⊢
    dsimp only at h ⊢
    cases hs : setLock (closeOld s.locks me (s.console l)) me i true with
    | none => rw [hs] at h; have h : (if l = l then none else s.console l) = some i := h; rw [if_pos rfl] at h; cases h
    | some t => exact (setLock_mem hs _).2 (Or.inr rfl)
  unfold setLock
  rw [if_neg]
  intro g
  have : (⟨me, i, true⟩ : FLock) ∈ lockConflicts (s.openConsole me l i).locks p i wr := by
    unfold lockConflicts
    rw [List.mem_filter]
    exact ⟨hmem, by simp [Ne.symm hp]⟩
  rw [g] at this
  cases this

example : ((LogLocks.run 5 {} [.console 0 1]).openConsole 5 0 1).console 0 = some 1 := by decide +kernel

/-- C74 is false of two logs that are the same file: reopening one of them closes the file, and while it is closed another process can lock it. -/
theorem C74_shared_file : ∃ h : List LEv, (LogLocks.run 5 {} h).console 0 = some 1 ∧ setLock (LogLocks.run 5 {} h).locks 9 1 true ≠ none :=
  ⟨[.console 0 1, .console 1 1, .console 1 2], by decide +kernel⟩

end Conman
