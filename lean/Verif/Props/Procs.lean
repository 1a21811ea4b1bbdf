import Verif.Lemma.Procs

/-
C97: which processes the daemon kills.
-/
namespace Conman
open Spec

/-- C97 in part: whatever happens, a process that is killed because a reset command took too long is one of that reset command, and one that is killed because
a console is closed is the console's program or of it.  Missing: the kernel may give a number that is noted to another process, see `C97_reused`. -/
theorem C97_kills_own_partial (d g : Nat) (bg : Bool) (others : List Proc) (es : List PEvent) (hn : NoReuse (Procs.start d g bg others) es) :
    ∀ x ∈ ((Procs.start d g bg others).run es).killed, KilledOwn x :=
  ((PInv.start d g bg others).run es hn).kl

/-- C97 in part: the daemon does not kill itself. -/
theorem C97_daemon_stays_partial (d g : Nat) (bg : Bool) (others : List Proc) (es : List PEvent) (hn : NoReuse (Procs.start d g bg others) es) :
    ∃ p ∈ ((Procs.start d g bg others).run es).ps, p.own = .daemon :=
  ((PInv.start d g bg others).run es hn).dm

/-- C97. When the timer of a reset command expires while its first process runs, its whole process group is killed and nothing else; another reset is possible then. -/
theorem C97_timer (s : Procs) (con pid run : Nat) (hr : s.reset con = some (pid, run)) (hp : ∃ p ∈ s.ps, p.pid = pid) :
    (∀ p, p ∈ (s.step (.timer con)).ps ↔ p ∈ s.ps ∧ p.pgid ≠ pid) ∧
    (∀ p ∈ s.ps, p.pgid = pid → (.timer con run, p) ∈ (s.step (.timer con)).killed) ∧ (s.step (.timer con)).reset con = none := by
  obtain ⟨p, hm, he⟩ := hp
  have hall : ¬ (s.ps.all fun p => p.pid ≠ pid) = true := by
    intro h
    rw [List.all_eq_true] at h
    exact absurd he (by simpa using h p hm)
  simp only [Procs.step, Procs.killReset, hr]
  rw [if_neg hall]
  refine ⟨?_, ?_, by simp⟩
  · intro p; simp
  · intro p hp hg
    refine List.mem_append_right _ (List.mem_map.2 ⟨p, List.mem_filter.2 ⟨hp, by simpa using hg⟩, rfl⟩)

/-- C97 in part: if no process left its group, no process of the reset command remains.  Missing: if the first process has ended, nothing is killed, see `C97_left_behind`. -/
theorem C97_all_gone_partial (d g : Nat) (bg : Bool) (others : List Proc) (ho : ∀ p ∈ others, p.own = .other) (es : List PEvent) (hn : NoReuse (Procs.start d g bg others) es)
    (hg : NoGroup es) (con pid run : Nat) (hr : ((Procs.start d g bg others).run es).reset con = some (pid, run)) (hp : ∃ p ∈ ((Procs.start d g bg others).run es).ps, p.pid = pid) :
    ∀ p ∈ ((Procs.start d g bg others).run (es ++ [.timer con])).ps, p.own ≠ .reset con run := by
  intro p hm ho'
  rw [Procs.run_append] at hm
  have hm' := ((C97_timer _ con pid run hr hp).1 p).1 hm
  exact hm'.2 ((GInv.run es (PInv.start d g bg others) (GInv.start d g bg ho) hn hg).rs con pid run hr p hm'.1 ho')

/-- C97. From when a reset command of a console is started until its timer expires no other reset command of this console is started, whatever happens. -/
theorem C97_one_reset (s : Procs) (con pid run : Nat) (hr : s.reset con = some (pid, run)) (es : List PEvent) (hes : .timer con ∉ es) :
    (s.run es).reset con = some (pid, run) ∧ ∀ p ∈ (s.run es).ps, ∀ r, p.own = .reset con r → ∃ q ∈ s.ps, q.own = .reset con r :=
  Procs.run_reset_noted es hr hes

/-- A second request for a reset before the first one's timer, with another console's reset in between. -/
example : let s := (Procs.start 11 10 true []).run [.reset 0 20]
    s.reset 0 = some (20, 0) ∧ .timer 0 ∉ [PEvent.reset 1 21, .reset 0 22, .exit 20, .timer 1, .reset 0 23] ∧
    (s.run [.reset 1 21, .reset 0 22]).ps.map Proc.own = [.daemon, .reset 0 0, .reset 1 1] ∧
    (s.run [.timer 0, .reset 0 22]).ps.map Proc.own = [.daemon, .reset 0 1] :=
  ⟨rfl, by decide, by decide, by decide⟩

/-- C97. When a process console is closed its program is killed. -/
theorem C97_close (s : Procs) (con pid run : Nat) (hr : s.prog con = some (pid, run)) :
    (∀ p, p ∈ (s.step (.close con)).ps ↔ p ∈ s.ps ∧ p.pid ≠ pid) ∧
    (∀ p ∈ s.ps, p.pid = pid → (.close con run, p) ∈ (s.step (.close con)).killed) ∧ (s.step (.close con)).prog con = none := by
  simp only [Procs.step, Procs.close, hr]
  refine ⟨?_, ?_, by simp⟩
  · intro p; simp
  · intro p hp hg
    exact List.mem_append_right _ (List.mem_map.2 ⟨p, List.mem_filter.2 ⟨hp, by simpa using hg⟩, rfl⟩)

/-- C97 in part: when a daemon in the background ends, the programs of all consoles, and what they started, are told to end, if they stayed in its group.
Missing: in the foreground, and for reset commands, nobody is told, see `C97_outlives`. -/
theorem C97_stop_partial (d g : Nat) (others : List Proc) (ho : ∀ p ∈ others, p.own = .other) (es : List PEvent) (hn : NoReuse (Procs.start d g true others) es) (hg : NoGroup es) :
    ∀ con run, ∀ p ∈ ((Procs.start d g true others).run es).ps, p.own = .program con run → p ∈ ((Procs.start d g true others).run (es ++ [.stop])).termed := by
  intro con run p hp hown
  have hb : ((Procs.start d g true others).run es).pgid = some g := Procs.run_pgid es _
  have h := (GInv.run es (PInv.start d g true others) (GInv.start d g true ho) hn hg).pr con run p hp hown
  rw [Procs.run_append]
  show p ∈ (Procs.step _ .stop).termed
  simp only [Procs.step, hb]
  exact List.mem_append_right _ (List.mem_filter.2 ⟨hp, by simpa using h⟩)

/-! ### What goes wrong -/

/-- The reset command of console 0, process 20, ends at once; before its timer expires the number is given to another process, not of the daemon, which starts a child.  Both are killed. -/
theorem C97_reused : ∃ es : List PEvent, ∃ p ∈ ((Procs.start 11 10 true [⟨1, 1, .other⟩]).run es).killed, p.2.own = .other ∧ ¬ KilledOwn p :=
  ⟨[.reset 0 20, .exit 20, .spawn 20, .fork 20 21, .timer 0], (.timer 0 0, ⟨21, 20, .other⟩), by decide, rfl, by intro h; cases h⟩

/-- The same for the program of a console; here it is the program of another console that is killed. -/
theorem C97_wrong_console : ∃ es : List PEvent, ∃ p, (.close 0 0, p) ∈ ((Procs.start 11 10 true []).run es).killed ∧ p.own = .program 1 1 :=
  ⟨[.open 0 20, .exit 20, .open 1 20, .close 0], ⟨20, 10, .program 1 1⟩, by decide, rfl⟩

/-- The first process of a reset command has ended, another one of it has not: when the timer expires nothing is killed, and as no process id is noted any more, nothing will be. -/
theorem C97_left_behind : ∃ es : List PEvent, NoReuse (Procs.start 11 10 true []) es ∧ NoGroup es ∧
    (∃ run, ((Procs.start 11 10 true []).run es).reset 0 = some (20, run)) ∧
    ∃ p ∈ ((Procs.start 11 10 true []).run (es ++ [.timer 0])).ps, p.own = .reset 0 0 ∧ ((Procs.start 11 10 true []).run (es ++ [.timer 0])).reset 0 = none := by
  refine ⟨[.reset 0 20, .fork 20 21, .exit 20], ?_, fun q h => by simp at h, ⟨0, rfl⟩, ⟨21, 20, .reset 0 0⟩, by decide, rfl, rfl⟩
  refine ⟨fun pid _ con r => ⟨nofun, nofun⟩, ?_, ?_, trivial⟩
  · intro pid h con r
    cases h
    refine ⟨fun h => ?_, nofun⟩
    have h : (if con = 0 then some (20, 0) else none) = some (21, r) := h
    split at h <;> cases h
  · intro pid h; cases h

/-- A program leaves a child behind when its console is closed: only the program itself is killed. -/
theorem C97_child_left : ∃ es : List PEvent, ∃ p ∈ ((Procs.start 11 10 true []).run es).ps, p.own = .program 0 0 ∧ ((Procs.start 11 10 true []).run es).prog 0 = none ∧
    ((Procs.start 11 10 true []).run es).killed = [(.close 0 0, ⟨20, 10, .program 0 0⟩)] :=
  ⟨[.open 0 20, .fork 20 21, .close 0], ⟨21, 10, .program 0 0⟩, by decide, rfl, rfl, by decide⟩

/-- A reset command is not told when the daemon ends, and in the foreground nobody is. -/
theorem C97_outlives : (∃ es : List PEvent, (∃ p ∈ ((Procs.start 11 10 true []).run (es ++ [.stop])).ps, p.own = .reset 0 0 ∧ p ∉ ((Procs.start 11 10 true []).run (es ++ [.stop])).termed)) ∧
    ∀ (d g : Nat) (others : List Proc) (es : List PEvent), ((Procs.start d g false others).run es).termed = [] :=
  ⟨⟨[.reset 0 20], ⟨20, 20, .reset 0 0⟩, by decide, rfl, by decide⟩, fun _ _ _ es => Procs.run_termed es _ rfl rfl⟩

/-- A reset command with a child that is killed when its timer expires; a program with a child that are told when the daemon ends.  No number is used again. -/
def Spec.procsDemo : List PEvent := [.open 1 30, .reset 0 20, .fork 20 21, .fork 30 31, .spawn 40]

example : NoReuse (Procs.start 11 10 true [⟨1, 1, .other⟩]) procsDemo ∧ NoGroup procsDemo ∧ ((Procs.start 11 10 true [⟨1, 1, .other⟩]).run procsDemo).reset 0 = some (20, 1) ∧
    (∃ p ∈ ((Procs.start 11 10 true [⟨1, 1, .other⟩]).run procsDemo).ps, p.pid = 20) ∧
    ((Procs.start 11 10 true [⟨1, 1, .other⟩]).run (procsDemo ++ [.timer 0])).killed = [(.timer 0 1, ⟨20, 20, .reset 0 1⟩), (.timer 0 1, ⟨21, 20, .reset 0 1⟩)] ∧
    ((Procs.start 11 10 true [⟨1, 1, .other⟩]).run (procsDemo ++ [.stop])).termed = [⟨11, 10, .daemon⟩, ⟨30, 10, .program 1 0⟩, ⟨31, 10, .program 1 0⟩] := by
  refine ⟨?_, fun q h => by simp [procsDemo] at h, rfl, by decide, by decide, by decide⟩
  have hu : ∀ pid, pid ≠ 20 → pid ≠ 30 → ∀ (f g : Nat → Option (Nat × Nat)), (∀ c, f c = none ∨ f c = some (20, 1)) → (∀ c, g c = none ∨ g c = some (30, 0)) →
      ∀ con r, f con ≠ some (pid, r) ∧ g con ≠ some (pid, r) := by
    intro pid h1 h2 f g hf hg con r
    constructor
    · rcases hf con with h | h <;> rw [h]
      · nofun
      · intro e; cases e; exact h1 rfl
    · rcases hg con with h | h <;> rw [h]
      · nofun
      · intro e; cases e; exact h2 rfl
  have hf : ∀ c : Nat, (if c = 0 then some (20, 1) else none) = none ∨ (if c = 0 then some (20, 1) else none) = some (20, 1) := by intro c; split <;> simp
  have hg : ∀ c : Nat, (if c = 1 then some (30, 0) else none) = none ∨ (if c = 1 then some (30, 0) else none) = some (30, 0) := by intro c; split <;> simp
  refine ⟨fun pid _ con r => ⟨nofun, nofun⟩, ?_, ?_, ?_, ?_, trivial⟩
  · intro pid h con r
    cases h
    refine ⟨nofun, fun h => ?_⟩
    have h : (if con = 1 then some (30, 0) else none) = some (20, r) := h
    split at h <;> cases h
  · intro pid h; cases h; exact hu 21 (by decide) (by decide) _ _ hf hg
  · intro pid h; cases h; exact hu 31 (by decide) (by decide) _ _ hf hg
  · intro pid h; cases h; exact hu 40 (by decide) (by decide) _ _ hf hg

end Conman
