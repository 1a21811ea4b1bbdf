import Verif.Lemma.OpeningSys

/-!
C106: descriptors, programs and timers of consoles, when consoles are opened by several threads.

Calls on one object that do not overlap leave nothing behind and close nothing of others.  But `check_console_state` opens consoles in the threads of clients, without a lock; calls then overlap, and
all of it fails.
-/
namespace Conman
open Spec

/-- In every history in which calls on one object do not overlap: the daemon goes on; only descriptors of its own are closed by an object or a client; whenever no call on an object is
being executed, its descriptor is the one noted and it has no other, a program that runs for it is the one noted, and an armed timer is the one noted; the descriptors of clients, and those that
were open before, stay open.  What is missing: that calls on one object do not overlap; it is false, see below. -/
theorem C106_calm_partial {kind : Nat → XKind} {given : Nat → Bool} {s : XSys} (h : XCalm kind given s) :
    s.dead = false ∧ (∀ q ∈ s.closed, q.1 = q.2) ∧
    (∀ i, Idle s i → (∀ n, s.tab n = some (.obj i) ↔ (s.obj i).fd = some n) ∧ (∀ p, (p, i) ∈ s.progs → (s.obj i).pid = some p) ∧ ∀ t w, (t, i, w) ∈ s.armed → (s.obj i).timer = some t) ∧
    (∀ c n, s.tab n = some (.client c) ↔ (c, n) ∈ s.clients) ∧ ∀ n, s.tab n = some .given ↔ given n = true := by
  have i := inv_calm h
  exact ⟨i.alive, i.closed, fun j hj => ⟨(i.idle j hj).fds, (i.idle j hj).kids, (i.idle j hj).tim⟩, i.cl, i.given'⟩

/-- One thread: no call begins before the last one has ended. -/
theorem C106_one_thread {kind : Nat → XKind} {given : Nat → Bool} {s s' : XSys} {e : XEv} (h : XCalm kind given s) (ht : s.threads = []) (hs : s.step e = some s') : XCalm kind given s' := by
  refine .step h ?_ hs
  have hi : ∀ i, Idle s i := fun i th hth => by rw [ht] at hth; cases hth
  cases e with
  | call i c => exact hi i
  | fire t => exact fun a _ _ => hi _
  | _ => trivial

set_option synthInstance.maxSize 1024 in
set_option synthInstance.maxHeartbeats 200000 in
/-- A telnet console that could not be opened at first; later it is, and then it is lost and opened again. -/
example : ∃ s, (XSys.start (fun _ => .telnet) (fun n => n == 3)).run (telnetFails ++ [.fire 0, go 0, go 0, go 0, go 0 { n := 10 }, .accept 7 11, go 0 { conn := .inProgress }, go 0, .call 0 .open] ++ List.replicate 8 (go 0) ++
      [.call 0 .shutdown] ++ List.replicate 9 (go 0)) = some s ∧ XCalm (fun _ => .telnet) (fun n => n == 3) s ∧ s.closed = [(.obj 0, .obj 0)] ∧ s.tab 10 = none ∧ s.tab 11 = some (.client 7) ∧
    s.threads = [] ∧ (s.obj 0).state = .down ∧ s.armed = [(2, 0, .connect)] := by
  have h : ((XSys.start (fun _ => .telnet) (fun n => n == 3)).run (telnetFails ++ [.fire 0, go 0, go 0, go 0, go 0 { n := 10 }, .accept 7 11, go 0 { conn := .inProgress }, go 0, .call 0 .open] ++ List.replicate 8 (go 0) ++
      [.call 0 .shutdown] ++ List.replicate 9 (go 0))).map (fun s => (s.closed, (s.tab 10, s.tab 11), s.threads, s.obj 0, s.armed)) =
    some ([(.obj 0, .obj 0)], (none, some (.client 7)), [], { kind := .telnet, timer := some 2 }, [(2, 0, .connect)]) := by decide +kernel
  obtain ⟨s, hs, he⟩ := Option.map_eq_some_iff.1 h
  refine ⟨s, hs, calm_run _ .start (by decide +kernel) hs, ?_⟩
  simp only [Prod.mk.injEq] at he
  exact ⟨he.1, he.2.1.1, he.2.1.2, he.2.2.1, by rw [he.2.2.2.1], he.2.2.2.2⟩

/-- **A descriptor is lost.**  Two clients ask at the same time for a telnet console that is down.  Both threads open a socket; the descriptor of the first is forgotten.  Whatever happens later, it
is not closed. -/
theorem C106_leak : ∃ s, (XSys.start (fun _ => .telnet) (fun _ => false)).run telnetBothUp = some s ∧ s.threads = [] ∧ (s.obj 0).fd = some 11 ∧
    ∀ evs s', s.run evs = some s' → s'.tab 10 = some (.obj 0) ∧ ∀ i, (s'.obj i).fd ≠ some 10 := by
  have h : ((XSys.start (fun _ => .telnet) (fun _ => false)).run telnetBothUp).map (fun s => (s.threads, (s.obj 0).fd, s.tab 10, s.clients)) = some ([], some 11, some (.obj 0), []) := by decide +kernel
  obtain ⟨s, hs, he⟩ := Option.map_eq_some_iff.1 h
  simp only [Prod.mk.injEq] at he
  obtain ⟨h1, h2, h3, h4⟩ := he
  refine ⟨s, hs, h1, h2, fun evs s' hr => ?_⟩
  have hz := zero_start (by decide) hs
  have hl : Lost s 10 := by
    refine ⟨by rw [h3]; exact fun h => (nomatch h), fun i => ?_, fun th hth => (by rw [h1] at hth; cases hth), fun c hc => (by rw [h4] at hc; cases hc)⟩
    by_cases hi : i = 0
    · rw [hi, h2]; decide
    · rw [hz.ob i hi]; exact fun h => (nomatch h)
  have := lost_run evs hl hr
  exact ⟨this.1.trans h3, this.2⟩

/-- **A program is lost.**  Two clients ask at the same time for a console that is a program.  It is started twice; the number of the first is forgotten.  Whatever happens later, it is not killed. -/
theorem C106_program : ∃ s, (XSys.start (fun _ => .process) (fun _ => false)).run processTwice = some s ∧ s.threads = [] ∧ (s.obj 0).pid = some 101 ∧ (100, 0) ∈ s.progs ∧ (101, 0) ∈ s.progs ∧
    ∀ evs s', .exit 100 ∉ evs → s.run evs = some s' → ∃ i, (100, i) ∈ s'.progs := by
  have h : ((XSys.start (fun _ => .process) (fun _ => false)).run processTwice).map (fun s => (s.threads, (s.obj 0).pid, s.progs)) = some ([], some 101, [(100, 0), (101, 0)]) := by decide +kernel
  obtain ⟨s, hs, he⟩ := Option.map_eq_some_iff.1 h
  simp only [Prod.mk.injEq] at he
  obtain ⟨h1, h2, h3⟩ := he
  refine ⟨s, hs, h1, h2, by rw [h3]; decide, by rw [h3]; decide, fun evs s' hx hr => ?_⟩
  have hz := zero_start (by decide) hs
  have hl : Stray s 100 := by
    refine ⟨⟨0, by rw [h3]; decide⟩, fun i => ?_, fun th hth => by rw [h1] at hth; cases hth⟩
    by_cases hi : i = 0
    · rw [hi, h2]; decide
    · rw [hz.ob i hi]; exact fun h => (nomatch h)
  exact (stray_run evs hl hx hr).1

/-- **The daemon ends.**  A client asks for a telnet console while another one's thread is connecting it. -/
theorem C106_ends : ∃ s, (XSys.start (fun _ => .telnet) (fun _ => false)).run telnetLate = some s ∧ s.dead = true := by
  have h : ((XSys.start (fun _ => .telnet) (fun _ => false)).run telnetLate).map (fun s => s.dead) = some true := by decide +kernel
  obtain ⟨s, hs, he⟩ := Option.map_eq_some_iff.1 h
  exact ⟨s, hs, he⟩

/-- **The connection of a third client is closed.**  Two threads of clients fail to connect a console and both close its descriptor; in between the number was given to another client, which then has
a connection without a descriptor. -/
theorem C106_foreign : ∃ s, (XSys.start (fun _ => .telnet) (fun _ => false)).run telnetBothFail = some s ∧ (.obj 0, .client 7) ∈ s.closed ∧ (7, 11) ∈ s.clients ∧ s.tab 11 = none := by
  have h : ((XSys.start (fun _ => .telnet) (fun _ => false)).run telnetBothFail).map (fun s => (s.closed, s.clients, s.tab 11)) = some ([(.obj 0, .obj 0), (.obj 0, .client 7)], [(7, 11)], none) := by decide +kernel
  obtain ⟨s, hs, he⟩ := Option.map_eq_some_iff.1 h
  simp only [Prod.mk.injEq] at he
  refine ⟨s, hs, by rw [he.1]; decide, by rw [he.2.1]; decide, he.2.2⟩

end Conman
