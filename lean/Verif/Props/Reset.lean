import Verif.Lemma.WorldReset
import Verif.Spec.Demo

/-
C52: reset commands.  `w.running` are the reset commands running, with their consoles; `resetTimer` tells whether the timer
whose expiration is `Step.resetTimeout` is set.
-/
namespace Conman

/-- C52. At most one reset command runs per console. -/
theorem C52_one_per_console {env : Env} {w : World} (h : Reachable env w) (con : Nat) :
    (w.running.filter (fun x => x.1 = con)).length ≤ 1 := by
  have r := h.rinv
  have all : ∀ x ∈ w.running.filter (fun x => x.1 = con), ∀ y ∈ w.running.filter (fun x => x.1 = con), x = y := by
    rintro ⟨a, p⟩ hx ⟨b, q⟩ hy
    rw [List.mem_filter, decide_eq_true_eq] at hx hy
    obtain ⟨hx, rfl⟩ := hx
    obtain ⟨hy, hb⟩ := hy
    dsimp only at hb hy
    subst hb
    have e1 := (r.pid _ _ hx).1
    have e2 := (r.pid _ _ hy).1
    rw [e1] at e2
    simp only [Option.some.injEq] at e2
    rw [e2]
  have nd : (w.running.filter (fun x => x.1 = con)).Nodup := r.nodup.filter _
  generalize w.running.filter (fun x => x.1 = con) = l at all nd
  match l, all, nd with
  | [], _, _ => simp
  | [_], _, _ => simp
  | a :: b :: l, all, nd =>
    have := all a (by simp) b (by simp)
    rw [List.nodup_cons] at nd
    exact absurd (by simp [this]) nd.1

/-- C52. While a reset command runs, the timer that terminates it is set. -/
theorem C52_timer_set {env : Env} {w : World} (h : Reachable env w) (con p : Nat) (hr : (con, p) ∈ w.running) :
    (w.obj con).resetTimer = true ∧ con ∈ w.live ∧ (w.obj con).kind.isConsole = true :=
  ⟨(h.rinv.pid con p hr).2, h.rinv.live con p hr⟩

/-- C52. When the timer of a console expires, its reset command is killed if it still runs, and no other one. -/
theorem C52_timeout_kills {env : Env} {w w' : World} (h : Reachable env w) (con : Nat)
    (hs : w.step env (.resetTimeout con) = some w') :
    (∀ q, (con, q) ∉ w'.running) ∧ (∀ c q, c ≠ con → ((c, q) ∈ w'.running ↔ (c, q) ∈ w.running)) ∧
    (∀ p, (con, p) ∈ w.running → w'.fx = w.fx ++ [.kill con p]) ∧
    ((∀ p, (con, p) ∉ w.running) → w'.fx = w.fx) := by
  have r := h.rinv
  simp only [World.step, Option.some.injEq] at hs
  split at hs
  case isFalse hf =>
    subst hs
    have : ∀ p, (con, p) ∉ w.running := fun p hm => hf (r.pid con p hm).2
    exact ⟨this, fun _ _ _ => Iff.rfl, fun p hm => absurd hm (this p), fun _ => rfl⟩
  split at hs
  · rename_i hp
    subst hs
    have : ∀ p, (con, p) ∉ w.running := fun p hm => by have := (r.pid con p hm).1; rw [hp] at this; simp at this
    exact ⟨this, fun _ _ _ => Iff.rfl, fun p hm => absurd hm (this p), fun _ => rfl⟩
  · rename_i p hp
    have huniq : ∀ q, (con, q) ∈ w.running → q = p := by
      intro q hm
      have := (r.pid con q hm).1
      rw [hp] at this; simpa using this.symm
    split at hs
    · rename_i hin
      subst hs
      refine ⟨fun q hm => ?_, fun c q hc => ?_, fun q hm => ?_, fun hn => absurd hin (hn p)⟩
      · replace hm : (con, q) ∈ w.running.filter (· ≠ (con, p)) := hm
        rw [List.mem_filter, decide_eq_true_eq] at hm
        exact hm.2 (by rw [huniq q hm.1])
      · show (c, q) ∈ w.running.filter (· ≠ (con, p)) ↔ _
        rw [List.mem_filter, decide_eq_true_eq]
        exact ⟨fun g => g.1, fun g => ⟨g, fun e => hc (by simpa using (congrArg Prod.fst e))⟩⟩
      · rw [huniq q hm]; rfl
    · rename_i hin
      subst hs
      have : ∀ q, (con, q) ∉ w.running := fun q hm => by rw [huniq q hm] at hm; exact hin hm
      exact ⟨this, fun _ _ _ => Iff.rfl, fun p hm => absurd hm (this p), fun _ => rfl⟩

/-- Client 10 resets console 0 (twice); then another client does; then the time limit passes. -/
example : let ss := Demo.three ++ [.poll 10 true (some (.data [0xFF, 0x52, 0xFF, 0x52])) none, .poll 11 true (some (.data [0xFF, 0x52])) none]
    let w := Demo.after ss
    let w' := Demo.after (ss ++ [.resetTimeout 0])
    Reachable Demo.env w ∧ w.running = [(0, 108)] ∧ w.fx = [.resetStart 0 108] ∧ w'.running = [] ∧
    w'.fx = [.resetStart 0 108, .kill 0 108] :=
  ⟨Demo.reach _ (by decide +kernel), by decide +kernel, by decide +kernel, by decide +kernel, by decide +kernel⟩

/-- Finding. A reset command that has ended by itself still counts as active until its time limit: the next reset is refused
with the message "still active" although no command runs. -/
theorem C52_ended_blocks :
    ∃ w, Reachable Demo.env w ∧ w.running = [] ∧ (w.obj 0).resetPid = some 108 ∧ (w.obj 0).resetCmd = true ∧ (w.obj 10).readers = [0] ∧
      (w.step Demo.env (.poll 10 true (some (.data [0xFF, 0x52])) none)).map (fun w' => (w'.fx, w'.running)) = some (w.fx, []) :=
  ⟨Demo.after (Demo.three ++ [.poll 10 true (some (.data [0xFF, 0x52])) none, .childExit 0 108]),
    Demo.reach _ (by decide +kernel), by decide +kernel, by decide +kernel, by decide +kernel, by decide +kernel, by decide +kernel⟩

end Conman
