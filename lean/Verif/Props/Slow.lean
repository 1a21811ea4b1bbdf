import Verif.Lemma.Slow
import Verif.Spec.Demo

/-
C114: a client that does not read its output does not hold up or change anything for others.
-/
namespace Conman
open Spec

/-- C114. Two histories in which the same happens, except for when and how much of its output one connected client `m`
takes (nothing at all, one byte now and then, everything at once): if `m` stays connected in the first, it does in the
second, the daemon survives the second if it survives the first, and afterwards every other object is the same, the same
requests wait, the same was sent, and in the same order, to everybody else, and the same resets, breaks and kills were
made.  Of `m` itself everything is the same but the output that still waits for it. -/
theorem C114_slow {env : Env} {w : World} (hr : Reachable env w) (m : Nat) {h h' : List Step}
    (hc : StaysConnected env m w h)
    (ho : ∀ s ∈ h, keepsOpen m s = true) (ho' : ∀ s ∈ h', keepsOpen m s = true)
    (hs : h'.map (sansOutput m) = h.map (sansOutput m)) :
    StaysConnected env m w h' ∧
    (w.run env h' = none ↔ w.run env h = none) ∧
    ∀ w1 w1', w.run env h = some w1 → w.run env h' = some w1' →
      (∀ j, j ≠ m → w1'.obj j = w1.obj j) ∧ w1'.live = w1.live ∧ w1'.wait = w1.wait ∧ w1'.running = w1.running ∧
      w1'.fx.filter (fun e => !isSentTo m e) = w1.fx.filter (fun e => !isSentTo m e) ∧
      w1'.obj m = { w1.obj m with pend := (w1'.obj m).pend, pout := (w1'.obj m).pout } := by
  obtain ⟨s, r⟩ := run_slow hr.einv hc ho ho' hs
  refine ⟨s, ?_, fun w1 w1' e e' => ?_⟩
  · cases e : w.run env h with
    | none =>
      cases e' : w.run env h' with
      | none => simp
      | some b => rw [e, e'] at r; exact r.elim
    | some a =>
      cases e' : w.run env h' with
      | none => rw [e, e'] at r; exact r.elim
      | some b => simp
  · rw [e, e'] at r
    have r : Mute m w1 w1' := r
    refine ⟨r.obj, r.live, r.wait, r.running, r.fx, ?_⟩
    obtain ⟨p, q, e⟩ := r.self
    rw [e]

/-- Console 0 with its log, clients 10 and 11, where 11 takes everything. -/
def slowPre : List Step :=
  [.connUp 0, .check Demo.con, .grant 10 0, .check (Demo.con false true), .grant 11 0]

/-- Client 10 reads. -/
def slowReads : List Step :=
  [.poll 0 true (some (.data [0x61, 0x62])) none, .poll 10 true (some (.data [0x63])) (some (.accept 1000)),
   .poll 11 true none (some (.accept 1000)), .poll 10 true none (some (.accept 1)), .poll 0 true none (some (.accept 10))]

/-- Client 10 does not. -/
def slowIgnores : List Step :=
  [.poll 0 true (some (.data [0x61, 0x62])) none, .poll 10 true (some (.data [0x63])) none,
   .poll 11 true none (some (.accept 1000)), .check { cmd := .connect, consoles := [] }, .poll 0 true none (some (.accept 10))]

/-- The hypotheses of `C114_slow` hold for them, and client 10 is left with different output. -/
example : ∃ w, Reachable Demo.env w ∧ StaysConnected Demo.env 10 w slowReads ∧
    (∀ s ∈ slowReads, keepsOpen 10 s = true) ∧ (∀ s ∈ slowIgnores, keepsOpen 10 s = true) ∧
    slowIgnores.map (sansOutput 10) = slowReads.map (sansOutput 10) ∧
    ((w.run Demo.env slowReads).map (fun v => (v.obj 10).pend)) ≠ ((w.run Demo.env slowIgnores).map (fun v => (v.obj 10).pend)) := by
  have hb : (((World.boot Demo.cfg).run Demo.env slowPre).map (fun w => staysOk Demo.env 10 w slowReads &&
      decide (((w.run Demo.env slowReads).map (fun v => (v.obj 10).pend)) ≠ ((w.run Demo.env slowIgnores).map (fun v => (v.obj 10).pend))))) = some true := by
    decide +kernel
  cases e : (World.boot Demo.cfg).run Demo.env slowPre with
  | none => rw [e] at hb; cases hb
  | some w =>
    rw [e] at hb
    simp only [Option.map_some, Option.some.injEq, Bool.and_eq_true, decide_eq_true_eq] at hb
    exact ⟨w, ⟨Demo.cfg, slowPre, by decide, e⟩, staysOk_stays _ _ _ _ hb.1, by decide, by decide, by rfl, hb.2⟩

/-- Finding. It is otherwise when the client has ended its side of the connection: then the daemon closes the connection
only when the client has taken all its output, and until then its consoles are busy for others.  The two histories differ
only in whether client 10 takes its output; after the first, a new request for the console is granted, after the second
it is refused. -/
theorem C114_ended : ∃ pre h h' : List Step, h'.map (sansOutput 10) = h.map (sansOutput 10) ∧
    ((World.boot Demo.cfg).run Demo.env (pre ++ h)).map (fun w => (w.validate Demo.con, decide (10 ∈ w.live))) =
      some (none, false) ∧
    ((World.boot Demo.cfg).run Demo.env (pre ++ h')).map (fun w => (w.validate Demo.con, decide (10 ∈ w.live))) =
      some (some .busy, true) :=
  ⟨[.connUp 0, .check Demo.con, .grant 10 0, .poll 0 true (some (.data [0x61, 0x62])) none, .poll 10 true (some .eof) none],
   [.poll 10 true none (some (.accept 1000))], [.check { cmd := .connect, consoles := [] }], by rfl, by decide +kernel, by decide +kernel⟩

end Conman
