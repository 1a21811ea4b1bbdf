import Verif.Lemma.Kept
import Verif.Spec.Demo

/-
C116: a session goes on until its client ends it or its console is taken by force.
-/
namespace Conman
open Spec

/-- C116. While the descriptor of client `c` itself is not served, `c` stays connected, and all its links and its mark stay
as they are, whatever happens to the consoles and whatever others do; the only exception is that one of the consoles it writes
to is taken over. -/
theorem C116_kept {env : Env} {w w' : World} (hr : Reachable env w) {s : Step} (hs : w.step env s = some w') {c : Nat}
    (hk : (w.obj c).kind = .client) (hl : c ∈ w.live) (ho : ∀ up rd wr, s ≠ .poll c up rd wr) :
    c ∈ w'.live ∧ (w'.obj c).kind = .client ∧
    (((w'.obj c).readers = (w.obj c).readers ∧ (w'.obj c).writers = (w.obj c).writers ∧ (w'.obj c).eof = (w.obj c).eof) ∨
      ∃ con ∈ (w.obj c).readers, TakesOver w s con) := by
  have hd := hr.inv
  refine ⟨step_stays hd s hs hl ho, by rw [(step_live hd s hs).2.2 c hl]; exact hk, ?_⟩
  rcases step_sk hd s hs hk hl ho with g | ⟨d, k, q, con, g1, g2, g3, g4, g5, g6⟩ | ⟨d, up, b, wr, con, g1, g2, g3, g4, g5⟩
  · exact .inl ⟨g.rd, g.wr, g.eof⟩
  · exact .inr ⟨con, g6, .inl ⟨d, k, q, g1, g2, g3, g4, g5⟩⟩
  · refine .inr ⟨con, g5, .inr ⟨d, up, b, wr, g1, g2, g4, ?_⟩⟩
    unfold cmdsOf at g3
    rw [(unescRef_wire _ _).2] at g3
    exact g3

/-- C116. A client that only watches cannot lose its session by what others do. -/
theorem C116_watcher {env : Env} {w w' : World} (hr : Reachable env w) {s : Step} (hs : w.step env s = some w') {c : Nat}
    (hk : (w.obj c).kind = .client) (hl : c ∈ w.live) (hw : (w.obj c).readers = []) (ho : ∀ up rd wr, s ≠ .poll c up rd wr) :
    c ∈ w'.live ∧ (w'.obj c).readers = [] ∧ (w'.obj c).writers = (w.obj c).writers ∧ (w'.obj c).eof = (w.obj c).eof := by
  obtain ⟨h1, _, h2 | ⟨con, h2, _⟩⟩ := C116_kept hr hs hk hl ho
  · exact ⟨h1, by rw [h2.1, hw], h2.2⟩
  · rw [hw] at h2; cases h2

/-- C116. Over a history of any length in which nobody asks for force, a client that is not served keeps its session: its
consoles may lose their connection and get it back any number of times, others may come, join, watch and leave. -/
theorem C116_history {env : Env} {w w' : World} (hr : Reachable env w) {c : Nat} (hk : (w.obj c).kind = .client) (hl : c ∈ w.live)
    (hw : ∀ q ∈ w.wait, q.force = false) {h : List Step} (hs : ∀ s ∈ h, leavesAlone c s = true) (hrun : w.run env h = some w') :
    c ∈ w'.live ∧ (w'.obj c).readers = (w.obj c).readers ∧ (w'.obj c).writers = (w.obj c).writers ∧ (w'.obj c).eof = (w.obj c).eof := by
  obtain ⟨h1, h2⟩ := run_sk h hr.inv hk hl hw hs hrun
  exact ⟨h1, h2.rd, h2.wr, h2.eof⟩

theorem some_getD {α} {x : Option α} (h : x.isSome = true) (d : α) : x = some (x.getD d) := by
  cases x with
  | none => cases h
  | some a => rfl

/-- Client 10 writes to console 0, whose connection breaks and comes back; client 11 joins, 12 watches, 11 leaves. -/
def keptRun : List Step :=
  [.poll 0 false (some .err) none, .check (Demo.con false true), .grant 11 0, .connUp 0, .poll 0 true (some (.data [0x61])) none,
   .check Demo.mon, .grant 12 0, .poll 11 true (some .err) none, .poll 0 true (some .eof) none]

example : ∃ w w', Reachable Demo.env w ∧ (w.obj 10).kind = .client ∧ 10 ∈ w.live ∧ w.wait = [] ∧ (∀ s ∈ keptRun, leavesAlone 10 s = true) ∧
    w.run Demo.env keptRun = some w' ∧ (w.obj 10).readers = [0] ∧ (w'.obj 0).writers = [10] ∧ 11 ∉ w'.live ∧ 12 ∈ w'.live := by
  have hsome : ((Demo.after Demo.one).run Demo.env keptRun).isSome = true := by decide +kernel
  refine ⟨Demo.after Demo.one, ((Demo.after Demo.one).run Demo.env keptRun).getD (World.boot []), Demo.reach _ (by decide +kernel), by decide +kernel, by decide +kernel, by decide +kernel, by decide +kernel,
    some_getD hsome _, by decide +kernel, by decide +kernel, by decide +kernel, by decide +kernel⟩

/-- The hypotheses of `C116_kept` and `C116_watcher` hold when console 0 breaks while 10 writes to it and 12 watches it. -/
example : ∃ w w', Reachable Demo.env w ∧ w.step Demo.env (.poll 0 false (some .err) none) = some w' ∧ (w.obj 10).kind = .client ∧ 10 ∈ w.live ∧
    (w.obj 10).readers = [0] ∧ (w.obj 12).kind = .client ∧ 12 ∈ w.live ∧ (w.obj 12).readers = [] ∧ (w'.obj 0).fd = false := by
  have hsome : ((Demo.after Demo.three).step Demo.env (.poll 0 false (some .err) none)).isSome = true := by decide +kernel
  refine ⟨Demo.after Demo.three, ((Demo.after Demo.three).step Demo.env (.poll 0 false (some .err) none)).getD (World.boot []), Demo.reach _ (by decide +kernel), some_getD hsome _, by decide +kernel, by decide +kernel,
    by decide +kernel, by decide +kernel, by decide +kernel, by decide +kernel, by decide +kernel⟩

/-- The exception is real: client 12 types `&F`, and client 10 has no console any more. -/
theorem C116_taken : ∃ w w' s, Reachable Demo.env w ∧ w.step Demo.env s = some w' ∧ (∀ up rd wr, s ≠ .poll 10 up rd wr) ∧
    (w.obj 10).readers = [0] ∧ (w'.obj 10).readers = [] ∧ TakesOver w s 0 := by
  have hsome : ((Demo.after Demo.three).step Demo.env (.poll 12 true (some (.data [0xFF, 0x46])) none)).isSome = true := by decide +kernel
  refine ⟨Demo.after Demo.three, ((Demo.after Demo.three).step Demo.env (.poll 12 true (some (.data [0xFF, 0x46])) none)).getD (World.boot []), .poll 12 true (some (.data [0xFF, 0x46])) none, Demo.reach _ (by decide +kernel), some_getD hsome _,
    (by intro up rd wr e; simp at e), by decide +kernel, by decide +kernel,
    .inr ⟨12, true, [0xFF, 0x46], none, rfl, by decide +kernel, by decide +kernel, by decide +kernel⟩⟩

end Conman
