import Verif.Lemma.Watch
import Verif.Spec.Demo

/-
C115: someone who only watches is not noticed.
-/
namespace Conman
open Spec

theorem HidO.result {m : Nat} {a b : Option World} (h : HidO m a b) :
    (a = none ↔ b = none) ∧ ∀ w1 v1, a = some w1 → b = some v1 → Unseen m w1 v1 := by
  cases a with
  | none => cases b with
    | none => exact ⟨Iff.rfl, fun _ _ h _ => (nomatch h)⟩
    | some b => exact h.elim
  | some a => cases b with
    | none => exact h.elim
    | some b =>
      refine ⟨⟨fun h => (nomatch h), fun h => (nomatch h)⟩, fun w1 v1 e1 e2 => ?_⟩
      cases e1; cases e2; exact Hid.unseen h

/-- C115. A client `m` is connected by a request to monitor a console.  Whatever happens afterwards, as long as `m` does
not ask to write (it may type anything else, use every other command, read its output or not, and leave or lose its
connection at any time): the daemon survives if and only if it would have without this client and its request, and
afterwards every other object is as it would have been without `m`, except that `m` may be in lists of readers, the same
requests wait, the same was sent, and in the same order, to everybody else, and the same resets, breaks and kills were
made. -/
theorem C115_unseen {env : Env} {w : World} (hr : Reachable env w) {m k : Nat} {q : Req} (hq : w.wait[k]? = some q)
    (hc : q.cmd = .monitor) (hm : m ∉ w.live) (h : List Step) (hs : ∀ s ∈ h, onlyWatches m s = true) :
    (w.run env (.grant m k :: h) = none ↔
      ({ w with wait := w.wait.eraseIdx k } : World).run env (.check { cmd := .connect, consoles := [] } :: h.map (sansClient m)) = none) ∧
    ∀ w1 v1, w.run env (.grant m k :: h) = some w1 →
      ({ w with wait := w.wait.eraseIdx k } : World).run env (.check { cmd := .connect, consoles := [] } :: h.map (sansClient m)) = some v1 →
      Unseen m w1 v1 := by
  obtain ⟨hd, hl⟩ := hr.logs
  refine HidO.result ?_
  have e1 : w.step env (.grant m k) = some (({ w with wait := w.wait.eraseIdx k } : World).grant env m q) := by
    show some (match w.wait[k]? with
      | some q => if m ∈ w.live then w else ({ w with wait := w.wait.eraseIdx k } : World).grant env m q
      | none => w) = _
    rw [hq]
    dsimp only
    rw [if_neg hm]
  have hd1 := world_step_inv hd env (.grant m k) e1
  have h1 := grant_absorb (env := env) hd hl hq hc hm
  show HidO m ((w.step env (.grant m k)).bind _) ((World.step _ env (.check { cmd := .connect, consoles := [] })).bind _)
  rw [e1, idle_step]
  exact run_hid env h (HR.tick1 m _ _ h1)
    ⟨⟨⟨hd1.inv.l.sym, hd1.inv.l.kinds, hd1.inv.l.ndR, hd1.inv.l.ndW, hd1.inv.l.live⟩, hd1.inv.cs, hd1.inv.orph, hd1.inv.oi⟩, hd1.wait⟩ hs

/-- C115. The same for a client that already is connected and writes to no console, however it came to this (it may have
written before). -/
theorem C115_watching {env : Env} {w : World} (hr : Reachable env w) {m : Nat} (hk : (w.obj m).kind = .client)
    (hw : (w.obj m).readers = []) (h : List Step) (hs : ∀ s ∈ h, onlyWatches m s = true) :
    (w.run env h = none ↔ (without m w).run env (h.map (sansClient m)) = none) ∧
    ∀ w1 v1, w.run env h = some w1 → (without m w).run env (h.map (sansClient m)) = some v1 → Unseen m w1 v1 := by
  obtain ⟨hd, hl⟩ := hr.logs
  exact (run_hid env h (Hid.without hd hl hk hw) hd hs).result

/-- Console 0 with client 10, and a request to monitor it. -/
def watchPre : List Step := [.connUp 0, .check Demo.con, .grant 10 0, .check Demo.mon]

/-- Client 11 gets output, tries to break the connection, to reset the console, to type, has the log replayed, becomes
quiet, suspends its output, resumes it and leaves, while client 10 and the console work. -/
def watchRun : List Step :=
  [.poll 0 true (some (.data [0x61, 0x62])) none, .poll 11 true (some (.data [0x63, 0xFF, 0x42, 0xFF, 0x52, 0xFF])) (some (.accept 1)),
   .poll 11 true (some (.data [0x4C, 0xFF, 0x51])) none, .poll 10 true (some (.data [0x64, 0xFF, 0x52])) (some (.accept 100)),
   .poll 11 true (some (.data [0xFF, 0x5A])) none, .poll 0 true (some (.data [0x65])) (some (.accept 10)),
   .poll 11 true (some (.data [0xFF, 0x5A])) none, .poll 11 true (some .eof) none, .poll 11 true none (some .err), .poll 10 true none (some (.accept 100))]

/-- The hypotheses of `C115_unseen` and `C115_watching` hold for them; client 11 gets output in between, and is gone at
the end. -/
example : ∃ w, Reachable Demo.env w ∧ w.wait[0]? = some Demo.mon ∧ Demo.mon.cmd = .monitor ∧ 11 ∉ w.live ∧
    (∀ s ∈ watchRun, onlyWatches 11 s = true) ∧
    ((w.run Demo.env (.grant 11 0 :: watchRun)).map (fun v => decide (11 ∈ v.live))) = some false ∧
    ((w.run Demo.env (.grant 11 0 :: watchRun)).map (fun v => v.fx.filter (isSentTo 11))) = some [.sent 11 [0x61]] := by
  refine ⟨Demo.after watchPre, Demo.reach watchPre (by decide +kernel), by decide +kernel, rfl, by decide +kernel, by decide +kernel, by decide +kernel, by decide +kernel⟩

example : ∃ w, Reachable Demo.env w ∧ (w.obj 11).kind = .client ∧ (w.obj 11).readers = [] ∧ 11 ∈ w.live ∧ 11 ∈ (w.obj 0).readers := by
  refine ⟨Demo.after (watchPre ++ [.grant 11 0]), Demo.reach _ (by decide +kernel), by decide +kernel, by decide +kernel, by decide +kernel, by decide +kernel⟩

/-- Finding. Only the commands to write show: if client 11 types the one to join (`J`), client 10 is told. -/
theorem C115_joins : ∃ pre s, (¬ onlyWatches 11 s = true) ∧
    ((World.boot Demo.cfg).run Demo.env (pre ++ [s])).map (fun w => (w.obj 10).pend) = some [0x4A] ∧
    ((World.boot Demo.cfg).run Demo.env pre).map (fun w => (w.obj 10).pend) = some [] :=
  ⟨watchPre ++ [.grant 11 0], .poll 11 true (some (.data [0xFF, 0x4A])) none, by decide +kernel, by decide +kernel, by decide +kernel⟩

end Conman
