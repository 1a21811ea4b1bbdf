import Verif.Lemma.AuditStep
import Verif.Spec.Demo

/-
C110: the log of the daemon tells who is connected to what.
`w.audits env ss` are the messages about clients in the history `ss` that begins in `w`, `w.auditEnd p g` those at the end of the daemon.
-/
namespace Conman
open Spec

variable {env : Env} {cfg : List ConConf} {ss : List Step} {w : World}

/-- C110. At any time the clients that are connected are those that the log says are connected: their last message is not that they are gone. -/
theorem C110_sessions (hcfg : ∀ c ∈ cfg, c.kind.isConsole = true) (hr : (World.boot cfg).run env ss = some w) (c : Nat) :
    (c ∈ w.live ∧ (w.obj c).kind = .client) ↔ OnRecord c ((World.boot cfg).audits env ss) := by
  have h := audit_run ss (audit_boot cfg hcfg) hr
  rw [List.nil_append] at h
  exact h.on c

/-- C110. The messages come in turn: that a client is gone is told exactly if before it was connected according to the log; no session is told to begin or to end twice. -/
theorem C110_turns (hcfg : ∀ c ∈ cfg, c.kind.isConsole = true) (hr : (World.boot cfg).run env ss = some w) : Regular ((World.boot cfg).audits env ss) := by
  have h := audit_run ss (audit_boot cfg hcfg) hr
  rw [List.nil_append] at h
  exact h.reg

/-- C110. A client is linked to no console other than the one of its last message; a client that broadcasts reads from no console, and writes to at most as many as it says. -/
theorem C110_consoles (hcfg : ∀ c ∈ cfg, c.kind.isConsole = true) (hr : (World.boot cfg).run env ss = some w) {c : Nat} (hl : c ∈ w.live) (hk : (w.obj c).kind = .client) :
    ∃ a, lastOf c ((World.boot cfg).audits env ss) = some a ∧ Covers (w.obj c).readers (w.obj c).writers a := by
  have h := audit_run ss (audit_boot cfg hcfg) hr
  rw [List.nil_append] at h
  obtain ⟨a, ha, _⟩ := (h.on c).mp ⟨hl, hk⟩
  refine ⟨a, ha, ?_⟩
  have := h.cov c a hl hk ha
  cases a with
  | readOnly x con => exact this
  | readWrite x con => exact this
  | broadcast x n =>
    obtain ⟨⟨cons, h1, h2⟩, h3⟩ := this
    exact ⟨by rw [← h1]; exact nodup_le (h.d.inv.l.ndR c) h2, h3⟩
  | gone x => exact this

/-- C110. When the daemon ends, after any history, every session is told to have ended, once: then nobody is connected according to the log. -/
theorem C110_end (hcfg : ∀ c ∈ cfg, c.kind.isConsole = true) (hr : (World.boot cfg).run env ss = some w) (p : Bool) (g : Option Nat) :
    Regular ((World.boot cfg).audits env ss ++ w.auditEnd p g) ∧ ∀ c, ¬ OnRecord c ((World.boot cfg).audits env ss ++ w.auditEnd p g) := by
  have h := audit_run ss (audit_boot cfg hcfg) hr
  rw [List.nil_append] at h
  have hn : w.live.Nodup := Reachable.nodup ⟨cfg, ss, hcfg, hr⟩
  rw [auditEnd_eq]
  obtain ⟨h1, h2⟩ := audit_end_list (w.live.filter fun i => (w.obj i).kind = .client) h.reg (hn.filter _)
    (fun c hc => (h.on c).mp (by simpa using List.mem_filter.mp hc))
  refine ⟨h1, fun c hc => ?_⟩
  obtain ⟨ho, hm⟩ := (h2 c).mp hc
  exact hm (List.mem_filter.mpr (by simpa using (h.on c).mpr ho))

/- Full statement of C110 for modes: a client that is on record as read-only cannot write to a console.  It does not hold: switches between modes are not told (`C110_mode`). -/

/-- C110 in part: a client that is on record as read-only, and in no read of which there was a command to switch modes, writes to no console.
Missing: clients that switch (`C110_mode`). -/
theorem C110_mode_partial (hcfg : ∀ c ∈ cfg, c.kind.isConsole = true) (hr : (World.boot cfg).run env ss = some w) {c : Nat} (hn : NoSwitch env c (World.boot cfg) ss)
    (ho : OnRecordReadOnly c ((World.boot cfg).audits env ss)) : (w.obj c).readers = [] :=
  mode_run ss (audit_boot cfg hcfg) (fun ⟨_, e⟩ => (nomatch e)) hr hn ho

/-- C110, what fails: client 7 has asked to read the console and sends `&F`, then `x`, which is on its way to the console: according to the log the session is read-only.
Client 8 has asked to read and write, but lost the right to write: according to the log it has it. -/
theorem C110_mode : ∃ ss : List Step, ∃ w : World, (World.boot [{ kind := .serial }]).run Demo.env ss = some w ∧
    lastOf 7 ((World.boot [{ kind := .serial }]).audits Demo.env ss) = some (.readOnly 7 0) ∧ (w.obj 7).readers = [0] ∧ (w.obj 0).pend = [0x78] ∧
    lastOf 8 ((World.boot [{ kind := .serial }]).audits Demo.env ss) = some (.readWrite 8 0) ∧ 8 ∈ w.live ∧ (w.obj 8).readers = [] := by
  refine ⟨[.connUp 0, .check { cmd := .connect, consoles := [0] }, .grant 8 0, .check { cmd := .monitor, consoles := [0] }, .grant 7 0,
    .poll 8 true (some (.data [0xFF, 0x4D])) none, .poll 7 true (some (.data [0xFF, 0x46, 0x78])) none], ?_⟩
  cases h : (World.boot [{ kind := .serial }]).run Demo.env [.connUp 0, .check { cmd := .connect, consoles := [0] }, .grant 8 0,
    .check { cmd := .monitor, consoles := [0] }, .grant 7 0, .poll 8 true (some (.data [0xFF, 0x4D])) none, .poll 7 true (some (.data [0xFF, 0x46, 0x78])) none] with
  | none =>
    have : ((World.boot [{ kind := .serial }]).run Demo.env [.connUp 0, .check { cmd := .connect, consoles := [0] }, .grant 8 0,
      .check { cmd := .monitor, consoles := [0] }, .grant 7 0, .poll 8 true (some (.data [0xFF, 0x4D])) none, .poll 7 true (some (.data [0xFF, 0x46, 0x78])) none]).isSome = true := by
      decide +kernel
    rw [h] at this; cases this
  | some w =>
    have hw : ((World.boot [{ kind := .serial }]).run Demo.env [.connUp 0, .check { cmd := .connect, consoles := [0] }, .grant 8 0,
      .check { cmd := .monitor, consoles := [0] }, .grant 7 0, .poll 8 true (some (.data [0xFF, 0x4D])) none, .poll 7 true (some (.data [0xFF, 0x46, 0x78])) none]).map (fun w =>
      ((w.obj 7).readers, (w.obj 0).pend, decide (8 ∈ w.live), (w.obj 8).readers)) = some ([0], [0x78], true, []) := by decide +kernel
    rw [h, Option.map_some, Option.some.injEq] at hw
    simp only [Prod.mk.injEq] at hw
    exact ⟨w, rfl, by decide +kernel, hw.1, hw.2.1, by decide +kernel, of_decide_eq_true hw.2.2.1, hw.2.2.2⟩

/-- A client that broadcasts, one that reads and one that reads and writes; the first and the second leave, and the number of the first is used again; then SIGTERM. -/
def Spec.auditDemo : List Step := [.connUp 0, .connUp 2, .check { cmd := .connect, consoles := [0, 2], bcast := true }, .grant 7 0, .check { cmd := .monitor, consoles := [0] }, .grant 8 0,
  .check { cmd := .connect, consoles := [2], join := true }, .grant 9 0, .poll 7 true (some .eof) none, .poll 8 true (some .eof) none, .poll 7 true none (some (.accept 900)),
  .poll 8 true none (some (.accept 900)), .check { cmd := .connect, consoles := [0] }, .grant 7 0]

example : ((World.boot [{ kind := .serial }, { kind := .serial }]).run Demo.env auditDemo).map (fun w =>
      ((World.boot [{ kind := .serial }, { kind := .serial }]).audits Demo.env auditDemo, w.live, (w.obj 7).readers, (w.obj 9).writers, w.auditEnd true none)) =
    some ([.broadcast 7 2, .readOnly 8 0, .readWrite 9 2, .gone 8, .gone 7, .readWrite 7 0], [0, 2, 9, 7], [0], [2], [.gone 9, .gone 7]) := by decide +kernel

end Conman
