import Verif.Lemma.WorldScreen
import Verif.Spec.Demo

/-
C93: what a client is sent.  The vocabulary is in `Spec/Screen.lean`.
-/
namespace Conman
open Spec

/-- C93. Through any history in which a client stays: there is a list of entries, each a piece of console output, a message of the
daemon or the replay of a log, such that the console output in it is all output of the client's consoles, in order; and the bytes
sent to the client and those that wait for it are taken, in order, from those that waited at the start and these entries.  Replays
are among them only if the client has sent a command for one. -/
theorem C93_nothing_else {env : Env} (hv : ShowEnv env) {w w' : World} (h : Reachable env w) (c : Nat) (ss : List Step)
    (hr : w.run env ss = some w') (hl : c ∈ w.live) (hk : (w.obj c).kind = .client) (hng : ss.all (noGrant c) = true)
    (hlen : ∀ i up d wr, .poll i up (some (.data d)) wr ∈ ss → d.length ≤ 8191) (hl' : c ∈ w'.live) (he' : (w'.obj c).eof = false) :
    ∃ (evs : List ShowEv) (x : List UInt8), (∀ e ∈ evs, e.Ok env) ∧
      ((wireCommands (w.obj c).gotEscape (ss.flatMap (readFrom c))).any isSelf = false → ∀ e ∈ evs, e.isReplay = false) ∧
      evs.flatMap ShowEv.outs = heardAll env w c ss ∧ sentTo c w'.fx = sentTo c w.fx ++ x ∧
      (x ++ (w'.obj c).pend).Sublist ((w.obj c).pend ++ evs.flatMap ShowEv.bytes) := by
  obtain ⟨evs, x, a, b, d, e, _⟩ := show_run hv c ss h.finv hr hl hk hng hlen hl' he'
  exact ⟨evs, x, fun f hf => (a f hf).1, fun g f hf => (a f hf).2 g, b, d, e⟩

/-- C93 (partial). If the client keeps up, it is sent exactly these entries: whole, in order, none missing.
Missing: a client that does not (the oldest bytes of what waits for it are dropped, see C01 and `C51_suspended_history`). -/
theorem C93_all_of_it_partial {env : Env} (hv : ShowEnv env) {w w' : World} (h : Reachable env w) (c : Nat) (ss : List Step)
    (hr : w.run env ss = some w') (hl : c ∈ w.live) (hk : (w.obj c).kind = .client) (hng : ss.all (noGrant c) = true)
    (hlen : ∀ i up d wr, .poll i up (some (.data d)) wr ∈ ss → d.length ≤ 8191) (hl' : c ∈ w'.live) (he' : (w'.obj c).eof = false)
    (hup : keepsUp env w c ss = true) :
    ∃ evs : List ShowEv, (∀ e ∈ evs, e.Ok env) ∧
      ((wireCommands (w.obj c).gotEscape (ss.flatMap (readFrom c))).any isSelf = false → ∀ e ∈ evs, e.isReplay = false) ∧
      evs.flatMap ShowEv.outs = heardAll env w c ss ∧
      sentTo c w'.fx ++ (w'.obj c).pend = sentTo c w.fx ++ (w.obj c).pend ++ evs.flatMap ShowEv.bytes := by
  obtain ⟨evs, x, a, b, d, _, f⟩ := show_run hv c ss h.finv hr hl hk hng hlen hl' he'
  exact ⟨evs, fun f hf => (a f hf).1, fun g f hf => (a f hf).2 g, b, by
    rw [d, List.append_assoc, f hup, ← List.append_assoc]⟩

theorem Demo.showEnv : ShowEnv Demo.env where
  txt n k := by
    have : (Demo.env.txt n k).length = 1 := by cases n <;> rfl
    rw [this]; unfold queueCap; omega
  replay con k := by show 1 ≤ _; unfold queueCap; omega

/-- Client 10 with console 0: the console says "h", client 11 joins (message J), 10 asks for a replay (L), gets two bytes, the
console says "i". -/
def Demo.watch : List Step := [.poll 0 true (some (.data [0x68])) none, .check (Demo.con false true), .grant 11 0,
  .poll 10 true (some (.data [0xFF, 0x4C])) none, .poll 10 true none (some (.accept 2)), .poll 0 true (some (.data [0x69])) none]

example : let w := Demo.after Demo.one
    let w' := Demo.after (Demo.one ++ Demo.watch)
    Reachable Demo.env w ∧ (w.run Demo.env Demo.watch).isSome = true ∧ 10 ∈ w.live ∧ (w.obj 10).kind = .client ∧
    Demo.watch.all (noGrant 10) = true ∧ 10 ∈ w'.live ∧ (w'.obj 10).eof = false ∧ keepsUp Demo.env w 10 Demo.watch = true ∧
    heardAll Demo.env w 10 Demo.watch = [0x68, 0x69] ∧ (w.obj 10).pend = [] ∧ sentTo 10 w'.fx = [0x68, 0x4A] ∧ (w'.obj 10).pend = [0x4C, 0x69] ∧
    let evs := [ShowEv.out [0x68], .note [0x4A], .replay [0x4C], .out [0x69]]
    evs.flatMap ShowEv.outs = [0x68, 0x69] ∧ evs.flatMap ShowEv.bytes = [0x68, 0x4A, 0x4C, 0x69] :=
  ⟨Demo.reach _ (by decide +kernel), by decide +kernel, by decide +kernel, by decide +kernel, by decide +kernel, by decide +kernel,
    by decide +kernel, by decide +kernel, by decide +kernel, by decide +kernel, by decide +kernel, by decide +kernel, by decide +kernel,
    by decide +kernel⟩

end Conman
