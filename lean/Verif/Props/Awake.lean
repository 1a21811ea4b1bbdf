import Verif.Lemma.WorldAwake
import Verif.Spec.Demo

/-
C95: output that waits is not forgotten.  The vocabulary is in `Spec/Awake.lean`.
-/
namespace Conman
open Spec

/-- C95. If bytes wait for a client, a log or a telnet console that is open, the daemon asks whether it can be written to, unless it
is a client that suspended its output.  (The line written to a log that is opened is not empty.) -/
theorem C95_polled {env : Env} (htxt : ∀ i k, env.txt (.logOpened i) k ≠ []) {w : World} (h : Reachable env w) (i : Nat)
    (hl : i ∈ w.live) (hk : (w.obj i).kind = .client ∨ (w.obj i).kind = .logfile ∨ (w.obj i).kind = .telnet)
    (hf : (w.obj i).fd = true) (hp : (w.obj i).pend ≠ []) :
    (w.obj i).pout = true ∨ ((w.obj i).kind = .client ∧ (w.obj i).suspend = true) :=
  awake_reach htxt h i hl (by rcases hk with g | g | g <;> rw [g] <;> rfl) hf hp

/-- C95 (partial). For a console of another type: from when it is open with nothing waiting, for as long as it is not closed.
Missing: bytes that waited when it was opened, see `C95_forgotten`. -/
theorem C95_console_polled_partial {env : Env} (htxt : ∀ i k, env.txt (.logOpened i) k ≠ []) {w w' : World} (h : Reachable env w) (i : Nat)
    (ss : List Step) (hr : w.run env ss = some w') (hl : i ∈ w.live) (hk : (w.obj i).kind.isConsole = true)
    (hf : (w.obj i).fd = true) (hp : (w.obj i).pend = []) (hng : ss.all (noGrant i) = true) (hl' : i ∈ w'.live)
    (hg : (w'.obj i).gen = (w.obj i).gen) (hf' : (w'.obj i).fd = true) (hp' : (w'.obj i).pend ≠ []) :
    (w'.obj i).pout = true := by
  have hkind : (w'.obj i).kind.isConsole = true := by
    have : ∀ (ss : List Step) {w w' : World}, FInv w → w.run env ss = some w' → i ∈ w.live → (w.obj i).kind.isConsole = true →
        (w'.obj i).kind.isConsole = true := by
      intro ss
      induction ss with
      | nil => intro w w' _ hr _ hk; simp only [World.run, Option.some.injEq] at hr; subst hr; exact hk
      | cons s ss ih =>
        intro w w' h hr hl hk
        simp only [World.run, Option.bind_eq_some_iff] at hr
        obtain ⟨w1, h1, h2⟩ := hr
        obtain ⟨_, l2, l3⟩ := step_live h.e.d s h1
        refine ih (w := { w1 with tick := w1.tick + 1 }) ((h.step s h1).tick (w1.tick + 1)) h2 ?_ (by rw [l3 i hl]; exact hk)
        rcases l2 i hl with g | g
        · exact g
        · exact absurd g.2 (not_client_of_console hk)
    exact this ss h.finv hr hl hk
  rcases (flow_run htxt i ss h.finv hr hl hng hl' hg (Or.inr hf) (awake_nil hp)).1 hf' hp' with g | g
  · exact g
  · exact absurd g.1 (not_client_of_console hkind)

/-- C95. In every history in which a client, a log or a telnet console is not closed: the bytes sent to it are at least as many as
waited at the start, or as many as the times its other side accepted some. -/
theorem C95_leaves {env : Env} (htxt : ∀ i k, env.txt (.logOpened i) k ≠ []) {w w' : World} (h : Reachable env w) (i : Nat)
    (ss : List Step) (hr : w.run env ss = some w') (hl : i ∈ w.live)
    (hk : (w.obj i).kind = .client ∨ (w.obj i).kind = .logfile ∨ (w.obj i).kind = .telnet)
    (hng : ss.all (noGrant i) = true) (hl' : i ∈ w'.live) (hg : (w'.obj i).gen = (w.obj i).gen) :
    ∃ x, sentTo i w'.fx = sentTo i w.fx ++ x ∧ min (w.obj i).pend.length (acceptCount env i w ss) ≤ x.length := by
  have hgr : (w.obj i).kind.greets = true := by rcases hk with g | g | g <;> rw [g] <;> rfl
  obtain ⟨_, _, x, a, b, _⟩ := flow_run htxt i ss h.finv hr hl hng hl' hg (Or.inl hgr) (awake_reach htxt h i hl hgr)
  exact ⟨x, a, b⟩

/-- C95. If it keeps up and accepts bytes often enough, all that waited is sent, first and in order. -/
theorem C95_leaves_in_order {env : Env} (htxt : ∀ i k, env.txt (.logOpened i) k ≠ []) {w w' : World} (h : Reachable env w) (i : Nat)
    (ss : List Step) (hr : w.run env ss = some w') (hl : i ∈ w.live)
    (hk : (w.obj i).kind = .client ∨ (w.obj i).kind = .logfile ∨ (w.obj i).kind = .telnet)
    (hng : ss.all (noGrant i) = true) (hl' : i ∈ w'.live) (hg : (w'.obj i).gen = (w.obj i).gen)
    (hup : keepsUp env w i ss = true) (hn : (w.obj i).pend.length ≤ acceptCount env i w ss) :
    ∃ y, sentTo i w'.fx = sentTo i w.fx ++ (w.obj i).pend ++ y := by
  have hgr : (w.obj i).kind.greets = true := by rcases hk with g | g | g <;> rw [g] <;> rfl
  obtain ⟨_, d, x, a, b, c⟩ := flow_run htxt i ss h.finv hr hl hng hl' hg (Or.inl hgr) (awake_reach htxt h i hl hgr)
  have e := c hup
  have hp : (w.obj i).pend <+: x :=
    List.prefix_of_prefix_length_le (l₃ := x ++ (w'.obj i).pend) (by rw [e]; exact List.prefix_append _ _) (List.prefix_append _ _) (by omega)
  obtain ⟨y, e⟩ := hp
  exact ⟨y, by rw [a, ← e, List.append_assoc]⟩

/-- C95. What waits for a console of any type that is open and asked for is sent too. -/
theorem C95_console_leaves {env : Env} (htxt : ∀ i k, env.txt (.logOpened i) k ≠ []) {w w' : World} (h : Reachable env w) (i : Nat)
    (ss : List Step) (hr : w.run env ss = some w') (hl : i ∈ w.live)
    (hf : (w.obj i).fd = true) (hp : (w.obj i).pout = true) (hng : ss.all (noGrant i) = true) (hl' : i ∈ w'.live)
    (hg : (w'.obj i).gen = (w.obj i).gen) :
    ∃ x, sentTo i w'.fx = sentTo i w.fx ++ x ∧ min (w.obj i).pend.length (acceptCount env i w ss) ≤ x.length ∧
      (keepsUp env w i ss = true → (w.obj i).pend.length ≤ acceptCount env i w ss → (w.obj i).pend <+: x) := by
  obtain ⟨_, d, x, a, b, c⟩ := flow_run htxt i ss h.finv hr hl hng hl' hg (Or.inr hf) (fun _ _ => Or.inl hp)
  refine ⟨x, a, b, fun hup hn => ?_⟩
  have e := c hup
  exact List.prefix_of_prefix_length_le (l₃ := x ++ (w'.obj i).pend) (by rw [e]; exact List.prefix_append _ _) (List.prefix_append _ _) (by omega)

/-- C95. A client that is to be closed, with bytes still waiting for it: once its other side has accepted bytes as often as there
were bytes waiting, it is gone. -/
theorem C95_closed {env : Env} (htxt : ∀ i k, env.txt (.logOpened i) k ≠ []) {w w' : World} (h : Reachable env w) (c : Nat)
    (ss : List Step) (hr : w.run env ss = some w') (hl : c ∈ w.live) (hk : (w.obj c).kind = .client)
    (he : (w.obj c).eof = true) (hp : (w.obj c).pend ≠ []) (hng : ss.all (noGrant c) = true)
    (hn : (w.obj c).pend.length ≤ acceptCount env c w ss) : c ∉ w'.live := by
  intro hl'
  have hgen : (w'.obj c).gen = (w.obj c).gen := client_gen_run c ss h.finv hr hl hk hng hl'
  have hgr : (w.obj c).kind.greets = true := by rw [hk]; rfl
  obtain ⟨_, d, x, a, b, _⟩ := flow_run htxt c ss h.finv hr hl hng hl' hgen (Or.inl hgr) (awake_reach htxt h c hl hgr)
  have hne := closing_run c ss h.finv hl he hp hr hgen
  obtain ⟨_, _, n, e1, e2⟩ := eof_run c ss h.finv hl he hr hgen
  have hx : x = (w.obj c).pend.take n := List.append_cancel_left (a.symm.trans e2)
  rw [hx, List.length_take] at b
  apply hne
  rw [e1, List.drop_eq_nil_iff]
  omega

/-- C95, what fails. A console that is open with bytes waiting for it, that the daemon does not ask for (they were typed while it was
down; see also `C91_not_sent_after_reconnect`). -/
theorem C95_forgotten : ∃ (env : Env) (w : World) (i : Nat), (∀ j k, env.txt (.logOpened j) k ≠ []) ∧ Reachable env w ∧ i ∈ w.live ∧
    (w.obj i).kind = .serial ∧ (w.obj i).fd = true ∧ (w.obj i).pend ≠ [] ∧ (w.obj i).pout = false :=
  ⟨Demo.env, Demo.after [.check Demo.con, .grant 10 0, .poll 10 true (some (.data [0x61])) none, .connUp 0], 0,
    fun _ _ => by simp [Demo.env], Demo.reach _ (by decide +kernel), by decide +kernel, by decide +kernel, by decide +kernel, by decide +kernel, by decide +kernel⟩

theorem Demo.opened (i k : Nat) : Demo.env.txt (.logOpened i) k ≠ [] := by simp [Demo.env]

/-- The console says "hi", client 10 takes one byte, suspends and resumes, and takes one byte. -/
def Demo.slow : List Step := [.poll 10 true none (some (.accept 1)), .poll 10 true (some (.data [0xFF, 0x5A])) none,
  .poll 10 true none (some (.accept 1)), .poll 10 true (some (.data [0xFF, 0x5A])) none, .poll 10 true none (some (.accept 1))]

/-- Two of the three times the client is not suspended: both bytes are sent. -/
example : let w := Demo.after (Demo.one ++ [.poll 0 true (some (.data [0x68, 0x69])) none])
    let w' := Demo.after (Demo.one ++ .poll 0 true (some (.data [0x68, 0x69])) none :: Demo.slow)
    Reachable Demo.env w ∧ (w.run Demo.env Demo.slow).isSome = true ∧ 10 ∈ w.live ∧ (w.obj 10).kind = .client ∧ (w.obj 10).fd = true ∧
    (w.obj 10).pend = [0x68, 0x69] ∧ (w.obj 10).pout = true ∧
    Demo.slow.all (noGrant 10) = true ∧ 10 ∈ w'.live ∧ (w'.obj 10).gen = (w.obj 10).gen ∧ keepsUp Demo.env w 10 Demo.slow = true ∧
    acceptCount Demo.env 10 w Demo.slow = 2 ∧ sentTo 10 w.fx = [] ∧ sentTo 10 w'.fx = [0x68, 0x69] :=
  ⟨Demo.reach _ (by decide +kernel), by decide +kernel, by decide +kernel, by decide +kernel, by decide +kernel, by decide +kernel,
    by decide +kernel, by decide +kernel, by decide +kernel, by decide +kernel, by decide +kernel, by decide +kernel, by decide +kernel,
    by decide +kernel⟩

/-- Text for a serial console that was open with nothing waiting. -/
example : let w := Demo.after Demo.one
    let ss := [Step.poll 10 true (some (.data [0x61, 0x62])) none]
    let w' := Demo.after (Demo.one ++ ss)
    Reachable Demo.env w ∧ (w.run Demo.env ss).isSome = true ∧ 0 ∈ w.live ∧ (w.obj 0).kind.isConsole = true ∧ (w.obj 0).fd = true ∧
    (w.obj 0).pend = [] ∧ ss.all (noGrant 0) = true ∧ 0 ∈ w'.live ∧ (w'.obj 0).gen = (w.obj 0).gen ∧ (w'.obj 0).fd = true ∧
    (w'.obj 0).pend = [0x61, 0x62] ∧ (w'.obj 0).pout = true ∧
    let ss' := [Step.poll 0 true none (some (.accept 1)), .poll 0 true none (some (.accept 7))]
    let w'' := Demo.after (Demo.one ++ ss ++ ss')
    ss'.all (noGrant 0) = true ∧ 0 ∈ w''.live ∧ (w''.obj 0).gen = (w'.obj 0).gen ∧ keepsUp Demo.env w' 0 ss' = true ∧
    acceptCount Demo.env 0 w' ss' = 2 ∧ sentTo 0 w''.fx = [0x61, 0x62] :=
  ⟨Demo.reach _ (by decide +kernel), by decide +kernel, by decide +kernel, by decide +kernel, by decide +kernel, by decide +kernel,
    by decide +kernel, by decide +kernel, by decide +kernel, by decide +kernel, by decide +kernel, by decide +kernel, by decide +kernel,
    by decide +kernel, by decide +kernel, by decide +kernel, by decide +kernel, by decide +kernel⟩

/-- The console says "h", client 11 takes it from client 10, which is told so (S), accepts two bytes, and is gone. -/
example : let w := Demo.after (Demo.one ++ [.poll 0 true (some (.data [0x68])) none, .check (Demo.con true false), .grant 11 0])
    let ss := [Step.poll 10 true none (some (.accept 1)), .poll 10 true none (some (.accept 1))]
    let w' := Demo.after (Demo.one ++ [.poll 0 true (some (.data [0x68])) none, .check (Demo.con true false), .grant 11 0] ++ ss)
    Reachable Demo.env w ∧ (w.run Demo.env ss).isSome = true ∧ 10 ∈ w.live ∧ (w.obj 10).kind = .client ∧ (w.obj 10).eof = true ∧
    (w.obj 10).pend = [0x68, 0x53] ∧ ss.all (noGrant 10) = true ∧ acceptCount Demo.env 10 w ss = 2 ∧ 10 ∉ w'.live :=
  ⟨Demo.reach _ (by decide +kernel), by decide +kernel, by decide +kernel, by decide +kernel, by decide +kernel, by decide +kernel,
    by decide +kernel, by decide +kernel, by decide +kernel⟩

end Conman
