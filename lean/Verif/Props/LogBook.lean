import Verif.Lemma.WorldLogText

/-
C92: what gets into the log of a console.  The vocabulary is in `Spec/LogBook.lean`.  Console `n` of the configuration has address
`2 * n`, its log `2 * n + 1`.
-/
namespace Conman
open Spec

/-- C92. The log of a configured console gets data from this console and from nobody else, and keeps its options, whatever
happens. -/
theorem C92_own_log {env : Env} {w : World} (cfg : List ConConf) (ss : List Step) (he : LogEnv env)
    (hcfg : ∀ c ∈ cfg, c.kind.isConsole = true) (hr : (World.boot cfg).run env ss = some w)
    (n : Nat) (c : ConConf) (o : LogOpts) (hc : cfg[n]? = some c) (hlog : c.log = some o)
    (hlen : ∀ i up d wr, .poll i up (some (.data d)) wr ∈ ss → d.length ≤ 8191) :
    (w.obj (2 * n + 1)).kind = .logfile ∧ (w.obj (2 * n + 1)).opts = o ∧ ∀ a, 2 * n + 1 ∈ (w.obj a).readers ↔ a = 2 * n := by
  have b := logOf_boot cfg n c o hc hlog
  have h0 : Reachable env (World.boot cfg) := ⟨cfg, [], hcfg, rfl⟩
  obtain ⟨g, q, -⟩ := log_run he _ _ ss h0.finv hr b.1 hlen
  exact ⟨g.kind, by rw [q, b.2.1], g.wr⟩

/-- C92. At any time of any history, what was sent to the log of a console and waits for it is taken, in order, from what the
console has said since the daemon was started, processed as configured, with notices of the daemon in between: nothing else gets into
it, nothing is doubled or reordered. -/
theorem C92_nothing_invented {env : Env} {w : World} (cfg : List ConConf) (ss : List Step) (he : LogEnv env)
    (hcfg : ∀ c ∈ cfg, c.kind.isConsole = true) (hr : (World.boot cfg).run env ss = some w)
    (n : Nat) (c : ConConf) (o : LogOpts) (hc : cfg[n]? = some c) (hlog : c.log = some o) (hp : o.sanitize = true ∨ o.timestamp = true)
    (hlen : ∀ i up d wr, .poll i up (some (.data d)) wr ∈ ss → d.length ≤ 8191) :
    ∃ evs, NotesOk env evs ∧ logOuts evs = saidAll env (World.boot cfg) (2 * n) ss ∧
      (sentTo (2 * n + 1) w.fx ++ (w.obj (2 * n + 1)).pend).Sublist (logPage o (env.clk (2 * n + 1)) 0 [] evs) := by
  obtain ⟨b1, b2, b3, b4, b5, b6⟩ := logOf_boot cfg n c o hc hlog
  have h0 : Reachable env (World.boot cfg) := ⟨cfg, [], hcfg, rfl⟩
  obtain ⟨g, q, evs, x, txt, h1, h2, h3, h4, h5, -⟩ := log_run he _ _ ss h0.finv hr b1 hlen
  rw [b2, b3, b4] at h4
  rw [b5, List.nil_append] at h5
  have h3 : sentTo (2 * n + 1) w.fx = x := by rw [h3]; rfl
  have := logBook_page o _ (he.clk _) hp evs 0 [] .init 0 _ _ _ rfl rfl h4
  refine ⟨evs, h1, h2, ?_⟩
  rw [h3, ← this]
  simpa [logLines, normLines, layout] using h5

/-- C92. The same for a log that is not processed: output and notices as they are. -/
theorem C92_nothing_invented_raw {env : Env} {w : World} (cfg : List ConConf) (ss : List Step) (he : LogEnv env)
    (hcfg : ∀ c ∈ cfg, c.kind.isConsole = true) (hr : (World.boot cfg).run env ss = some w)
    (n : Nat) (c : ConConf) (hc : cfg[n]? = some c) (hlog : c.log = some ⟨false, false⟩)
    (hlen : ∀ i up d wr, .poll i up (some (.data d)) wr ∈ ss → d.length ≤ 8191) :
    ∃ evs : List LogEv, NotesOk env evs ∧ logOuts evs = saidAll env (World.boot cfg) (2 * n) ss ∧
      (sentTo (2 * n + 1) w.fx ++ (w.obj (2 * n + 1)).pend).Sublist (evs.flatMap LogEv.bytes) := by
  obtain ⟨b1, b2, b3, b4, b5, b6⟩ := logOf_boot cfg n c _ hc hlog
  have h0 : Reachable env (World.boot cfg) := ⟨cfg, [], hcfg, rfl⟩
  obtain ⟨g, q, evs, x, txt, h1, h2, h3, h4, h5, -⟩ := log_run he _ _ ss h0.finv hr b1 hlen
  rw [b2] at h4
  rw [b5, List.nil_append] at h5
  have h3 : sentTo (2 * n + 1) w.fx = x := by rw [h3]; rfl
  refine ⟨evs, h1, h2, ?_⟩
  rw [h3, ← logBook_raw _ _ _ _ _ _ _ h4]
  exact h5

/-- C92 (partial). As long as the log was never shut down and its buffer was never full, all of it is there, exactly: what was sent
and what waits is the output of the console laid out as configured, with the notices in between.
Missing: `C92_lost_on_error`, `C92_burst_lost`. -/
theorem C92_log_complete_partial {env : Env} {w : World} (cfg : List ConConf) (ss : List Step) (he : LogEnv env)
    (hcfg : ∀ c ∈ cfg, c.kind.isConsole = true) (hr : (World.boot cfg).run env ss = some w)
    (n : Nat) (c : ConConf) (o : LogOpts) (hc : cfg[n]? = some c) (hlog : c.log = some o) (hp : o.sanitize = true ∨ o.timestamp = true)
    (hlen : ∀ i up d wr, .poll i up (some (.data d)) wr ∈ ss → d.length ≤ 8191)
    (hg : (w.obj (2 * n + 1)).gen = 0) (hf : neverFull env (World.boot cfg) (2 * n + 1) ss = true) :
    ∃ evs, NotesOk env evs ∧ logOuts evs = saidAll env (World.boot cfg) (2 * n) ss ∧
      sentTo (2 * n + 1) w.fx ++ (w.obj (2 * n + 1)).pend = logPage o (env.clk (2 * n + 1)) 0 [] evs := by
  obtain ⟨b1, b2, b3, b4, b5, b6⟩ := logOf_boot cfg n c o hc hlog
  have h0 : Reachable env (World.boot cfg) := ⟨cfg, [], hcfg, rfl⟩
  obtain ⟨g, q, evs, x, txt, h1, h2, h3, h4, -, h5⟩ := log_run he _ _ ss h0.finv hr b1 hlen
  have h5 := h5 (by rw [hg, b6]) hf
  rw [b2, b3, b4] at h4
  rw [b5, List.nil_append] at h5
  have h3 : sentTo (2 * n + 1) w.fx = x := by rw [h3]; rfl
  have := logBook_page o _ (he.clk _) hp evs 0 [] .init 0 _ _ _ rfl rfl h4
  refine ⟨evs, h1, h2, ?_⟩
  rw [h3, ← this, h5]
  simp [logLines, normLines, layout]

/-- C92 (partial). The same for a log that is not processed.
Missing: `C92_lost_on_error`, `C92_burst_lost`. -/
theorem C92_log_complete_raw_partial {env : Env} {w : World} (cfg : List ConConf) (ss : List Step) (he : LogEnv env)
    (hcfg : ∀ c ∈ cfg, c.kind.isConsole = true) (hr : (World.boot cfg).run env ss = some w)
    (n : Nat) (c : ConConf) (hc : cfg[n]? = some c) (hlog : c.log = some ⟨false, false⟩)
    (hlen : ∀ i up d wr, .poll i up (some (.data d)) wr ∈ ss → d.length ≤ 8191)
    (hg : (w.obj (2 * n + 1)).gen = 0) (hf : neverFull env (World.boot cfg) (2 * n + 1) ss = true) :
    ∃ evs : List LogEv, NotesOk env evs ∧ logOuts evs = saidAll env (World.boot cfg) (2 * n) ss ∧
      sentTo (2 * n + 1) w.fx ++ (w.obj (2 * n + 1)).pend = evs.flatMap LogEv.bytes := by
  obtain ⟨b1, b2, b3, b4, b5, b6⟩ := logOf_boot cfg n c _ hc hlog
  have h0 : Reachable env (World.boot cfg) := ⟨cfg, [], hcfg, rfl⟩
  obtain ⟨g, q, evs, x, txt, h1, h2, h3, h4, -, h5⟩ := log_run he _ _ ss h0.finv hr b1 hlen
  have h5 := h5 (by rw [hg, b6]) hf
  rw [b2] at h4
  rw [b5, List.nil_append] at h5
  have h3 : sentTo (2 * n + 1) w.fx = x := by rw [h3]; rfl
  refine ⟨evs, h1, h2, ?_⟩
  rw [h3, ← logBook_raw _ _ _ _ _ _ _ h4, h5]

/-- C92 (partial). Every byte the console says other than CR, LF and NUL is in the log, rendered as configured and in order, whatever
the options.
Missing: as above. -/
theorem C92_output_kept_partial {env : Env} {w : World} (cfg : List ConConf) (ss : List Step) (he : LogEnv env)
    (hcfg : ∀ c ∈ cfg, c.kind.isConsole = true) (hr : (World.boot cfg).run env ss = some w)
    (n : Nat) (c : ConConf) (o : LogOpts) (hc : cfg[n]? = some c) (hlog : c.log = some o)
    (hlen : ∀ i up d wr, .poll i up (some (.data d)) wr ∈ ss → d.length ≤ 8191)
    (hg : (w.obj (2 * n + 1)).gen = 0) (hf : neverFull env (World.boot cfg) (2 * n + 1) ss = true) :
    (((saidAll env (World.boot cfg) (2 * n) ss).filter (fun b => !isRun b)).flatMap (if o.sanitize then sanByte else fun b => [b])).Sublist
      (sentTo (2 * n + 1) w.fx ++ (w.obj (2 * n + 1)).pend) := by
  obtain ⟨b1, b2, b3, b4, b5, b6⟩ := logOf_boot cfg n c o hc hlog
  have h0 : Reachable env (World.boot cfg) := ⟨cfg, [], hcfg, rfl⟩
  obtain ⟨g, q, evs, x, txt, h1, h2, h3, h4, -, h5⟩ := log_run he _ _ ss h0.finv hr b1 hlen
  have h5 := h5 (by rw [hg, b6]) hf
  rw [b2] at h4
  rw [b5, List.nil_append] at h5
  have h3 : sentTo (2 * n + 1) w.fx = x := by rw [h3]; rfl
  rw [h3, h5, ← h2, ← logText_eq]
  exact logBook_keeps o _ (he.clk _) evs _ _ _ _ _ h4

/-- C92. Whatever a console says and whatever happens, every byte that was ever sent to its sanitised log, or waits for it, is
printable or CR or LF, provided the notices and time stamps of the daemon are. -/
theorem C92_sanitized {env : Env} {w : World} (cfg : List ConConf) (ss : List Step) (he : LogEnv env)
    (hcfg : ∀ c ∈ cfg, c.kind.isConsole = true) (hr : (World.boot cfg).run env ss = some w)
    (n : Nat) (c : ConConf) (ts : Bool) (hc : cfg[n]? = some c) (hlog : c.log = some ⟨true, ts⟩)
    (hlen : ∀ i up d wr, .poll i up (some (.data d)) wr ∈ ss → d.length ≤ 8191)
    (htxt : ∀ m k, ∀ b ∈ env.txt m k, isPrint b = true ∨ b = 0x0D ∨ b = 0x0A)
    (hclk : ∀ l k, ∀ b ∈ env.clk l k, isPrint b = true) :
    ∀ b ∈ sentTo (2 * n + 1) w.fx ++ (w.obj (2 * n + 1)).pend, isPrint b = true ∨ b = 0x0D ∨ b = 0x0A := by
  obtain ⟨b1, b2, b3, b4, b5, b6⟩ := logOf_boot cfg n c _ hc hlog
  have h0 : Reachable env (World.boot cfg) := ⟨cfg, [], hcfg, rfl⟩
  obtain ⟨g, q, evs, x, txt, h1, h2, h3, h4, h5, -⟩ := log_run he _ _ ss h0.finv hr b1 hlen
  rw [b2] at h4
  rw [b5, List.nil_append] at h5
  have h3 : sentTo (2 * n + 1) w.fx = x := by rw [h3]; rfl
  intro b hb
  rw [h3] at hb
  refine logBook_print ts _ (he.clk _) (hclk _) evs ?_ _ _ _ _ _ h4 b (h5.subset hb)
  intro t ht
  obtain ⟨m, k, rfl⟩ := h1 t ht
  exact htxt m k

/-- C92. A log that was shut down stays so, and nothing is written to it, until it is opened again by a reconfiguration. -/
theorem C92_stays_closed {env : Env} {w w' : World} (h : Reachable env w) (l : Nat) (hl : l ∈ w.live) (hk : (w.obj l).kind = .logfile)
    (hf : (w.obj l).fd = false) (ss : List Step) (hr : w.run env ss = some w') (hn : Step.logOpen l true ∉ ss) :
    (w'.obj l).fd = false ∧ sentTo l w'.fx = sentTo l w.fx :=
  log_closed_run l ss h.finv hk hl hf hr hn

/-! ### Examples -/

/-- A serial console with a log that is sanitised and stamped, another with one that is neither. -/
def Demo.logCfg : List ConConf := [⟨.serial, false, some ⟨true, true⟩⟩, ⟨.serial, false, some ⟨false, false⟩⟩]

/-- The logs and consoles are opened; both say "a", ESC, LF, in two reads; the first log takes 30 bytes. -/
def Demo.logSteps : List Step := [.logOpen 1 true, .logOpen 3 true, .connUp 0, .connUp 2, .poll 0 true (some (.data [0x61])) none,
  .poll 0 true (some (.data [0x1B, 0x0A])) none, .poll 2 true (some (.data [0x61, 0x1B])) none, .poll 2 true (some (.data [0x0A])) none,
  .poll 1 true none (some (.accept 30))]

theorem Demo.logEnv : LogEnv Demo.env := by
  refine ⟨fun n k => ?_, fun l k => by simp [Demo.env]⟩
  simp only [Demo.env]
  split <;> exact ⟨by simp, by decide⟩

example : ((World.boot Demo.logCfg).run Demo.env Demo.logSteps).map (fun w => (sentTo 1 w.fx ++ (w.obj 1).pend, sentTo 3 w.fx ++ (w.obj 3).pend,
      (w.obj 1).gen, (w.obj 3).gen, (sentTo 1 w.fx).length)) =
      some ([0x6E, 0x6E] ++ List.replicate 20 0x54 ++ bs "a^[" ++ [0x0D, 0x0A], [0x6E, 0x6E, 0x61, 0x1B, 0x0A], 0, 0, 27) ∧
    neverFull Demo.env (World.boot Demo.logCfg) 1 Demo.logSteps = true ∧ neverFull Demo.env (World.boot Demo.logCfg) 3 Demo.logSteps = true ∧
    saidAll Demo.env (World.boot Demo.logCfg) 0 Demo.logSteps = [0x61, 0x1B, 0x0A] ∧
    saidAll Demo.env (World.boot Demo.logCfg) 2 Demo.logSteps = [0x61, 0x1B, 0x0A] :=
  ⟨by decide +kernel, by decide +kernel, by decide +kernel, by decide +kernel, by decide +kernel⟩

/-- The hypotheses on configuration, length of reads and texts hold there. -/
example : (∀ c ∈ Demo.logCfg, c.kind.isConsole = true) ∧ (∀ i up d wr, .poll i up (some (.data d)) wr ∈ Demo.logSteps → d.length ≤ 8191) ∧
    (∀ m k, ∀ b ∈ Demo.env.txt m k, isPrint b = true ∨ b = 0x0D ∨ b = 0x0A) ∧ (∀ l k, ∀ b ∈ Demo.env.clk l k, isPrint b = true) := by
  refine ⟨by decide, ?_, ?_, ?_⟩
  · intro i up d wr hm
    simp only [Demo.logSteps, List.mem_cons, Step.poll.injEq, Option.some.injEq, ReadRes.data.injEq, List.not_mem_nil, or_false,
      reduceCtorEq, false_or, and_false, false_and] at hm
    rcases hm with ⟨_, _, rfl, _⟩ | ⟨_, _, rfl, _⟩ | ⟨_, _, rfl, _⟩ | ⟨_, _, rfl, _⟩ <;> decide
  · intro m k b hb
    simp only [Demo.env] at hb
    split at hb <;> (simp only [List.mem_singleton] at hb; subst hb; left; decide)
  · intro l k b hb
    simp only [Demo.env, List.mem_replicate] at hb
    rw [hb.2]; decide

/-- Reading a page: notice, a line, an unfinished line, notice, an unfinished line. -/
example : logPage ⟨false, true⟩ (fun k => [0x30 + k.toUInt8]) 0 [] [.note [0x3C], .out [0x61], .out [0x0A, 0x62], .note [0x3E], .out [0x63]] =
    bs "<0a" ++ [0x0D, 0x0A] ++ bs "1b>2c" := by decide +kernel

/-! ### What does not hold -/

/-- Finding (refutes the completeness part of C92). If a write to the log fails, what waits for it is dropped, the log is closed, and
what its console says from then on is not written. -/
theorem C92_lost_on_error :
    ∃ ss w, (World.boot Demo.logCfg).run Demo.env ss = some w ∧ neverFull Demo.env (World.boot Demo.logCfg) 3 ss = true ∧
      saidAll Demo.env (World.boot Demo.logCfg) 2 ss = [0x61, 0x62] ∧ sentTo 3 w.fx = [] ∧ (w.obj 3).pend = [0x62] ∧ (w.obj 3).fd = false ∧
      3 ∈ w.live := by
  refine ⟨[.logOpen 3 true, .connUp 2, .poll 2 true (some (.data [0x61])) none, .poll 3 true none (some .err),
    .poll 2 true (some (.data [0x62])) none], _, rfl, ?_⟩
  decide +kernel

/-- Finding (refutes the completeness part of C92). One read of 800 or more line ends makes at least 799 lines of 22 bytes of a stamped log,
more than its buffer holds, however empty it was: 16383 bytes are kept, the others are never written. -/
theorem C92_burst_lost {env : Env} {w w' : World} (he : LogEnv env) (h : Reachable env w) (l con : Nat) (g : LogOf w l con)
    (ht : (w.obj l).opts.timestamp = true) (hk : (w.obj con).kind = .serial) (hp : (w.obj con).pin = true) (up : Bool)
    (m : Nat) (hm : 800 ≤ m ∧ m ≤ 8191) (hs : w.step env (.poll con up (some (.data (List.replicate m 0x0A))) none) = some w') :
    (w'.obj l).stamps + 1 ≥ (w.obj l).stamps + m ∧ (w'.obj l).pend.length = 16383 ∧ sentTo l w'.fx = sentTo l w.fx := by
  have hin : l ∈ (w.obj con).readers := (g.wr con).2 rfl
  have hll := h.inv.inv.l.live con l hin
  have hf : (w.obj con).fd = true := by
    cases hf : (w.obj con).fd with
    | true => rfl
    | false => have := ((h.inv.inv.oi con).closed hf).1; rw [hp] at this; simp at this
  rw [poll_is_read env con up _ hll.1 hp] at hs
  unfold World.read at hs
  rw [if_neg (by simp [hf]), if_neg (by simp [hk]), if_neg (by rw [hk]; simp)] at hs
  simp only [hk, Option.some.injEq] at hs
  rw [List.take_of_length_le (by rw [readBufSize_eq, List.length_replicate]; omega)] at hs
  subst hs
  have heof : (w.obj l).eof = false := (h.finv.x l hll.2).log g.kind
  have hcap := (h.inv.inv.oi l).cap
  rw [(deliver_exact h.inv.inv.l env con _ (by intro z; rw [List.replicate_eq_nil_iff] at z; omega)).1, if_pos hin, if_pos g.kind]
  have a := LogAdd.out (env.clk l) (he.clk l) (w.obj l) (List.replicate m 0x0A) heof hcap
    (by rw [List.length_replicate]; unfold queueCap; omega)
  obtain ⟨txt, b, p⟩ := a.book
  have hrep : ∀ (m : Nat) (st : LineState) (k : Nat), 22 * m ≤ (logRef (w.obj l).opts (env.clk l) st k (List.replicate m 0x0A)).2.2.length + 20 ∧
      k + m ≤ (logRef (w.obj l).opts (env.clk l) st k (List.replicate m 0x0A)).2.1 + 1 := by
    have lf : ∀ (m k : Nat), 22 * m ≤ (logRef (w.obj l).opts (env.clk l) .lf k (List.replicate m 0x0A)).2.2.length ∧
      k + m ≤ (logRef (w.obj l).opts (env.clk l) .lf k (List.replicate m 0x0A)).2.1 := by
      intro m
      induction m with
      | zero => intro k; simp [logRef]
      | succ m ih =>
        intro k
        rw [List.replicate_succ, logRef]
        have := ih (k + 1)
        simp [logByteRef, ht, he.clk l k]
        omega
    intro m st k
    cases m with
    | zero => simp [logRef]
    | succ m =>
      rw [List.replicate_succ, logRef]
      by_cases hst : st = .init ∨ st = .lf
      · have := lf m (k + 1)
        simp [logByteRef, ht, he.clk l k, hst]
        omega
      · have := lf m k
        simp [logByteRef, ht, he.clk l k, hst]
        omega
  rw [logBook, logChunks_eq _ _ (he.clk l) (Or.inr ht)] at b
  simp only [logBook, Option.map_some, Option.some.injEq, Prod.mk.injEq, List.flatten_cons, List.flatten_nil, List.append_nil] at b
  have r := hrep m (w.obj l).line (w.obj l).stamps
  obtain ⟨-, b2, b3⟩ := b
  refine ⟨?_, ?_, ?_⟩
  · rw [b2] at r; omega
  · rw [b3] at r
    rw [p]
    unfold lastN queueCap
    rw [List.length_drop, List.length_append]
    omega
  · rw [(deliver_fx _ _ _ _).1]

/-- Such a state: the log of console 0 is open, empty and stamped. -/
example : ((World.boot Demo.logCfg).run Demo.env [.logOpen 1 true, .connUp 0, .poll 1 true none (some (.accept 9))]).map (fun w =>
      ((w.obj 1).opts.timestamp, (w.obj 0).kind, (w.obj 0).pin, (w.obj 1).pend, (w.obj 1).stamps)) = some (true, .serial, true, [], 0) := by
  decide +kernel

end Conman
