import Verif.Lemma.ReplayRun
import Verif.Props.Disk
import Verif.Props.Screen
import Verif.Props.NoticeText

/-
C102: a user of a console who types the escape sequence for a replay of its log.
-/
namespace Conman
open Spec

variable {c : SConf} {pid : Int} {env : Env} {mem : Nat → List UInt8} {ss : List Step} {w : World} {n : Nat} {k : Console} {cl : Nat} {ws : List Nat}

/-- A user of console `k` whose descriptor is read, and who did not begin an escape sequence with the last byte sent. -/
structure Spec.Types (w : World) (cl n : Nat) (ws : List Nat) : Prop where
  live : cl ∈ w.live
  kind : (w.obj cl).kind = .client
  pin : (w.obj cl).pin = true
  fd : (w.obj cl).fd = true
  eof : (w.obj cl).eof = false
  esc : (w.obj cl).gotEscape = false
  writers : (w.obj cl).writers = 2 * n :: ws

/-- C102 (partial: the log was opened, and it was not shut down by an error since the daemon started). A user of a console with a log types `&L` (the client
sends `FF 4C`, C06). The daemon puts
exactly this after what already waits for them: the begin message, the last 4096 bytes of all that was logged - what was sent to the log file and what still waits for
it - and the end message. Nothing else changes. -/
theorem C102_replay_partial (hr : c.world.run env ss = some w) (he : env.replay = c.replay mem) (hm : ∀ i, (mem i).length = 16384) (hn : c.consoles[n]? = some k)
    (hlog : k.log.isSome = true) (hname : k.name.length ≤ 1023) (hcl : Types w cl n ws) (hopen : (w.obj (2 * n + 1)).fd = true) (hgen : (w.obj (2 * n + 1)).gen = 0) (up : Bool) :
    ∃ w', w.step env (.poll cl up (some (.data [0xFF, 0x4C])) none) = some w' ∧
      (w'.obj cl).pend = lastN 16383 ((w.obj cl).pend ++ replayOf k.name (lastN 4096 (sentTo (2 * n + 1) w.fx ++ (w.obj (2 * n + 1)).pend))) ∧
      w'.fx = w.fx ∧ ∀ j, j ≠ cl → w'.obj j = w.obj j := by
  have hR := world_reachable c hr
  obtain ⟨w', h1, h2, h3⟩ := replay_step (env := env) hcl.live hcl.kind hcl.pin hcl.fd hcl.eof ((hR.finv.e.d.inv.oi cl).cap) hcl.esc hcl.writers up
  refine ⟨w', h1, ?_, h3⟩
  obtain ⟨t, a1, a2⟩ := world_hist c hr hn hlog hgen
  have e : lastN 4096 (sentTo (2 * n + 1) w.fx ++ (w.obj (2 * n + 1)).pend) = lastN 4096 t := by
    have := congrArg (lastN 4096) a2
    rw [lastN_lastN, lastN_lastN] at this
    exact this
  have er : env.replay (2 * n) (w.logHist (2 * n)) = replayOf k.name (lastN 4096 t) := by
    rw [he, world_loghist c hr hn, if_pos ⟨hlog, hopen⟩, SConf.replay, show 2 * n / 2 = n by omega, hn, a1]
    show replayText _ k.name _ = _
    rw [replayText_life (hm _) hname (shortLives_bytes t 0), lifeOf_bytes, List.nil_append]
  rw [h2, er, e]
  refine enq_le _ _ ?_
  rw [replayOf_length, length_lastN]
  show _ ≤ 16383
  omega

/-- C102. A console without a log, or whose log is closed: the user is told so. -/
theorem C102_not_logged (hr : c.world.run env ss = some w) (he : env.replay = c.replay mem) (hn : c.consoles[n]? = some k)
    (hlog : k.log = none ∨ (w.obj (2 * n + 1)).fd = false) (hname : k.name.length ≤ 1023) (hcl : Types w cl n ws) (up : Bool) :
    ∃ w', w.step env (.poll cl up (some (.data [0xFF, 0x4C])) none) = some w' ∧
      (w'.obj cl).pend = lastN 16383 ((w.obj cl).pend ++ noReplayOf k.name) ∧ w'.fx = w.fx ∧ ∀ j, j ≠ cl → w'.obj j = w.obj j := by
  have hR := world_reachable c hr
  obtain ⟨w', h1, h2, h3⟩ := replay_step (env := env) hcl.live hcl.kind hcl.pin hcl.fd hcl.eof ((hR.finv.e.d.inv.oi cl).cap) hcl.esc hcl.writers up
  refine ⟨w', h1, ?_, h3⟩
  have er : env.replay (2 * n) (w.logHist (2 * n)) = noReplayOf k.name := by
    rw [he, world_loghist c hr hn, if_neg (by rcases hlog with z | z <;> simp [z]), SConf.replay, show 2 * n / 2 = n by omega, hn]
    exact replayText_none hname
  rw [h2, er]
  refine enq_le _ _ ?_
  rw [noReplayOf_length]
  show _ ≤ 16383
  omega

/-- C102. Whatever happened to the log before: the user gets the begin message, at most 4096 bytes, each of which was written to the log of this console at some time,
and the end message; nothing that others keep in the memory of the daemon. -/
theorem C102_own_bytes (hr : c.world.run env ss = some w) (he : env.replay = c.replay mem) (hm : ∀ i, (mem i).length = 16384) (hn : c.consoles[n]? = some k)
    (hlog : k.log.isSome = true) (hname : k.name.length ≤ 1023) (hcl : Types w cl n ws) (hopen : (w.obj (2 * n + 1)).fd = true) (up : Bool) :
    ∃ w' x, w.step env (.poll cl up (some (.data [0xFF, 0x4C])) none) = some w' ∧ (w'.obj cl).pend = lastN 16383 ((w.obj cl).pend ++ replayOf k.name x) ∧
      x.length ≤ 4096 ∧ (∀ b ∈ x, some b ∈ (w.obj (2 * n + 1)).hist) ∧ w'.fx = w.fx ∧ ∀ j, j ≠ cl → w'.obj j = w.obj j := by
  have hR := world_reachable c hr
  obtain ⟨w', h1, h2, h3, h4⟩ := replay_step (env := env) hcl.live hcl.kind hcl.pin hcl.fd hcl.eof ((hR.finv.e.d.inv.oi cl).cap) hcl.esc hcl.writers up
  obtain ⟨x, a1, a2, a3⟩ := replayText_own (hm (2 * n)) hname (w.obj (2 * n + 1)).hist
  refine ⟨w', x, h1, ?_, a2, a3, h3, h4⟩
  have er : env.replay (2 * n) (w.logHist (2 * n)) = replayOf k.name x := by
    rw [he, world_loghist c hr hn, if_pos ⟨hlog, hopen⟩, SConf.replay, show 2 * n / 2 = n by omega, hn]
    exact a1
  rw [h2, er]
  refine enq_le _ _ ?_
  rw [replayOf_length]
  show _ ≤ 16383
  omega

/-- C102. Replays fit into the buffer of a client, as `C95` and others ask for. -/
theorem C102_fits (he : env.replay = c.replay mem) (hm : ∀ i, (mem i).length = 16384) (hname : ∀ k ∈ c.consoles, k.name.length ≤ 1023)
    (con : Nat) (h : Option (List (Option UInt8))) : (env.replay con h).length ≤ 16383 := by
  have hl : ((c.consoles[con / 2]?.map (·.name)).getD []).length ≤ 1023 := by
    cases hk : c.consoles[con / 2]? with
    | none => simp
    | some k => exact hname k (List.mem_of_getElem? hk)
  rw [he, SConf.replay]
  cases h with
  | none => rw [replayText_none hl, noReplayOf_length]; omega
  | some h =>
    obtain ⟨x, a1, a2, -⟩ := replayText_own (hm con) hl h
    rw [a1, replayOf_length]; omega

/-- C102. A log that was shut down by an error and opened again: `w0` is the state right after its buffer was emptied. If less than 16384 bytes had been written
whenever the buffer was emptied, a replay shows the last 4096 bytes of what was logged since. -/
theorem C102_reopened {ss0 : List Step} {w0 : World} (h0 : c.world.run env ss0 = some w0) (hr : w0.run env ss = some w) (he : env.replay = c.replay mem)
    (hm : ∀ i, (mem i).length = 16384) (hn : c.consoles[n]? = some k) (hlog : k.log.isSome = true) (hname : k.name.length ≤ 1023) (hcl : Types w cl n ws)
    (hopen : (w.obj (2 * n + 1)).fd = true) (hcut : (w0.obj (2 * n + 1)).hist.getLast? = some none) (hpend : (w0.obj (2 * n + 1)).pend = [])
    (hshort : shortLives 0 (w0.obj (2 * n + 1)).hist = true) (hgen : (w.obj (2 * n + 1)).gen = (w0.obj (2 * n + 1)).gen) (up : Bool) :
    ∃ w' x, sentTo (2 * n + 1) w.fx = sentTo (2 * n + 1) w0.fx ++ x ∧ w.step env (.poll cl up (some (.data [0xFF, 0x4C])) none) = some w' ∧
      (w'.obj cl).pend = lastN 16383 ((w.obj cl).pend ++ replayOf k.name (lastN 4096 (x ++ (w.obj (2 * n + 1)).pend))) ∧
      w'.fx = w.fx ∧ ∀ j, j ≠ cl → w'.obj j = w.obj j := by
  have hR0 := world_reachable c h0
  have hr' : c.world.run env (ss0 ++ ss) = some w := by rw [run_append, h0]; exact hr
  have hR := world_reachable c hr'
  obtain ⟨l, hl⟩ := Option.isSome_iff_exists.1 hlog
  obtain ⟨b1, b2, -⟩ := world_log c n k l hn hl
  have hb : Reachable env c.world := ⟨_, [], c.entry_console, rfl⟩
  obtain ⟨d1, d2⟩ := live_run (2 * n + 1) ss0 hb.finv h0 b2 (by rw [b1]; simp)
  obtain ⟨-, q⟩ := hist_run ss hR0.finv hr d1 (d2.trans b1)
  obtain ⟨x, t, a1, a2, a3⟩ := q hgen
  rw [hpend, List.nil_append] at a3
  obtain ⟨w', h1, h2, h3⟩ := replay_step (env := env) hcl.live hcl.kind hcl.pin hcl.fd hcl.eof ((hR.finv.e.d.inv.oi cl).cap) hcl.esc hcl.writers up
  refine ⟨w', x, a1, h1, ?_, h3⟩
  have e : lastN 4096 (x ++ (w.obj (2 * n + 1)).pend) = lastN 4096 t := by
    have := congrArg (lastN 4096) a3
    rw [lastN_lastN, lastN_lastN] at this
    exact this
  have hlife : lifeOf [] (w.obj (2 * n + 1)).hist = t := by
    rw [a2, lifeOf_append, lifeOf_bytes, lifeOf_cut _ hcut, List.nil_append]
  have er : env.replay (2 * n) (w.logHist (2 * n)) = replayOf k.name (lastN 4096 t) := by
    rw [he, world_loghist c hr' hn, if_pos ⟨hlog, hopen⟩, SConf.replay, show 2 * n / 2 = n by omega, hn]
    show replayText _ k.name _ = _
    rw [replayText_life (hm _) hname (by rw [a2]; exact shortLives_append _ _ _ hshort), hlife]
  rw [h2, er, e]
  refine enq_le _ _ ?_
  rw [replayOf_length, length_lastN]
  show _ ≤ 16383
  omega

/-- C102. The user sees the end of the log file: if the file of the log was left alone (as in C100) and what was added to it has at least 4096 bytes, a replay shows the
last 4096 bytes of the file followed by what still waits to be written. -/
theorem C102_file {fs : LDir} {held : Nat → Bool} {es : List DiskEv} {d : Disk} (hf : fs.Ok) {l : List UInt8 × LogOpt} (hn : c.consoles[n]? = some k)
    (hl : k.log = some l) {nm : List UInt8} (hu : oneName fs nm) (hr : (Disk.boot c fs held false).run c pid env es = some d)
    (ha : leftAlone c pid env nm (Disk.boot c fs held false) es = true) (ho : onlyLog c pid nm (some (2 * n + 1)) es)
    (he : env.replay = c.replay mem) (hm : ∀ i, (mem i).length = 16384) (hname : k.name.length ≤ 1023) (hcl : Types d.w cl n ws)
    (hopen : (d.w.obj (2 * n + 1)).fd = true) (hgen : (d.w.obj (2 * n + 1)).gen = 0)
    (hlong : (fileAt fs nm).length + 4096 ≤ (fileAt d.fs nm).length ∨ fileAt fs nm = []) (up : Bool) :
    ∃ w', d.w.step env (.poll cl up (some (.data [0xFF, 0x4C])) none) = some w' ∧
      (w'.obj cl).pend = lastN 16383 ((d.w.obj cl).pend ++ replayOf k.name (lastN 4096 (fileAt d.fs nm ++ (d.w.obj (2 * n + 1)).pend))) := by
  have e := C100_file hf hn hl hu hr ha ho
  obtain ⟨w', h1, h2, -⟩ := C102_replay_partial (disk_world es hr) he hm hn (by rw [hl]; rfl) hname hcl hopen hgen up
  refine ⟨w', h1, ?_⟩
  rw [h2, e]
  rcases hlong with g | g
  · rw [e, List.length_append] at g
    rw [List.append_assoc, lastN_append_ge (a := fileAt fs nm) (by rw [List.length_append]; omega)]
  · rw [g, List.nil_append]

/-- C102. What a replay shows does not depend on how the log was cut into writes and on what was sent when: for every history of the buffer of a log, it is what
follows from the bytes written and the times the buffer was emptied. -/
theorem C102_chunks (m : List UInt8) (hm : m.length = 16384) (ops : List RingOp) (name : List UInt8) : ∃ r outs r2, (Ring.create m).run ops = some (r, outs) ∧
    histRing m (opsHist ops) = some r2 ∧ performLogReplay name (some r) = performLogReplay name (some r2) := by
  have h := (Ring.create_ok hm).1
  obtain ⟨r, outs, r2, outs2, h1, h2, h3⟩ := Ring.Like.run ops (r := Ring.create m) (r2 := Ring.create m) ⟨h, h, rfl, rfl, rfl⟩
  exact ⟨r, outs, r2, h1, by rw [histRing, h2]; rfl, h3.replay name⟩

example : opsHist [.write (bs "ab"), .flush 1, .write (bs "c"), .reset, .write (bs "d")] = [some 0x61, some 0x62, some 0x63, none, some 0x64] ∧
    lifeOf [] [some 0x61, some 0x62, some 0x63, none, some 0x64] = bs "d" := by decide

/-- C102, what fails: after at least 16384 bytes the log is shut down by an error and opened again; a replay shows 4096 bytes although fewer were logged since (the
rest is from before the error). -/
theorem C102_stale {m name t d : List UInt8} (hm : m.length = 16384) (hname : name.length ≤ 1023) (ht : 16384 ≤ t.length) (hd : d.length < 4096) :
    ∃ x, replayText m name (some (t.map some ++ [none] ++ d.map some)) = replayOf name x ∧ x.length = 4096 ∧ x ≠ lastN 4096 d := by
  have hw : written (t.map fun b => RingOp.write [b]) = t := by
    clear ht
    induction t with
    | nil => rfl
    | cons b t ih => rw [List.map_cons, written, ih]; rfl
  obtain ⟨r, outs, x, a1, a2, a3, a4⟩ := C04_replay_stale_after_shutdown m hm (t.map fun b => .write [b]) (by
    intro d hd
    obtain ⟨b, -, e⟩ := List.mem_map.1 hd
    cases e; simp) (by
    intro h
    obtain ⟨b, -, e⟩ := List.mem_map.1 h
    cases e) (by rw [hw]; exact ht) d hd
  have h := (Ring.create_ok hm).1
  obtain ⟨r', outs', r2, outs2, h1, h2, h3⟩ := Ring.Like.run ((t.map fun b => RingOp.write [b]) ++ [.reset, .write d]) (r := Ring.create m) (r2 := Ring.create m) ⟨h, h, rfl, rfl, rfl⟩
  rw [a1] at h1
  cases h1
  have ho : opsHist ((t.map fun b => RingOp.write [b]) ++ [.reset, .write d]) = t.map some ++ [none] ++ d.map some := by
    unfold opsHist
    rw [List.flatMap_append, List.flatMap_map]
    have : ∀ l : List UInt8, (l.flatMap fun b => (List.take 16383 [b]).map some) = l.map some := by
      intro l
      induction l with
      | nil => rfl
      | cons b l ih => rw [List.flatMap_cons, ih]; rfl
    rw [this]
    have e : d.take 16383 = d := List.take_of_length_le (by omega)
    show _ ++ ([none] ++ ((d.take 16383).map some ++ [])) = _
    rw [e, List.append_nil, List.append_assoc]
  rw [ho] at h2
  have hx : ∀ room, 4096 ≤ room → r.replay room = some x := by
    intro room hr
    have e : r.replay room = r.replay 4096 := by
      unfold Ring.replay
      have hn : ∀ q, 4096 ≤ q → (if (if (if r.wrap then objBufSize - 1 else r.inP) > 4096 then 4096 else (if r.wrap then objBufSize - 1 else r.inP)) > q then q else
          (if (if r.wrap then objBufSize - 1 else r.inP) > 4096 then 4096 else (if r.wrap then objBufSize - 1 else r.inP))) =
          min 4096 (if r.wrap then objBufSize - 1 else r.inP) := by
        intro q hq
        repeat' split
        all_goals omega
      simp only
      rw [hn room hr, hn 4096 (Nat.le_refl _)]
    rw [e, a2]
  refine ⟨x, ?_, a3, a4⟩
  unfold replayText histRing
  dsimp only
  rw [h2]
  dsimp only [Option.map_some]
  rw [← h3.replay name, replay_wrote (by omega) hname hx]

/-! ### Examples -/

/-- The environment of `Demo`, with the replays of the code. -/
def Spec.replayEnv : Env := { Demo.env with replay := telConf.replay fun _ => List.replicate 16384 0 }

/-- The log of console `p` is opened, the console comes up and says "ab" and "c"; part of the log is written; client 10 connects. -/
def Spec.replaySteps : List Step := [.logOpen 1 true, .connUp 0, .check ⟨.connect, [0], false, false, false, false⟩, .grant 10 0,
  .poll 0 true (some (.data (bs "ab"))) none, .poll 1 true none (some (.accept 4)), .poll 0 true (some (.data (bs "c"))) none]

theorem replay_demo : (telConf.world.run replayEnv replaySteps).map (fun w => (decide (10 ∈ w.live) && ((w.obj 10).kind == .client) && (w.obj 10).pin && (w.obj 10).fd &&
    (!(w.obj 10).eof) && (!(w.obj 10).gotEscape) && ((w.obj 10).writers == [0])) && ((w.obj 1).fd && ((w.obj 1).gen == 0) && (sentTo 1 w.fx == bs "nnJa") && ((w.obj 1).pend == bs "bc"))) =
    some true := by
  rw [tel_world]; decide +kernel

/-- The hypotheses of `C102_replay_partial` are met, and the user gets what was logged. -/
example : ∃ w w', telConf.world.run replayEnv replaySteps = some w ∧ Types w 10 0 [] ∧ w.step replayEnv (.poll 10 true (some (.data [0xFF, 0x4C])) none) = some w' ∧
    (w'.obj 10).pend = lastN 16383 ((w.obj 10).pend ++ (bs "\r\n<ConMan> Begin log replay of console [p].\r\n" ++ bs "nnJabc" ++ bs "\r\n<ConMan> End log replay of console [p].\r\n")) := by
  obtain ⟨w, hw, e⟩ := Option.map_eq_some_iff.1 replay_demo
  simp only [Bool.and_eq_true, beq_iff_eq, decide_eq_true_eq, Bool.not_eq_true'] at e
  obtain ⟨⟨⟨⟨⟨⟨⟨e1, e2⟩, e3⟩, e4⟩, e5⟩, e6⟩, e7⟩, ⟨⟨f1, f2⟩, f3⟩, f4⟩ := e
  obtain ⟨k, nm, o, a1, -, a3, -⟩ := tel_console 0 (by decide)
  have hk : k.name = bs "p" := by
    have := congrArg (·[0]?) tel_logs.2
    rw [List.getElem?_map, a1] at this
    exact Option.some.inj this
  obtain ⟨w', h1, h2, -⟩ := C102_replay_partial (cl := 10) (ws := []) (mem := fun _ => List.replicate 16384 0) hw rfl (fun _ => List.length_replicate) a1 (by rw [a3]; rfl)
    (by rw [hk]; decide) ⟨e1, e2, e3, e4, e5, e6, e7⟩ f1 f2 true
  refine ⟨w, w', hw, ⟨e1, e2, e3, e4, e5, e6, e7⟩, h1, ?_⟩
  rw [h2, hk]
  show lastN _ (_ ++ replayOf _ (lastN 4096 (sentTo 1 w.fx ++ (w.obj 1).pend))) = _
  rw [f3, f4]
  rfl

/-- The same without a log that could be opened: the hypotheses of `C102_not_logged` are met. -/
example : ∃ w w', telConf.world.run replayEnv (.logOpen 1 false :: replaySteps.tail) = some w ∧ Types w 10 0 [] ∧
    w.step replayEnv (.poll 10 true (some (.data [0xFF, 0x4C])) none) = some w' ∧
    (w'.obj 10).pend = lastN 16383 ((w.obj 10).pend ++ bs "\r\n<ConMan> Console [p] is not being logged -- cannot replay.\r\n") := by
  have e : (telConf.world.run replayEnv (.logOpen 1 false :: replaySteps.tail)).map (fun w => (decide (10 ∈ w.live) && ((w.obj 10).kind == .client) && (w.obj 10).pin && (w.obj 10).fd &&
      (!(w.obj 10).eof) && (!(w.obj 10).gotEscape) && ((w.obj 10).writers == [0])) && !(w.obj 1).fd) = some true := by
    rw [tel_world]; decide +kernel
  obtain ⟨w, hw, e⟩ := Option.map_eq_some_iff.1 e
  simp only [Bool.and_eq_true, beq_iff_eq, decide_eq_true_eq, Bool.not_eq_true'] at e
  obtain ⟨⟨⟨⟨⟨⟨⟨e1, e2⟩, e3⟩, e4⟩, e5⟩, e6⟩, e7⟩, f1⟩ := e
  obtain ⟨k, nm, o, a1, -, a3, -⟩ := tel_console 0 (by decide)
  have hk : k.name = bs "p" := by
    have := congrArg (·[0]?) tel_logs.2
    rw [List.getElem?_map, a1] at this
    exact Option.some.inj this
  obtain ⟨w', h1, h2, -⟩ := C102_not_logged (cl := 10) (ws := []) (mem := fun _ => List.replicate 16384 0) hw rfl a1 (.inr f1)
    (by rw [hk]; decide) ⟨e1, e2, e3, e4, e5, e6, e7⟩ true
  refine ⟨w, w', hw, ⟨e1, e2, e3, e4, e5, e6, e7⟩, h1, ?_⟩
  rw [h2, hk]
  rfl

/-- A write to the log fails, the log is shut down and opened again: the hypotheses of `C102_reopened` are met. -/
example : ∃ w0 w, telConf.world.run replayEnv (replaySteps ++ [.poll 1 true none (some .err)]) = some w0 ∧
    w0.run replayEnv [.logOpen 1 true, .poll 0 true (some (.data (bs "d"))) none, .poll 1 true none (some (.accept 1))] = some w ∧ Types w 10 0 [] ∧
    (w.obj 1).fd = true ∧ (w0.obj 1).hist = (bs "nnJabc").map some ++ [none] ∧ (w0.obj 1).pend = [] ∧ shortLives 0 (w0.obj 1).hist = true ∧ (w.obj 1).gen = (w0.obj 1).gen ∧
    sentTo 1 w.fx = sentTo 1 w0.fx ++ bs "n" ∧ (w.obj 1).pend = bs "d" := by
  have e : (telConf.world.run replayEnv (replaySteps ++ [.poll 1 true none (some .err)])).map (fun w0 =>
      (w0.run replayEnv [.logOpen 1 true, .poll 0 true (some (.data (bs "d"))) none, .poll 1 true none (some (.accept 1))]).map (fun w =>
      (decide (10 ∈ w.live) && ((w.obj 10).kind == .client) && (w.obj 10).pin && (w.obj 10).fd && (!(w.obj 10).eof) && (!(w.obj 10).gotEscape) && ((w.obj 10).writers == [0])) &&
      ((w.obj 1).fd && ((w0.obj 1).hist == (bs "nnJabc").map some ++ [none]) && ((w0.obj 1).pend == []) && shortLives 0 (w0.obj 1).hist && ((w.obj 1).gen == (w0.obj 1).gen) &&
        (sentTo 1 w.fx == sentTo 1 w0.fx ++ bs "n") && ((w.obj 1).pend == bs "d"))) == some true) = some true := by
    rw [tel_world]; decide +kernel
  obtain ⟨w0, hw0, e⟩ := Option.map_eq_some_iff.1 e
  rw [beq_iff_eq, Option.map_eq_some_iff] at e
  obtain ⟨w, hw, e⟩ := e
  simp only [Bool.and_eq_true, beq_iff_eq, decide_eq_true_eq, Bool.not_eq_true'] at e
  obtain ⟨⟨⟨⟨⟨⟨⟨e1, e2⟩, e3⟩, e4⟩, e5⟩, e6⟩, e7⟩, ⟨⟨⟨⟨⟨f1, f2⟩, f3⟩, f4⟩, f5⟩, f6⟩, f7⟩ := e
  exact ⟨w0, w, hw0, hw, ⟨e1, e2, e3, e4, e5, e6, e7⟩, f1, f2, f3, f4, f5, f6, f7⟩

/-- The names of this configuration are short enough. -/
example : ∀ k ∈ telConf.consoles, k.name.length ≤ 1023 := by
  have h : telConf.consoles.all (fun k => decide (k.name.length ≤ 1023)) = true := by decide +kernel
  exact fun k hk => of_decide_eq_true (List.all_eq_true.1 h k hk)

/-- Console `q` comes up and says "b"; client 10 connects; the log is written in part. -/
def Spec.replayEvs : List DiskEv := [.openLog 3 true tmDemo, .step (.connUp 2), .step (.check ⟨.connect, [2], false, false, false, false⟩), .step (.grant 10 0),
  .step (.poll 2 true (some (.data (bs "b"))) none), .step (.poll 3 true none (some (.accept 3)))]

/-- The hypotheses of `C102_file` are met: the file did not exist, and a replay would show its contents, "nnJ", and "b". -/
example : ∃ d, (Disk.boot telConf diskDir (fun _ => false) false).run telConf 7 replayEnv replayEvs = some d ∧
    leftAlone telConf 7 replayEnv (bs "/tmp/q.log") (Disk.boot telConf diskDir (fun _ => false) false) replayEvs = true ∧ onlyLog telConf 7 (bs "/tmp/q.log") (some 3) replayEvs ∧
    Types d.w 10 1 [] ∧ (d.w.obj 3).fd = true ∧ (d.w.obj 3).gen = 0 ∧ fileAt diskDir (bs "/tmp/q.log") = [] ∧ fileAt d.fs (bs "/tmp/q.log") = bs "nnJ" ∧ (d.w.obj 3).pend = bs "b" := by
  have e : ((Disk.boot telConf diskDir (fun _ => false) false).run telConf 7 replayEnv replayEvs).map (fun d =>
      (decide (10 ∈ d.w.live) && ((d.w.obj 10).kind == .client) && (d.w.obj 10).pin && (d.w.obj 10).fd && (!(d.w.obj 10).eof) && (!(d.w.obj 10).gotEscape) && ((d.w.obj 10).writers == [2])) &&
      ((d.w.obj 3).fd && ((d.w.obj 3).gen == 0) && (fileAt d.fs (bs "/tmp/q.log") == bs "nnJ") && ((d.w.obj 3).pend == bs "b"))) = some true ∧
      leftAlone telConf 7 replayEnv (bs "/tmp/q.log") (Disk.boot telConf diskDir (fun _ => false) false) replayEvs = true ∧
      telConf.logName 7 tmDemo 3 = some (some (bs "/tmp/q.log")) := by decide +kernel
  obtain ⟨e, g1, g2⟩ := e
  obtain ⟨d, hd, e⟩ := Option.map_eq_some_iff.1 e
  simp only [Bool.and_eq_true, beq_iff_eq, decide_eq_true_eq, Bool.not_eq_true'] at e
  obtain ⟨⟨⟨⟨⟨⟨⟨e1, e2⟩, e3⟩, e4⟩, e5⟩, e6⟩, e7⟩, ⟨⟨f1, f2⟩, f3⟩, f4⟩ := e
  refine ⟨d, hd, g1, ?_, ⟨e1, e2, e3, e4, e5, e6, e7⟩, f1, f2, by decide +kernel, f3, f4⟩
  intro m ok tm x hm hx
  simp only [replayEvs, List.mem_cons, DiskEv.openLog.injEq, List.not_mem_nil, or_false, reduceCtorEq] at hm
  obtain ⟨rfl, rfl, rfl⟩ := hm
  rw [g2] at hx
  cases hx
  simp

/-- The state of `C102_stale` is reached: the log is opened, gets a time stamp, a write to it fails, and it is opened again. -/
theorem C102_stale_reached {a d : List UInt8} (h1 : env.txt (.logOpened 1) 0 = a) (h2 : env.txt (.logStamp 1) 1 = a) (h3 : env.txt (.logOpened 1) 3 = d)
    (ha : 0 < a.length ∧ a.length < 16384) (hd : 0 < d.length ∧ d.length < 16384) :
    ∃ w, (World.boot [⟨.test, false, some ⟨false, false⟩⟩]).run env [.logOpen 1 true, .logStamp 1, .poll 1 true none (some .err), .logOpen 1 true] = some w ∧
      (w.obj 1).hist = (a ++ a).map some ++ [none] ++ d.map some ∧ (w.obj 1).fd = true ∧ w.logHist 0 = some (w.obj 1).hist := by
  have s0 : OpenLog (World.boot [⟨.test, false, some ⟨false, false⟩⟩]) [] ∧ (World.boot [⟨.test, false, some ⟨false, false⟩⟩]).tick = 0 :=
    ⟨⟨by decide, rfl, rfl, rfl, rfl⟩, rfl⟩
  obtain ⟨w1, a1, a2, a3, a4, a5⟩ := s0.1.logOpen env (by rw [s0.2, h1]; exact ha)
  rw [s0.2, h1, List.nil_append] at a3
  rw [s0.2] at a2
  have t1 : OpenLog { w1 with tick := w1.tick + 1 } (a.map some) := ⟨a3.live, a3.kind, a3.eof, a3.log, a3.hist⟩
  have k1 : ({ w1 with tick := w1.tick + 1 } : World).tick = 1 := by show w1.tick + 1 = 1; rw [a2]
  obtain ⟨w2, b1, b2, b3, b4, b5⟩ := t1.logStamp env (by rw [k1, h2]; exact ha) a4 a5
  rw [k1, h2] at b3
  rw [k1] at b2
  have t2 : OpenLog { w2 with tick := w2.tick + 1 } (a.map some ++ a.map some) := ⟨b3.live, b3.kind, b3.eof, b3.log, b3.hist⟩
  obtain ⟨w3, c1, c2, c3⟩ := t2.fail env b4 b5
  have t3 : OpenLog { w3 with tick := w3.tick + 1 } (a.map some ++ a.map some ++ [none]) := ⟨c3.live, c3.kind, c3.eof, c3.log, c3.hist⟩
  have k3 : ({ w3 with tick := w3.tick + 1 } : World).tick = 3 := by show w3.tick + 1 = 3; rw [c2]; show w2.tick + 1 + 1 = 3; rw [b2]
  obtain ⟨w4, d1, d2, d3, d4, d5⟩ := t3.logOpen env (by rw [k3, h3]; exact hd)
  rw [k3, h3] at d3
  refine ⟨{ w4 with tick := w4.tick + 1 }, ?_, by rw [List.map_append]; exact d3.hist, d4.1, ?_⟩
  · simp only [World.run, a1, b1, c1, d1, Option.bind_some]
  · show (w4.obj 0).log.bind (fun l => if (w4.obj l).fd then some (w4.obj l).hist else none) = _
    rw [d3.log, Option.bind_some, if_pos d4.1]

end Conman
