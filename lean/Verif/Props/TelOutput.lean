import Verif.Lemma.TelOutput
import Verif.Props.EndToEnd
import Verif.Props.Whole

/-
C99: what the log and the users of a telnet console get of what its peer sends.  The vocabulary is in `Spec/TelOutput.lean`, `Spec/LogBook.lean` and
`Spec/Telnet.lean`.
-/
namespace Conman
open Spec

/-- C99. In any history, what a telnet console says is what decoding gives for the bytes that came from its connections, however they are cut into reads and
whatever else happens in between. -/
theorem C99_decoded {env : Env} {w w' : World} (h : Reachable env w) (k : Nat) (ss : List Step) (hr : w.run env ss = some w') (hl : k ∈ w.live)
    (hk : (w.obj k).kind = .telnet) (hlen : ∀ i up d wr, .poll i up (some (.data d)) wr ∈ ss → d.length ≤ 8191)
    (chunks : List (List UInt8)) (hc : chunks.flatten = gotAll env w k ss) :
    ∃ r, telChunks (w.obj k).iac chunks = some ((w'.obj k).iac, saidAll env w k ss, r) := by
  obtain ⟨r, e⟩ := tel_run k ss h.finv hr hl hk hlen
  exact ⟨r, by rw [telChunks_eq, hc, e]⟩

/-- C99 in part: if the bytes from the connection are the beginning of a telnet stream, what the console says is the beginning of the data of that stream, and all of
the data if they are all of the stream.
Missing: a connection that ended inside a command (`C99_old_connection`), subnegotiations with 0xFF (`C35_iac_in_subnegotiation_leaks`). -/
theorem C99_said_partial {env : Env} {w w' : World} (h : Reachable env w) (k : Nat) (ss : List Step) (hr : w.run env ss = some w') (hl : k ∈ w.live)
    (hk : (w.obj k).kind = .telnet) (hlen : ∀ i up d wr, .poll i up (some (.data d)) wr ∈ ss → d.length ≤ 8191) (hi : (w.obj k).iac = none)
    (toks : List TelTok) (hok : ∀ t ∈ toks, t.ok) (hsub : ∀ body, .sub body ∈ toks → (255 : UInt8) ∉ body) (hg : gotAll env w k ss <+: toks.flatMap TelTok.enc) :
    saidAll env w k ss <+: toks.flatMap TelTok.appData ∧
    (gotAll env w k ss = toks.flatMap TelTok.enc → saidAll env w k ss = toks.flatMap TelTok.appData ∧ (w'.obj k).iac = none) := by
  obtain ⟨r, e⟩ := tel_run k ss h.finv hr hl hk hlen
  rw [hi] at e
  have ht := telRef_toks toks hok hsub
  constructor
  · obtain ⟨z, hz⟩ := hg
    rw [← hz, telRef_append, e] at ht
    dsimp only at ht
    cases hq : telRef (w'.obj k).iac z with
    | none => rw [hq] at ht; simp [telPre] at ht
    | some q =>
      rw [hq] at ht
      obtain ⟨a, b, d⟩ := q
      simp only [telPre, Option.some.injEq, Prod.mk.injEq] at ht
      exact ⟨b, ht.2.1⟩
  · intro g
    rw [g, ht, Option.some.injEq, Prod.mk.injEq, Prod.mk.injEq] at e
    exact ⟨e.2.1.symm, e.1.symm⟩

/-- C99 in part: the log of a telnet console of any configuration, processed: as long as it was not shut down and its buffer was never full, it is the data of
the telnet stream the console's peer has sent since the daemon was started, laid out as configured, with notices in between.
Missing: as above, and as in `C92_log_complete_partial`. -/
theorem C99_logged_partial {c : SConf} {env : Env} (he : LogEnv env) {ss : List Step} {w : World} (hr : c.world.run env ss = some w)
    {n : Nat} {k : Console} (hn : c.consoles[n]? = some k) (hkt : ∃ h p, k.dev = .telnet h p)
    {nm : List UInt8} {o : LogOpt} (hlog : k.log = some (nm, o)) (hp : o.sanitize = true ∨ o.timestamp = true)
    (hlen : ∀ i up d wr, .poll i up (some (.data d)) wr ∈ ss → d.length ≤ 8191)
    (toks : List TelTok) (hok : ∀ t ∈ toks, t.ok) (hsub : ∀ body, .sub body ∈ toks → (255 : UInt8) ∉ body)
    (hgot : gotAll env c.world (2 * n) ss = toks.flatMap TelTok.enc)
    (hg : (w.obj (2 * n + 1)).gen = 0) (hf : neverFull env c.world (2 * n + 1) ss = true) :
    ∃ evs, NotesOk env evs ∧ logOuts evs = toks.flatMap TelTok.appData ∧
      sentTo (2 * n + 1) w.fx ++ (w.obj (2 * n + 1)).pend = logPage ⟨o.sanitize, o.timestamp⟩ (env.clk (2 * n + 1)) 0 [] evs := by
  obtain ⟨evs, h1, h2, h3⟩ := C92_log_complete_partial (c.consoles.map c.entry) ss he c.entry_console hr n (c.entry k) ⟨o.sanitize, o.timestamp⟩
    (by rw [List.getElem?_map, hn]; rfl) (by show k.log.map _ = _; rw [hlog]; rfl) hp hlen hg hf
  have h0 : Reachable env c.world := ⟨_, [], c.entry_console, rfl⟩
  obtain ⟨q1, q2⟩ := world_console (env := env) c (ss := []) rfl hn
  have hi : (c.world.obj (2 * n)).iac = none := by
    show ((World.boot _).obj (2 * n)).iac = _
    rw [boot_obj, show 2 * n / 2 = n by omega, List.getElem?_map, hn]
    dsimp only [Option.map_some]
    rw [if_pos (by omega)]
  obtain ⟨hh, p, hd⟩ := hkt
  have := (C99_said_partial h0 (2 * n) ss hr q1 (by rw [q2, hd]; rfl) hlen hi toks hok hsub (by rw [hgot]; exact List.prefix_rfl)).2 hgot
  exact ⟨evs, h1, h2.trans this.1, h3⟩

/-- C99 in part: whatever becomes of its log, no byte of the telnet protocol gets into it: what it holds is taken in order from the data of the stream and the notices.
Missing: as in `C99_said_partial`. -/
theorem C99_log_clean_partial {c : SConf} {env : Env} (he : LogEnv env) {ss : List Step} {w : World} (hr : c.world.run env ss = some w)
    {n : Nat} {k : Console} (hn : c.consoles[n]? = some k) (hkt : ∃ h p, k.dev = .telnet h p)
    {nm : List UInt8} {o : LogOpt} (hlog : k.log = some (nm, o)) (hp : o.sanitize = false ∧ o.timestamp = false)
    (hlen : ∀ i up d wr, .poll i up (some (.data d)) wr ∈ ss → d.length ≤ 8191)
    (toks : List TelTok) (hok : ∀ t ∈ toks, t.ok) (hsub : ∀ body, .sub body ∈ toks → (255 : UInt8) ∉ body)
    (hgot : gotAll env c.world (2 * n) ss <+: toks.flatMap TelTok.enc) :
    ∃ evs, NotesOk env evs ∧ logOuts evs <+: toks.flatMap TelTok.appData ∧
      (sentTo (2 * n + 1) w.fx ++ (w.obj (2 * n + 1)).pend).Sublist (evs.flatMap LogEv.bytes) := by
  obtain ⟨evs, h1, h2, h3⟩ := C92_nothing_invented_raw (c.consoles.map c.entry) ss he c.entry_console hr n (c.entry k)
    (by rw [List.getElem?_map, hn]; rfl) (by show k.log.map _ = _; rw [hlog]; show some (LogOpts.mk o.sanitize o.timestamp) = _; rw [hp.1, hp.2]) hlen
  have h0 : Reachable env c.world := ⟨_, [], c.entry_console, rfl⟩
  obtain ⟨q1, q2⟩ := world_console (env := env) c (ss := []) rfl hn
  have hi : (c.world.obj (2 * n)).iac = none := by
    show ((World.boot _).obj (2 * n)).iac = _
    rw [boot_obj, show 2 * n / 2 = n by omega, List.getElem?_map, hn]
    dsimp only [Option.map_some]
    rw [if_pos (by omega)]
  obtain ⟨hh, p, hd⟩ := hkt
  have := (C99_said_partial h0 (2 * n) ss hr q1 (by rw [q2, hd]; rfl) hlen hi toks hok hsub hgot).1
  exact ⟨evs, h1, by rw [h2]; exact this, h3⟩

/-- C99 in part: the terminal of a user who watches a telnet console, as in C94: it shows the data of the stream that the peer sends, with notices and replays in between,
and nothing of the telnet protocol.
Missing: as in `C99_said_partial`. -/
theorem C99_shown_partial {env : Env} (hv : ShowEnv env) {w w' : World} (h : Reachable env w) (c k : Nat) (ss : List Step)
    {stk : List UInt8} (hstk : 1024 ≤ stk.length) {es : List CEvent} {s s' : CSess} (hp : s.phase = .running) (hd : s.cs.done = false)
    (hc : s.closed = s.cs.wrClosed) (hrun : s.run stk es = some s')
    {x : List UInt8} (hx : sentTo c w'.fx = sentTo c w.fx ++ x) (hnet : received es <+: x)
    (hr : w.run env ss = some w') (hl : c ∈ w.live) (hk : (w.obj c).kind = .client) (hng : ss.all (noGrant c) = true)
    (hlen : ∀ i up d wr, .poll i up (some (.data d)) wr ∈ ss → d.length ≤ 8191) (hl' : c ∈ w'.live) (he' : (w'.obj c).eof = false)
    (hup : keepsUp env w c ss = true) (hwat : watches env w c k ss = true)
    (hkl : k ∈ w.live) (hkt : (w.obj k).kind = .telnet) (hi : (w.obj k).iac = none)
    (toks : List TelTok) (hok : ∀ t ∈ toks, t.ok) (hsub : ∀ body, .sub body ∈ toks → (255 : UInt8) ∉ body) (hgot : gotAll env w k ss = toks.flatMap TelTok.enc) :
    ∃ (evs : List ShowEv) (r : List UInt8), (∀ e ∈ evs, e.Ok env) ∧ evs.flatMap ShowEv.outs = toks.flatMap TelTok.appData ∧
      dataOf s'.out = dataOf s.out ++ r ∧ s'.log = s.log.map (· ++ r) ∧ r <+: (w.obj c).pend ++ evs.flatMap ShowEv.bytes ∧
      (s'.phase = .running → received es = x → r ++ (w'.obj c).pend = (w.obj c).pend ++ evs.flatMap ShowEv.bytes) := by
  obtain ⟨evs, r, a1, a2, a3⟩ := C94_output_reaches_terminal hv h c ss hstk hp hd hc hrun hx hnet hr hl hk hng hlen hl' he' hup
  refine ⟨evs, r, a1, ?_, a3⟩
  rw [a2, heard_said c k ss hwat]
  exact ((C99_said_partial h k ss hr hkl hkt hlen hi toks hok hsub (by rw [hgot]; exact List.prefix_rfl)).2 hgot).1

/-- C99 in part: a user with `-Q` who watches a telnet console: exactly the data of the stream.
Missing: as in `C99_said_partial`. -/
theorem C99_quiet_partial {env : Env} {w w' : World} (h : Reachable env w) (c k : Nat) (ss : List Step)
    {stk : List UInt8} (hstk : 1024 ≤ stk.length) {es : List CEvent} {s s' : CSess} (hp : s.phase = .running) (hd : s.cs.done = false)
    (hc : s.closed = s.cs.wrClosed) (hrun : s.run stk es = some s')
    {x : List UInt8} (hx : sentTo c w'.fx = sentTo c w.fx ++ x) (hnet : received es <+: x)
    (hr : w.run env ss = some w') (hl : c ∈ w.live) (hk : (w.obj c).kind = .client) (hq : (w.obj c).quiet = true) (hng : ss.all (noGrant c) = true)
    (hlen : ∀ i up d wr, .poll i up (some (.data d)) wr ∈ ss → d.length ≤ 8191)
    (hself : (wireCommands (w.obj c).gotEscape (ss.flatMap (readFrom c))).any isSelf = false)
    (hno : noOverflow env w c ss = true) (hl' : c ∈ w'.live) (he' : (w'.obj c).eof = false) (hpe : (w.obj c).pend = [])
    (hwat : watches env w c k ss = true) (hkl : k ∈ w.live) (hkt : (w.obj k).kind = .telnet) (hi : (w.obj k).iac = none)
    (toks : List TelTok) (hok : ∀ t ∈ toks, t.ok) (hsub : ∀ body, .sub body ∈ toks → (255 : UInt8) ∉ body) (hgot : gotAll env w k ss = toks.flatMap TelTok.enc) :
    ∃ r, dataOf s'.out = dataOf s.out ++ r ∧ r <+: toks.flatMap TelTok.appData ∧
      (s'.phase = .running → received es = x → (w'.obj c).pend = [] → r = toks.flatMap TelTok.appData) := by
  obtain ⟨r, a1, -, a3, a4⟩ := C94_quiet_terminal h c ss hstk hp hd hc hrun hx hnet hr hl hk hq hng hlen hself hno hl' he'
  have e := ((C99_said_partial h k ss hr hkl hkt hlen hi toks hok hsub (by rw [hgot]; exact List.prefix_rfl)).2 hgot).1
  rw [hpe, List.nil_append, heard_said c k ss hwat, e] at a3 a4
  exact ⟨r, a1, a3, fun g1 g2 g3 => by have := a4 g1 g2; rw [g3, List.append_nil] at this; exact this⟩

/-! ### A configuration with two telnet consoles -/

/-- The file. -/
def Spec.telText : String := "SERVER logdir=\"/tmp\"\nGLOBAL log=\"%N.log\"\nCONSOLE name=\"p\" dev=\"host:7001\" logopts=\"sanitize\"\nCONSOLE name=\"q\" dev=\"host:7002\" logopts=\"nosanitize\"\n"

/-- What is read from it. -/
def Spec.telConf : SConf := (readDemo telText).getD confDemo

theorem tel_read : readDemo telText = some telConf ∧
    telConf.consoles.map (fun k => (k.name, k.dev.kind, k.log.map fun l => (l.2.sanitize, l.2.timestamp))) =
      [(bs "p", .telnet, some (true, false)), (bs "q", .telnet, some (false, false))] := by decide +kernel

/-- Its consoles. -/
def Spec.telCfg : List ConConf := [⟨.telnet, false, some ⟨true, false⟩⟩, ⟨.telnet, false, some ⟨false, false⟩⟩]

theorem tel_world : telConf.world = World.boot telCfg := congrArg World.boot (show telConf.consoles.map telConf.entry = telCfg by decide +kernel)

theorem tel_console (n : Nat) (hn : n < 2) : ∃ k nm o, telConf.consoles[n]? = some k ∧ (∃ h p, k.dev = .telnet h p) ∧ k.log = some (nm, o) ∧ o.timestamp = false ∧
    (o.sanitize = decide (n = 0)) := by
  have e := tel_read.2
  have : ∀ l : List Console, l.map (fun k => (k.name, k.dev.kind, k.log.map fun l => (l.2.sanitize, l.2.timestamp))) =
      [(bs "p", .telnet, some (true, false)), (bs "q", .telnet, some (false, false))] →
      ∃ k nm o, l[n]? = some k ∧ (∃ h p, k.dev = .telnet h p) ∧ k.log = some (nm, o) ∧ o.timestamp = false ∧ (o.sanitize = decide (n = 0)) := by
    intro l hl
    match l, hl with
    | [], hl => cases hl
    | [_], hl => simp at hl
    | _ :: _ :: _ :: _, hl => simp at hl
    | [a, b], hl =>
      simp only [List.map_cons, List.map_nil, List.cons.injEq, and_true, Prod.mk.injEq, Option.map_eq_some_iff] at hl
      obtain ⟨⟨-, a1, ⟨ln, lo⟩, a2, a3, a4⟩, -, b1, ⟨mn, mo⟩, b2, b3, b4⟩ := hl
      have kt : ∀ d : ConDev, d.kind = .telnet → ∃ h p, d = .telnet h p := by
        intro d hd
        cases d <;> first | exact ⟨_, _, rfl⟩ | cases hd
      match n, hn with
      | 0, _ => exact ⟨a, ln, lo, rfl, kt _ a1, a2, a4, by rw [a3]; rfl⟩
      | 1, _ => exact ⟨b, mn, mo, rfl, kt _ b1, b2, b4, by rw [b3]; rfl⟩
  exact this _ e

/-- Both logs are opened, both consoles come up; their peers send "a", an option and ESC, cut inside the option, one after the other; client 10 watches console `q`. -/
def Spec.telOut : List Step := [.logOpen 1 true, .logOpen 3 true, .connUp 0, .connUp 2, .check ⟨.connect, [2], false, false, false, false⟩, .grant 10 0,
  .poll 0 true (some (.data [0x61, 255, 251])) none, .poll 2 true (some (.data [0x61, 255])) none, .poll 2 true (some (.data [251, 24, 0x1B])) none,
  .poll 0 true (some (.data [24, 0x1B])) none]

def Spec.telToks : List TelTok := [.data 0x61, .will 24, .data 0x1B]

example : (telConf.world.run Demo.env telOut).map (fun w => ((w.obj 1).gen, (w.obj 3).gen, sentTo 1 w.fx ++ (w.obj 1).pend, sentTo 3 w.fx ++ (w.obj 3).pend)) =
      some (0, 0, [0x6E, 0x6E] ++ bs "a^[", [0x6E, 0x6E, 0x4A] ++ [0x61, 0x1B]) ∧
    neverFull Demo.env telConf.world 1 telOut = true ∧
    gotAll Demo.env telConf.world 0 telOut = telToks.flatMap TelTok.enc ∧ gotAll Demo.env telConf.world 2 telOut = telToks.flatMap TelTok.enc ∧
    telToks.flatMap TelTok.appData = [0x61, 0x1B] := by
  rw [tel_world]
  exact ⟨by decide +kernel, by decide +kernel, by decide +kernel, by decide +kernel, by decide⟩

example : (∀ t ∈ telToks, t.ok) ∧ (∀ body, .sub body ∈ telToks → (255 : UInt8) ∉ body) ∧
    (∀ i up d wr, .poll i up (some (.data d)) wr ∈ telOut → d.length ≤ 8191) := by
  refine ⟨?_, ?_, ?_⟩
  · intro t ht
    simp only [telToks, List.mem_cons, List.not_mem_nil, or_false] at ht
    rcases ht with rfl | rfl | rfl <;> simp [TelTok.ok]
  · intro body hb
    simp [telToks] at hb
  · intro i up d wr hm
    simp only [telOut, List.mem_cons, Step.poll.injEq, Option.some.injEq, ReadRes.data.injEq, List.not_mem_nil, or_false, reduceCtorEq, false_or] at hm
    rcases hm with ⟨_, _, rfl, _⟩ | ⟨_, _, rfl, _⟩ | ⟨_, _, rfl, _⟩ | ⟨_, _, rfl, _⟩ <;> decide

/-- Client 10, from where it is connected. -/
example : ∃ w w', Reachable Demo.env w ∧ w.run Demo.env (telOut.drop 6) = some w' ∧ 10 ∈ w.live ∧ (w.obj 10).kind = .client ∧ 2 ∈ w.live ∧ (w.obj 2).kind = .telnet ∧
    (w.obj 2).iac = none ∧ watches Demo.env w 10 2 (telOut.drop 6) = true ∧ keepsUp Demo.env w 10 (telOut.drop 6) = true ∧ (telOut.drop 6).all (noGrant 10) = true ∧
    10 ∈ w'.live ∧ (w'.obj 10).eof = false ∧ gotAll Demo.env w 2 (telOut.drop 6) = telToks.flatMap TelTok.enc ∧ saidAll Demo.env w 2 (telOut.drop 6) = [0x61, 0x1B] := by
  have e : ((World.boot telCfg).run Demo.env (telOut.take 6)).map (fun w =>
      ((w.run Demo.env (telOut.drop 6)).map (fun w' => decide (10 ∈ w'.live) && !(w'.obj 10).eof) == some true) &&
      (decide (10 ∈ w.live) && ((w.obj 10).kind == .client) && decide (2 ∈ w.live) && ((w.obj 2).kind == .telnet) && ((w.obj 2).iac == none) &&
      watches Demo.env w 10 2 (telOut.drop 6) && keepsUp Demo.env w 10 (telOut.drop 6) &&
      (gotAll Demo.env w 2 (telOut.drop 6) == telToks.flatMap TelTok.enc) && (saidAll Demo.env w 2 (telOut.drop 6) == [0x61, 0x1B]))) = some true := by decide +kernel
  obtain ⟨w, hw, e⟩ := Option.map_eq_some_iff.1 e
  simp only [Bool.and_eq_true, beq_iff_eq, decide_eq_true_eq, Option.map_eq_some_iff, Bool.not_eq_true'] at e
  obtain ⟨⟨w', h1, h2, h3⟩, ⟨⟨⟨⟨⟨⟨⟨e1, e2⟩, e3⟩, e4⟩, e5⟩, e6⟩, e7⟩, e8⟩, e9⟩ := e
  exact ⟨w, w', ⟨telCfg, _, by decide, hw⟩, h1, e1, e2, e3, e4, e5, e6, e7, by decide, h2, h3, e8, e9⟩

/-- C99, what fails. The connection of a telnet console ends after the first byte of a command; the first byte that the next connection brings is not seen by
anybody. -/
theorem C99_old_connection :
    ∃ w, Reachable Demo.env w ∧ 0 ∈ w.live ∧ (w.obj 0).kind = .telnet ∧
      gotAll Demo.env w 0 [.poll 0 true (some (.data [255])) none, .poll 0 true (some .eof) none, .poll 0 true none (some (.accept 99)), .connUp 0,
        .poll 0 true (some (.data [0x61, 0x62])) none] = [255] ++ [TelTok.data 0x61, TelTok.data 0x62].flatMap TelTok.enc ∧
      saidAll Demo.env w 0 [.poll 0 true (some (.data [255])) none, .poll 0 true (some .eof) none, .poll 0 true none (some (.accept 99)), .connUp 0,
        .poll 0 true (some (.data [0x61, 0x62])) none] = [0x62] := by
  have e : ((World.boot telCfg).run Demo.env [.connUp 0]).map (fun w => (decide (0 ∈ w.live), (w.obj 0).kind,
      gotAll Demo.env w 0 [.poll 0 true (some (.data [255])) none, .poll 0 true (some .eof) none, .poll 0 true none (some (.accept 99)), .connUp 0,
        .poll 0 true (some (.data [0x61, 0x62])) none],
      saidAll Demo.env w 0 [.poll 0 true (some (.data [255])) none, .poll 0 true (some .eof) none, .poll 0 true none (some (.accept 99)), .connUp 0,
        .poll 0 true (some (.data [0x61, 0x62])) none])) = some (true, .telnet, [255, 0x61, 0x62], [0x62]) := by decide +kernel
  obtain ⟨w, hw, e⟩ := Option.map_eq_some_iff.1 e
  simp only [Prod.mk.injEq, decide_eq_true_eq] at e
  exact ⟨w, ⟨telCfg, _, by decide, hw⟩, e.1, e.2.1, e.2.2.1, e.2.2.2⟩

end Conman
