import Verif.Lemma.ReplayHist
import Verif.Lemma.WorldHist
import Verif.Lemma.DiskNames
import Verif.Lemma.WorldFeed

/-
Replays of logs in the running daemon: helper lemmas for C102.
-/
namespace Conman
open Spec

/-- The log of a console. -/
theorem world_logptr {env : Env} (c : SConf) {ss : List Step} {w : World} (hr : c.world.run env ss = some w) {n : Nat} {k : Console} (hn : c.consoles[n]? = some k) :
    (w.obj (2 * n)).log = if k.log.isSome then some (2 * n + 1) else none := by
  have he : (c.consoles.map c.entry)[2 * n / 2]? = some (c.entry k) := by
    rw [show 2 * n / 2 = n by omega, List.getElem?_map, hn]; rfl
  have h0 : Reachable env c.world := ⟨_, [], c.entry_console, rfl⟩
  have hk : (c.world.obj (2 * n)).kind = k.dev.kind ∧ (c.world.obj (2 * n)).log = if k.log.isSome then some (2 * n + 1) else none := by
    show ((World.boot _).obj (2 * n)).kind = _ ∧ ((World.boot _).obj (2 * n)).log = _
    rw [boot_obj, he]
    dsimp only
    rw [if_pos (by omega)]
    refine ⟨rfl, ?_⟩
    show (if (k.log.map _).isSome = true then _ else _) = _
    rw [Option.isSome_map]
  have hl : 2 * n ∈ c.world.live := (boot_live _ _).2 ⟨_, he, Or.inl (by omega)⟩
  exact (congrArg Prod.snd (run_rc (2 * n) ss h0.finv hr hl (by rw [hk.1]; exact not_client_of_console k.dev.kind_console))).trans hk.2

theorem world_loghist {env : Env} (c : SConf) {ss : List Step} {w : World} (hr : c.world.run env ss = some w) {n : Nat} {k : Console} (hn : c.consoles[n]? = some k) :
    w.logHist (2 * n) = if k.log.isSome ∧ (w.obj (2 * n + 1)).fd = true then some (w.obj (2 * n + 1)).hist else none := by
  unfold World.logHist
  rw [world_logptr c hr hn]
  cases hl : k.log.isSome
  · simp
  · simp

/-- A log that was never shut down. -/
theorem world_hist {env : Env} (c : SConf) {ss : List Step} {w : World} (hr : c.world.run env ss = some w) {n : Nat} {k : Console} (hn : c.consoles[n]? = some k)
    (hl : k.log.isSome = true) (hg : (w.obj (2 * n + 1)).gen = 0) :
    ∃ t, (w.obj (2 * n + 1)).hist = t.map some ∧ lastN queueCap (sentTo (2 * n + 1) w.fx ++ (w.obj (2 * n + 1)).pend) = lastN queueCap t := by
  have h0 : Reachable env c.world := ⟨_, [], c.entry_console, rfl⟩
  obtain ⟨l, hl⟩ := Option.isSome_iff_exists.1 hl
  obtain ⟨a1, a2, -⟩ := world_log c n k l hn hl
  have ho : (c.world.obj (2 * n + 1)).gen = 0 ∧ (c.world.obj (2 * n + 1)).hist = [] ∧ (c.world.obj (2 * n + 1)).pend = [] ∧ sentTo (2 * n + 1) c.world.fx = [] := by
    show ((World.boot _).obj _).gen = 0 ∧ ((World.boot _).obj _).hist = [] ∧ ((World.boot _).obj _).pend = [] ∧ _
    rw [boot_obj]
    refine ⟨?_, ?_, ?_, rfl⟩ <;>
    · split
      · rfl
      · split
        · rfl
        · split <;> rfl
  obtain ⟨-, q⟩ := hist_run ss h0.finv hr a2 a1
  obtain ⟨x, t, b1, b2, b3⟩ := q (by rw [hg, ho.1])
  rw [ho.2.1, List.nil_append] at b2
  rw [ho.2.2.1, List.nil_append] at b3
  rw [ho.2.2.2, List.nil_append] at b1
  exact ⟨t, b2, by rw [b1, b3]⟩

theorem replayText_life {mem name : List UInt8} (hm : mem.length = 16384) (hname : name.length ≤ 1023) {h : List (Option UInt8)} (hs : shortLives 0 h = true) :
    replayText mem name (some h) = replayOf name (lastN 4096 (lifeOf [] h)) := by
  obtain ⟨r, outs, a1, a2⟩ := (Ring.Hist.create hm).hist h hs
  unfold replayText histRing
  dsimp only
  rw [a1]
  dsimp only [Option.map_some]
  rw [replay_of_hist a2 name hname]

theorem replayText_own {mem name : List UInt8} (hm : mem.length = 16384) (hname : name.length ≤ 1023) (h : List (Option UInt8)) :
    ∃ x, replayText mem name (some h) = replayOf name x ∧ x.length ≤ 4096 ∧ ∀ b ∈ x, some b ∈ h := by
  obtain ⟨r, outs, a1, a2⟩ := (create_own hm).run h
  obtain ⟨x, b1, b2, b3⟩ := a2.replay
  refine ⟨x, ?_, b1, by simpa using b2⟩
  unfold replayText histRing
  dsimp only
  rw [a1]
  dsimp only [Option.map_some]
  rw [replay_wrote b1 hname b3]

theorem replayText_none {mem name : List UInt8} (hname : name.length ≤ 1023) : replayText mem name none = noReplayOf name := by
  unfold replayText
  rw [C04_replay_no_log name hname]
  rfl

theorem replayOf_length (name x : List UInt8) : (replayOf name x).length = 2 * name.length + x.length + 86 := by
  unfold replayOf
  simp only [List.length_append]
  rw [show (bs "\r\n<ConMan> Begin log replay of console [").length = 40 by decide, show (bs "\r\n<ConMan> End log replay of console [").length = 38 by decide,
    show (bs "].\r\n").length = 4 by decide]
  omega

theorem noReplayOf_length (name : List UInt8) : (noReplayOf name).length = name.length + 61 := by
  unfold noReplayOf
  simp only [List.length_append]
  rw [show (bs "\r\n<ConMan> Console [").length = 20 by decide, show (bs "] is not being logged -- cannot replay.\r\n").length = 41 by decide]
  omega

/-- A client types the command. -/
theorem replay_step {env : Env} {w : World} {cl con : Nat} {ws : List Nat} (hl : cl ∈ w.live) (hk : (w.obj cl).kind = .client) (hp : (w.obj cl).pin = true)
    (hf : (w.obj cl).fd = true) (he : (w.obj cl).eof = false) (hc : (w.obj cl).pend.length ≤ queueCap) (hg : (w.obj cl).gotEscape = false)
    (hw : (w.obj cl).writers = con :: ws) (up : Bool) :
    ∃ w', w.step env (.poll cl up (some (.data [0xFF, 0x4C])) none) = some w' ∧ (w'.obj cl).pend = enq (w.obj cl).pend (env.replay con (w.logHist con)) ∧
      w'.fx = w.fx ∧ ∀ j, j ≠ cl → w'.obj j = w.obj j := by
  have hr : w.read env up cl (.data [0xFF, 0x4C]) = some (((w.mod cl (·.write (env.replay con (w.logHist con)) false)).mod cl fun o => { o with gotEscape := false }).deliver env cl []) := by
    unfold World.read
    rw [if_neg (by simp [hf]), if_neg (by rw [hk]; simp), if_neg (by rw [hk]; simp)]
    dsimp only
    rw [hk]
    dsimp only
    have ht : List.take readBufSize [(0xFF : UInt8), 0x4C] = [0xFF, 0x4C] := by decide
    rw [hg, ht]
    have ha : (processClientEscapes false [0xFF, 0x4C]).acts = [0x4C] := (unesc_data _ _).2.1.trans (by decide)
    have hd : (processClientEscapes false [0xFF, 0x4C]).data = [] := (unesc_data _ _).1.trans (by decide)
    have hge : (processClientEscapes false [0xFF, 0x4C]).gotEscape = false := (unesc_data _ _).2.2.trans (by decide)
    rw [ha, hd, hge]
    have hact : w.act env cl 0x4C = some (w.mod cl (·.write (env.replay con (w.logHist con)) false)) := by
      unfold World.act
      rw [if_neg (by decide), if_neg (by decide), if_neg (by decide), if_neg (by decide), if_pos rfl, hw]
    simp only [World.acts, hact, Option.bind_some, Option.map_some]
  have hd : ∀ v : World, v.deliver env cl [] = v := fun v => by unfold World.deliver; rw [if_pos rfl]
  refine ⟨(w.mod cl (·.write (env.replay con (w.logHist con)) false)).mod cl fun o => { o with gotEscape := false }, ?_, ?_, rfl, fun j hj => ?_⟩
  · rw [hd] at hr
    simp only [World.step]
    rw [if_neg (by simp [hl, hp])]
    rw [hr]
    simp only [Option.map_some]
    congr 1
    split
    · rfl
    · cases (w.obj cl).pout <;> rfl
  · rw [World.mod_self, World.mod_self]
    exact Obj.write_data_pend _ _ he hc
  · rw [World.mod_ne _ _ hj, World.mod_ne _ _ hj]

/-! ### A run in which a log fails -/

/-- Object 1 is the log of console 0, with this history. -/
structure OpenLog (w : World) (h : List (Option UInt8)) : Prop where
  live : 1 ∈ w.live
  kind : (w.obj 1).kind = .logfile
  eof : (w.obj 1).eof = false
  log : (w.obj 0).log = some 1
  hist : (w.obj 1).hist = h

theorem write_some (o : Obj) {x : List UInt8} (b : Bool) (hk : o.kind = .logfile) (he : o.eof = false) (hx : 0 < x.length ∧ x.length < 16384) :
    o.write x b = { o with pend := enq o.pend x, hist := o.hist ++ x.map some, pout := o.pout || o.fd, line := if b then .init else o.line } := by
  have hN := objBufSize_eq
  unfold Obj.write
  rw [if_neg (by intro e; rw [e] at hx; simp at hx), if_neg (by simp [he]), if_neg (by rw [hk]; simp)]
  have e : enters x = x := by unfold enters; rw [if_neg (by omega)]
  rw [e]
  congr 1
  · rw [hk]; simp
  · simp [hk]

theorem enq_ne {q x : List UInt8} (hx : 0 < x.length ∧ x.length < 16384) : enq q x ≠ [] := by
  have hq : queueCap = 16383 := rfl
  rw [enq_le _ _ (by omega)]
  intro e
  have := congrArg List.length e
  rw [length_lastN, List.length_append, List.length_nil] at this
  omega

theorem OpenLog.logOpen {w : World} {h : List (Option UInt8)} (g : OpenLog w h) (env : Env) (hx : 0 < (env.txt (.logOpened 1) w.tick).length ∧ (env.txt (.logOpened 1) w.tick).length < 16384) :
    ∃ w', w.step env (.logOpen 1 true) = some w' ∧ w'.tick = w.tick ∧ OpenLog w' (h ++ (env.txt (.logOpened 1) w.tick).map some) ∧
      ((w'.obj 1).fd = true ∧ (w'.obj 1).pout = true) ∧ (w'.obj 1).pend ≠ [] := by
  have hw := write_some { w.obj 1 with fd := true, pout := false, eof := false } false g.kind rfl hx
  refine ⟨w.mod 1 fun o => { ({ o with fd := true, pout := false, eof := false }).write (env.txt (.logOpened 1) w.tick) false with line := .init },
    by simp only [World.step]; rw [if_pos g.kind]; rfl, rfl, ⟨g.live, ?_, ?_, ?_, ?_⟩, ?_⟩
  · rw [World.mod_self]; show (Obj.write _ _ _).kind = _; rw [hw]; exact g.kind
  · rw [World.mod_self]; show (Obj.write _ _ _).eof = _; rw [hw]
  · rw [World.mod_ne _ _ (by decide)]; exact g.log
  · rw [World.mod_self]; show (Obj.write _ _ _).hist = _; rw [hw]; dsimp only; rw [g.hist]
  · rw [World.mod_self]; show ((Obj.write _ _ _).fd = _ ∧ (Obj.write _ _ _).pout = _) ∧ (Obj.write _ _ _).pend ≠ _; rw [hw]
    refine ⟨⟨rfl, rfl⟩, ?_⟩
    dsimp only
    exact enq_ne hx

theorem OpenLog.logStamp {w : World} {h : List (Option UInt8)} (g : OpenLog w h) (env : Env) (hx : 0 < (env.txt (.logStamp 1) w.tick).length ∧ (env.txt (.logStamp 1) w.tick).length < 16384)
    (hf : (w.obj 1).fd = true ∧ (w.obj 1).pout = true) (_hp : (w.obj 1).pend ≠ []) :
    ∃ w', w.step env (.logStamp 1) = some w' ∧ w'.tick = w.tick ∧ OpenLog w' (h ++ (env.txt (.logStamp 1) w.tick).map some) ∧
      ((w'.obj 1).fd = true ∧ (w'.obj 1).pout = true) ∧ (w'.obj 1).pend ≠ [] := by
  refine ⟨w.mod 1 (·.write (env.txt (.logStamp 1) w.tick) true), by simp only [World.step]; rw [if_pos g.kind]; rfl, rfl, ⟨g.live, ?_, ?_, ?_, ?_⟩, ?_⟩
  · rw [World.mod_self, write_some _ _ g.kind g.eof hx]; exact g.kind
  · rw [World.mod_self, write_some _ _ g.kind g.eof hx]; exact g.eof
  · rw [World.mod_ne _ _ (by decide)]; exact g.log
  · rw [World.mod_self, write_some _ _ g.kind g.eof hx]; dsimp only; rw [g.hist]
  · rw [World.mod_self, write_some _ _ g.kind g.eof hx]
    exact ⟨⟨hf.1, by show ((w.obj 1).pout || (w.obj 1).fd) = true; rw [hf.1, hf.2]; rfl⟩, by dsimp only; exact enq_ne hx⟩

theorem OpenLog.fail {w : World} {h : List (Option UInt8)} (g : OpenLog w h) (env : Env)
    (hf : (w.obj 1).fd = true ∧ (w.obj 1).pout = true) (hp : (w.obj 1).pend ≠ []) :
    ∃ w', w.step env (.poll 1 true none (some .err)) = some w' ∧ w'.tick = w.tick ∧ OpenLog w' (h ++ [none]) := by
  have hpush : w.push 1 0 = w.mod 1 fun o => { o with pend := o.pend.drop 0 } := by unfold World.push; rw [if_pos rfl]
  have hdr : ((w.mod 1 fun o => { o with pend := o.pend.drop 0 }).drained 1) = w.mod 1 fun o => { o with pend := o.pend.drop 0 } := by
    unfold World.drained
    rw [if_neg (by rw [World.mod_self]; simpa using hp)]
  have hs : w.step env (.poll 1 true none (some .err)) = some ((w.mod 1 fun o => { o with pend := o.pend.drop 0 }).shutdown env true 1) := by
    simp only [World.step]
    rw [if_neg (by simp [g.live, hf.2]), if_pos hf.2]
    simp only [Option.map_some]
    rw [if_neg (by simp [g.live])]
    unfold World.flush
    dsimp only
    rw [if_neg (by simp [hf.1]), if_neg (by rw [g.kind]; simp), if_pos (Or.inl ⟨rfl, hp⟩)]
    show some (((w.push 1 0).drained 1).shutdown env true 1) = _
    rw [hpush, hdr]
  have hsh : (w.mod 1 fun o => { o with pend := o.pend.drop 0 }).shutdown env true 1 = (w.mod 1 fun o => { o with pend := o.pend.drop 0 }).mod 1 (fun o =>
      { o with fd := false, pin := false, pout := false, pend := [], eof := false, gen := o.gen + 1, hist := o.hist ++ [none] }) := by
    unfold World.shutdown
    rw [if_neg (by rw [World.mod_self]; simp [hf.1])]
    dsimp only
    rw [World.mod_self, World.mod_self]
    dsimp only
    rw [g.kind]
  refine ⟨_, hs, ?_, ?_⟩
  · rw [hsh]; rfl
  · rw [hsh]
    refine ⟨g.live, ?_, ?_, ?_, ?_⟩
    · rw [World.mod_self, World.mod_self]; exact g.kind
    · rw [World.mod_self]
    · rw [World.mod_ne _ _ (by decide), World.mod_ne _ _ (by decide)]; exact g.log
    · rw [World.mod_self, World.mod_self]; dsimp only; rw [g.hist]

end Conman
