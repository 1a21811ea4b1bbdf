import Verif.Model.Whole
import Verif.Props.Talk
import Verif.Props.Links
import Verif.Props.ConfCon
import Verif.Lemma.WorldLogText
import Verif.Props.EndToEnd
import Verif.Lemma.WorldRc

/-
Lemmas for C96: configuration, requests and objects together.
-/
namespace Conman
open Spec

theorem ConDev.kind_console (d : ConDev) : d.kind.isConsole = true := by cases d <;> rfl

theorem SConf.entry_console (c : SConf) : ∀ x ∈ c.consoles.map c.entry, x.kind.isConsole = true := by
  intro x hx
  obtain ⟨k, -, rfl⟩ := List.mem_map.1 hx
  exact k.dev.kind_console

theorem world_reachable {env : Env} (c : SConf) {ss : List Step} {w : World} (hr : c.world.run env ss = some w) : Reachable env w :=
  ⟨_, ss, c.entry_console, hr⟩

/-- Consoles and logs stay what they are. -/
theorem live_run {env : Env} (i : Nat) (ss : List Step) : ∀ {w w' : World}, FInv w → w.run env ss = some w' → i ∈ w.live → (w.obj i).kind ≠ .client →
    i ∈ w'.live ∧ (w'.obj i).kind = (w.obj i).kind := by
  induction ss with
  | nil => intro w w' _ hr hl _; simp only [World.run, Option.some.injEq] at hr; subst hr; exact ⟨hl, rfl⟩
  | cons s ss ih =>
    intro w w' h hr hl hk
    simp only [World.run, Option.bind_eq_some_iff] at hr
    obtain ⟨w1, h1, h2⟩ := hr
    obtain ⟨-, l2, l3⟩ := step_live h.e.d s h1
    have hl1 : i ∈ w1.live := by
      rcases l2 i hl with g | ⟨-, g⟩
      · exact g
      · exact absurd g hk
    have := ih (w := { w1 with tick := w1.tick + 1 }) ((h.step s h1).tick (w1.tick + 1)) h2 hl1 (by show (w1.obj i).kind ≠ _; rw [l3 i hl]; exact hk)
    exact ⟨this.1, this.2.trans (l3 i hl)⟩

theorem world_console {env : Env} (c : SConf) {ss : List Step} {w : World} (hr : c.world.run env ss = some w) {n : Nat} {k : Console} (hn : c.consoles[n]? = some k) :
    2 * n ∈ w.live ∧ (w.obj (2 * n)).kind = k.dev.kind := by
  have he : (c.consoles.map c.entry)[2 * n / 2]? = some (c.entry k) := by
    rw [show 2 * n / 2 = n by omega, List.getElem?_map, hn]; rfl
  have h0 : Reachable env c.world := ⟨_, [], c.entry_console, rfl⟩
  have hk : (c.world.obj (2 * n)).kind = k.dev.kind := by
    show ((World.boot _).obj (2 * n)).kind = _
    rw [boot_obj, he]
    dsimp only
    rw [if_pos (by omega)]
    rfl
  have hl : 2 * n ∈ c.world.live := (boot_live _ _).2 ⟨_, he, Or.inl (by omega)⟩
  obtain ⟨g1, g2⟩ := live_run (2 * n) ss h0.finv hr hl (by rw [hk]; exact not_client_of_console k.dev.kind_console)
  exact ⟨g1, g2.trans hk⟩

/-- Consoles keep their reset command and their log. -/
theorem run_rc {env : Env} (i : Nat) (ss : List Step) : ∀ {w w' : World}, FInv w → w.run env ss = some w' → i ∈ w.live → (w.obj i).kind ≠ .client →
    (w'.obj i).fixed = (w.obj i).fixed := by
  induction ss with
  | nil => intro w w' _ hr _ _; simp only [World.run, Option.some.injEq] at hr; subst hr; rfl
  | cons s ss ih =>
    intro w w' h hr hl hk
    simp only [World.run, Option.bind_eq_some_iff] at hr
    obtain ⟨w1, h1, h2⟩ := hr
    obtain ⟨-, l2, l3⟩ := step_live h.e.d s h1
    have hl1 : i ∈ w1.live := by
      rcases l2 i hl with g | ⟨-, g⟩
      · exact g
      · exact absurd g hk
    have := ih (w := { w1 with tick := w1.tick + 1 }) ((h.step s h1).tick (w1.tick + 1)) h2 hl1 (by show (w1.obj i).kind ≠ _; rw [l3 i hl]; exact hk)
    exact this.trans (step_rc h1 hl)

theorem world_reset {env : Env} (c : SConf) {ss : List Step} {w : World} (hr : c.world.run env ss = some w) {n : Nat} {k : Console} (hn : c.consoles[n]? = some k) :
    (w.obj (2 * n)).resetCmd = c.resetCmd.isSome := by
  have he : (c.consoles.map c.entry)[2 * n / 2]? = some (c.entry k) := by
    rw [show 2 * n / 2 = n by omega, List.getElem?_map, hn]; rfl
  have h0 : Reachable env c.world := ⟨_, [], c.entry_console, rfl⟩
  have hk : (c.world.obj (2 * n)).kind = k.dev.kind ∧ (c.world.obj (2 * n)).resetCmd = c.resetCmd.isSome := by
    show ((World.boot _).obj (2 * n)).kind = _ ∧ ((World.boot _).obj (2 * n)).resetCmd = _
    rw [boot_obj, he]
    dsimp only
    rw [if_pos (by omega)]
    exact ⟨rfl, rfl⟩
  have hl : 2 * n ∈ c.world.live := (boot_live _ _).2 ⟨_, he, Or.inl (by omega)⟩
  exact (congrArg Prod.fst (run_rc (2 * n) ss h0.finv hr hl (by rw [hk.1]; exact not_client_of_console k.dev.kind_console))).trans hk.2

/-- A session begins only after its request was found in order. -/
theorem srvAnswer_session {sw : SrvWorld} {stk : List UInt8} {q : SrvReq} {a : SrvOut sw} {ses : SrvSession sw} (h : srvAnswer sw stk q = some a) (hs : a.session = some ses) :
    ∃ (ns : List sw.Con) (q' : SrvReq), srvQuery sw stk q = some (.inr ns) ∧ q' = (if ns.length = 1 then { q with bcast := false } else q) ∧
      srvValidate sw stk q' ns = some none ∧ q'.cmd = some ses.cmd ∧ ses.cmd ≠ .query ∧
      ses = ⟨ses.cmd, q'.user, q'.tty, q'.quiet, q'.force, q'.join, q'.bcast, ns⟩ := by
  unfold srvAnswer at h
  obtain ⟨x, hx, h⟩ := Option.bind_eq_some_iff.1 h
  cases x with
  | inl t =>
    obtain ⟨m, -, rfl⟩ := Option.map_eq_some_iff.1 h
    cases hs
  | inr ns =>
    dsimp only at h
    refine ⟨ns, _, hx, rfl, ?_⟩
    generalize (if ns.length = 1 then { q with bcast := false } else q) = q' at h
    obtain ⟨v, hv, h⟩ := Option.bind_eq_some_iff.1 h
    cases v with
    | some m => cases h; cases hs
    | none =>
      dsimp only at h
      cases hc : q'.cmd with
      | none => rw [hc] at h; cases h; cases hs
      | some cmd =>
        rw [hc] at h
        obtain ⟨m, -, rfl⟩ := Option.map_eq_some_iff.1 h
        cases m with
        | none => cases hs
        | some m =>
          dsimp only at hs
          split at hs
          · cases hs
          · rename_i hq
            cases hs
            exact ⟨hv, rfl, hq, rfl⟩

theorem view_con (w : World) (c : SConf) (lib : SrvWorld) (who : Nat → SrvWriter) (i : (w.view c lib who).Con) :
    ∃ k, c.consoles[i.val]? = some k ∧ (w.view c lib who).cons[i] = ⟨k.name, (w.obj (2 * i.val)).writers.map who⟩ := by
  have hi : i.val < c.consoles.length := by have := i.isLt; simpa [World.view] using this
  refine ⟨c.consoles[i.val], List.getElem?_eq_getElem hi, ?_⟩
  exact List.getElem_mapIdx (h := i.isLt)

theorem srvQuery_nodup {sw : SrvWorld} {stk : List UInt8} {q : SrvReq} {ns : List sw.Con} (h : srvQuery sw stk q = some (.inr ns)) : ns.Nodup := by
  unfold srvQuery at h
  split at h
  · cases h; exact List.nodup_nil
  · split at h
    · obtain ⟨pat, -, h⟩ := Option.map_eq_some_iff.1 h
      split at h
      · cases h
      · cases h
        exact (SeqL.sorted_perm _ _).nodup_iff.2 ((List.nodup_finRange _).filter _)
    · cases h
      exact (SeqL.sorted_perm _ _).nodup_iff.2 (C64_selection ..).1

/-- A request that is in order for the thread is in order for the objects. -/
theorem check_admitted {env : Env} (c : SConf) {ss : List Step} {w : World} (hr : c.world.run env ss = some w) (lib : SrvWorld) (who : Nat → SrvWriter)
    {stk : List UInt8} {q : SrvReq} {a : SrvOut (w.view c lib who)} {ses : SrvSession (w.view c lib who)} (h : srvAnswer _ stk q = some a) (hs : a.session = some ses) :
    w.step env (.check ses.req) = some { w with wait := w.wait ++ [ses.req] } ∧ ses.req.norm = ses.req := by
  obtain ⟨ns, q', h1, h2, h3, h4, h5, h6⟩ := srvAnswer_session h hs
  have hl : ses.req.consoles.length = ns.length := by rw [h6]; simp [SrvSession.req]
  have hcons : ses.req.consoles = ns.map fun i => 2 * i.val := by rw [h6]; rfl
  have hb : ses.req.bcast = q'.bcast := by rw [h6]; rfl
  have hnorm : ses.req.norm = ses.req := by
    unfold Req.norm
    split
    · rename_i h
      have : ses.req.bcast = false := by rw [hb, h2, if_pos (by omega)]
      rw [← this]
    · rfl
  refine ⟨?_, hnorm⟩
  unfold srvValidate at h3
  split at h3
  · obtain ⟨m, -, h⟩ := Option.map_eq_some_iff.1 h3; cases h
  rename_i hne
  split at h3
  · obtain ⟨m, -, h⟩ := Option.bind_eq_some_iff.1 h3
    obtain ⟨ls, -, h⟩ := Option.map_eq_some_iff.1 h; cases h
  rename_i hmany
  split at h3
  · obtain ⟨m, -, h⟩ := Option.bind_eq_some_iff.1 h3
    obtain ⟨ls, -, h⟩ := Option.map_eq_some_iff.1 h; cases h
  rename_i hbusy
  have hcmd : ses.req.cmd = .connect → ses.cmd = .connect := by
    intro h
    generalize hg : ses.cmd = x at h5
    have : ses.req.cmd = if x = .monitor then .monitor else .connect := by rw [← hg]; rfl
    cases x with
    | connect => rfl
    | monitor => rw [this] at h; cases h
    | query => exact absurd rfl h5
  have hmon : ses.req.cmd = .monitor → ses.cmd = .monitor := by
    intro h
    have : ses.req.cmd = if ses.cmd = .monitor then .monitor else .connect := rfl
    rw [this] at h
    split at h
    · assumption
    · cases h
  have hok : w.reqOk ses.req := by
    constructor
    · rw [hcons]
      exact (srvQuery_nodup h1).map _ (fun x y hxy e => hxy (Fin.ext (by omega)))
    · intro x hx
      rw [hcons] at hx
      obtain ⟨i, -, rfl⟩ := List.mem_map.1 hx
      obtain ⟨k, hk, -⟩ := view_con w c lib who i
      obtain ⟨g1, g2⟩ := world_console c hr hk
      exact ⟨g1, by rw [g2]; exact k.dev.kind_console⟩
  have hval : w.validate ses.req = none := by
    unfold World.validate
    rw [if_neg (by rw [hcons]; simpa using hne)]
    rw [if_neg (by
      intro hcon
      apply hmany
      unfold srvTooMany
      rw [h4, if_neg (by simpa using h5), if_neg (by rw [← hl]; exact fun e => hcon (Or.inl e)), if_neg]
      rintro ⟨g1, g2⟩
      refine hcon (Or.inr ⟨?_, by rw [hb]; exact g2⟩)
      simp only [Option.some.injEq] at g1
      show (if ses.cmd = .monitor then Cmd.monitor else .connect) = _
      rw [g1]; rfl)]
    rw [if_neg]
    rintro ⟨g1, g2, g3⟩
    apply hbusy
    have e1 : ses.req.force = q'.force := by rw [h6]; rfl
    have e2 : ses.req.join = q'.join := by rw [h6]; rfl
    unfold srvBusy
    rw [h4, hcmd g1, if_neg (by simp), if_neg (by rw [← e1, ← e2]; exact g2)]
    intro hf
    rw [List.any_eq_true] at g3
    obtain ⟨x, hx, hx'⟩ := g3
    rw [hcons] at hx
    obtain ⟨i, hi, rfl⟩ := List.mem_map.1 hx
    obtain ⟨k, -, hk⟩ := view_con w c lib who i
    have : i ∈ ns.filter fun i => !(w.view c lib who).cons[i].writers.isEmpty := by
      rw [List.mem_filter]
      refine ⟨hi, ?_⟩
      rw [hk]
      simpa using hx'
    rw [hf] at this
    cases this
  simp only [World.step]
  rw [hnorm, if_pos ⟨hok, hval⟩]

/-! ### A client is served, and taken up by the main loop -/

/-- What follows the first line. -/
def Spec.afterLine (s : List UInt8) : List UInt8 := (s.dropWhile (· ≠ 0x0A)).drop 1

/-- The client program, with settings `cc` and surroundings `cw`, talks to a thread of the daemon, which finds the daemon in state `w`; the thread accepts the request,
and it waits; other things happen; then the main loop takes the client up, as `id`; state `w3`. -/
structure Spec.Joined (env : Env) (c : SConf) (lib : SrvWorld) (who : Nat → SrvWriter) (cc : ClientConf) (cw : CWorld) (o : COutcome) (w w3 : World) (id : Nat) : Prop where
  sendable : Sendable (w.view c lib who) cc cw
  talk : ∃ (s : SrvOut (w.view c lib who)) (ses : SrvSession (w.view c lib who)), Talk (w.view c lib who) cc cw o s ∧ s.session = some ses ∧
    ∃ mid w2 j, w.run env (.check ses.req :: mid) = some w2 ∧ w2.wait[j]? = some ses.req ∧ id ∉ w2.live ∧ w2.run env [.grant id j] = some w3

theorem afterLine_eq {a : List UInt8} (b : List UInt8) (h : (0x0A : UInt8) ∉ a) : afterLine (a ++ bs "\n" ++ b) = b := by
  have e : bs "\n" = [0x0A] := by decide
  unfold afterLine
  rw [e, List.append_assoc, List.dropWhile_append_of_pos]
  · rfl
  · intro x hx
    have : x ≠ 0x0A := by rintro rfl; exact h hx
    simpa using this

theorem serve_answer {sw : SrvWorld} {i : SrvIn} {inp : List UInt8} {s : SrvOut sw} {ses : SrvSession sw} (h : serve sw i inp = some s) (hs : s.session = some ses) :
    sw.allowed = true ∧ ∃ q a, srvAnswer sw i.stk3 q = some a ∧ a.session = some ses := by
  unfold serve at h
  split at h
  · cases h; cases hs
  rename_i hal
  refine ⟨by simpa using hal, ?_⟩
  obtain ⟨r, -, h⟩ := Option.bind_eq_some_iff.1 h
  cases hf : r.fin with
  | blocked => rw [hf] at h; cases h; cases hs
  | err => rw [hf] at h; cases h; cases hs
  | ret m =>
    rw [hf] at h
    cases m with
    | zero => cases h; cases hs
    | succ m =>
      dsimp only at h
      obtain ⟨q, -, h⟩ := Option.bind_eq_some_iff.1 h
      cases hu : q.user with
      | none =>
        rw [hu] at h
        obtain ⟨m, -, rfl⟩ := Option.map_eq_some_iff.1 h
        cases hs
      | some u =>
        rw [hu] at h
        dsimp only at h
        obtain ⟨m, -, h⟩ := Option.bind_eq_some_iff.1 h
        cases m with
        | none => cases h; cases hs
        | some m =>
          dsimp only at h
          unfold srvRequest at h
          obtain ⟨r, -, h⟩ := Option.bind_eq_some_iff.1 h
          cases hf : r.fin with
          | blocked => rw [hf] at h; cases h; cases hs
          | err => rw [hf] at h; cases h; cases hs
          | ret m =>
            rw [hf] at h
            cases m with
            | zero => cases h; cases hs
            | succ m =>
              dsimp only at h
              obtain ⟨q, -, h⟩ := Option.bind_eq_some_iff.1 h
              obtain ⟨a, ha, rfl⟩ := Option.map_eq_some_iff.1 h
              exact ⟨q, a, ha, hs⟩

/-- The session of the client program: it starts with what was asked for, and what the outcome of the program says is what the session says. -/
structure Began (cc : ClientConf) (cw : CWorld) (o : COutcome) (s0 s1 : CSess) : Prop where
  run : s0.run cw.stk cw.events = some s1
  cs : s0.cs.esc = cc.esc ∧ s0.cs.inEsc = false ∧ s0.cs.done = false ∧ s0.cs.wrClosed = false ∧ s0.closed = false ∧ s0.phase = .running ∧
    s0.cs.cmd = if cc.cmd = .monitor then .monitor else .connect
  flags : ∃ bc rs, s0.cs = { esc := cc.esc, cmd := if cc.cmd = .monitor then .monitor else .connect, bcast := bc, force := cc.force, join := cc.join, quiet := cc.quiet, reset := rs }
  out : o.out = s1.out ∧ o.sent = s1.sent ∧ dataOf s0.out = []
  sent : ∀ y, s1.sent = s0.sent ++ y → afterLine (afterLine o.sent) = y
  ext : s0.sent <+: s1.sent
  going : o.exit = none → s1.phase ≠ .ended ∧ s1.phase ≠ .died

theorem end_began {cc : ClientConf} {cw : CWorld} {log : Option (List UInt8)} {host : List UInt8} {names : List (List UInt8)} {reset : Bool} {o : COutcome} {a b : List UInt8}
    (ha : (0x0A : UInt8) ∉ a) (hb : (0x0A : UInt8) ∉ b) (hq : cc.cmd ≠ .query) (ht : cw.ttys = true)
    (h : clientEnd cc cw log (a ++ bs "\n" ++ (b ++ bs "\n")) host names reset = some o) : ∃ s0 s1, Began cc cw o s0 s1 := by
  have hpre := end_sent h
  unfold clientEnd at h
  rw [if_neg hq, if_neg (by rw [ht]; decide)] at h
  obtain ⟨t, -, h⟩ := Option.bind_eq_some_iff.1 h
  obtain ⟨s1, hr, h⟩ := Option.map_eq_some_iff.1 h
  have ho : o.out = s1.out ∧ o.sent = s1.sent := by rw [← h]; cases s1.phase <;> exact ⟨rfl, rfl⟩
  refine ⟨_, s1, hr, ⟨rfl, rfl, rfl, rfl, rfl, rfl, rfl⟩, ⟨_, _, rfl⟩, ⟨ho.1, ho.2, rfl⟩, ?_, by rw [← ho.2]; exact hpre, ?_⟩
  rotate_left
  · intro hx
    rw [← h] at hx
    cases hp : s1.phase <;> rw [hp] at hx <;> simp at hx <;> exact ⟨by decide, by decide⟩
  intro y hy
  dsimp only at hy
  rw [ho.2, hy, List.append_assoc, afterLine_eq _ ha, afterLine_eq _ hb]

theorem request_line {c : ClientConf} {q : List UInt8} (hp : ∀ p ∈ c.consoles, Plain p) (h : request maxSockLine c.req = some (some q)) :
    ∃ b, q = b ++ bs "\n" ∧ (0x0A : UInt8) ∉ b := by
  rw [request_eq maxSockLine _ (by rw [msl]; omega) hp] at h
  split at h
  · simp only [Option.some.injEq] at h
    refine ⟨protoStr (cmdTok c.req.cmd) ++ ((reqItems c.req).map Item.render).flatten, by rw [← h]; unfold line; simp, ?_⟩
    rw [List.mem_append, not_or]
    refine ⟨?_, (line_clean (reqItems_ok hp)).2⟩
    show (0x0A : UInt8) ∉ protoStr (cmdTok c.cmd)
    cases c.cmd <;> decide
  · simp at h

/-- The request, as it was when the main loop took it up, and the steps from when the thread looked at the consoles to then. -/
structure TakenUp (env : Env) (c : SConf) (cc : ClientConf) (w w3 : World) (id : Nat) : Prop where
  step : ∃ w2 w2' j q ss mid, Reachable env w2 ∧ c.world.run env ss = some w2 ∧ w.run env (.check q :: mid) = some w2 ∧ w2.wait[j]? = some q ∧ id ∉ w2.live ∧ w2.step env (.grant id j) = some w2' ∧
    w3 = { w2' with tick := w2'.tick + 1 } ∧ w.step env (.check q) = some { w with wait := w.wait ++ [q] } ∧ q.norm = q ∧
    q.force = (cc.force && (cc.cmd = .connect)) ∧ q.join = (cc.join && (cc.cmd = .connect)) ∧ q.bcast = (cc.bcast && (cc.cmd = .connect) && q.consoles.length ≠ 1) ∧
    q.cmd = (if cc.cmd = .monitor then .monitor else .connect) ∧ (cc.cmd = .connect → (w3.obj id).readers = q.consoles) ∧
    (w3.obj id).force = q.force ∧ (w3.obj id).join = q.join ∧ (w3.obj id).bcast = q.bcast

/-- All that is needed of a client that was taken up. -/
theorem joined_facts {env : Env} {c : SConf} (hnames : c.consoles.Pairwise fun a b => a.name ≠ b.name) {ss : List Step} {w : World} (hr : c.world.run env ss = some w)
    {lib : SrvWorld} {who : Nat → SrvWriter} {cc : ClientConf} {cw : CWorld} {o : COutcome} {w3 : World} {id : Nat} (hj : Joined env c lib who cc cw o w w3 id) :
    Reachable env w3 ∧ id ∈ w3.live ∧ (w3.obj id).kind = .client ∧ (w3.obj id).gotEscape = false ∧ (w3.obj id).suspend = false ∧ (w3.obj id).quiet = cc.quiet ∧ cc.cmd ≠ .query ∧
    (∃ ns : List Nat, ns ≠ [] ∧ ns.Nodup ∧ (∀ n, n ∈ ns ↔ ∃ k, c.consoles[n]? = some k ∧ selected (w.view c lib who) cc.regex cc.consoles k.name = true) ∧
      (cc.cmd = .connect → (w3.obj id).readers = ns.map (2 * ·) ∧ (w3.obj id).writers = if ns.length = 1 then ns.map (2 * ·) else []) ∧
      (cc.cmd = .monitor → (w3.obj id).readers = [] ∧ (w3.obj id).writers = ns.map (2 * ·) ∧ ns.length = 1)) ∧
    (cw.ttys = true → ∃ s0 s1, Began cc cw o s0 s1) ∧ TakenUp env c cc w w3 id := by
  obtain ⟨hs, s, ses, t, hses, mid, w2, j, hrun, hwait, hid, hgrant⟩ := hj
  obtain ⟨i, hserve, -⟩ := t.server
  obtain ⟨hal, -⟩ := serve_answer hserve hses
  obtain ⟨stk, log, sent, a, rest, h1, h2, h3, -, -, h5, -, h7, q, hq, hsent⟩ := talk_sent t hs hal
  rw [h3] at hses
  obtain ⟨ns, q', k1, k2, k3, k4, k5, k6⟩ := srvAnswer_session h2 hses
  rcases answer_query hs h1 with ⟨-, -, g3⟩ | ⟨-, ns', g1, g2, -⟩
  · rw [g3] at k1; simp at k1
  rw [g2] at k1
  obtain rfl : ns' = ns := by simpa using k1
  have hq' : q' = srvReqSel cc cw ns'.length := k2
  obtain ⟨hp, hl, hpl⟩ := perm_facts hs g1
  have hnn : ns' ≠ [] := by
    rintro rfl
    unfold srvValidate at k3
    rw [if_pos rfl] at k3
    obtain ⟨m, -, h⟩ := Option.map_eq_some_iff.1 k3
    cases h
  have hans := srvAnswer_accepted g2 (by rw [← hq']; exact k3) (fun n hn => (hpl n hn).1) hnn h2
  have hz : answerSize (w.view c lib who).resetCmd (ns'.map (w.view c lib who).name) < maxSockLine := by
    apply Decidable.by_contra
    intro hz
    rw [if_neg hz] at hans
    rw [hans] at hses
    cases hses
  rw [if_pos hz] at hans
  have hcq : cc.cmd ≠ .query := by
    intro hc
    rw [if_pos hc] at hans
    rw [hans] at hses
    cases hses
  rw [if_neg hcq] at hans
  have hsesv := hses
  rw [hans] at hsesv
  simp only [Option.some.injEq] at hsesv
  rw [hans] at h5
  obtain ⟨-, -, -, -, -, -, w7, -, -, -⟩ := t.fine
  have he := talk_ok (fun n hn => (hpl n hn).1) (by simpa using hnn) hz w7 h5 h7
  have hw2 : c.world.run env (ss ++ .check ses.req :: mid) = some w2 := by
    rw [run_append, hr]; exact hrun
  have hw3 : c.world.run env ((ss ++ .check ses.req :: mid) ++ [.grant id j]) = some w3 := by
    rw [run_append, hw2]; exact hgrant
  have hreach := world_reachable c hw2
  simp only [World.run, Option.bind_eq_some_iff, Option.some.injEq] at hgrant
  obtain ⟨w2', hg1, hg2⟩ := hgrant
  have hobj : w3.obj = w2'.obj := by rw [← hg2]
  obtain ⟨c1, c2⟩ := C48_request_granted hreach id j ses.req hwait hid hg1
  have hd := hreach.inv
  obtain ⟨-, hok⟩ := hd.wait ses.req (List.mem_of_getElem? hwait)
  have hg1' := hg1
  simp only [World.step, hwait, if_neg hid, Option.some.injEq] at hg1'
  have hd' := hd.unwait (w2.wait.eraseIdx j) (fun q hq => List.mem_of_mem_eraseIdx hq)
  have hown := grant_own hd'.inv env id ses.req hid hok
  rw [hg1', newClient_obj, if_pos rfl] at hown
  have hsame := hown.same
  have hcmd : ses.req.cmd = if cc.cmd = .monitor then .monitor else .connect := by rw [← hsesv]; rfl
  have hcons : ses.req.consoles = (ns'.map (·.val)).map (2 * ·) := by
    rw [← hsesv, List.map_map]; rfl
  refine ⟨world_reachable c hw3, ?_, by rw [hobj, hown.kind], by rw [hobj]; exact hsame.gotEscape, by rw [hobj]; exact hsame.suspend, ?_, hcq, ⟨ns'.map (·.val), by simpa using hnn, ?_, ?_, ?_, ?_⟩, ?_, ?_⟩
  · have h3 := (world_reachable c hw3).inv.inv.l
    obtain ⟨x, hx⟩ := List.exists_mem_of_ne_nil _ hnn
    have hx' : 2 * x.val ∈ ses.req.consoles := by rw [hcons]; exact List.mem_map.2 ⟨_, List.mem_map.2 ⟨x, hx, rfl⟩, rfl⟩
    cases hc : ses.req.cmd with
    | connect =>
      refine (h3.live id (2 * x.val) ?_).1
      rw [hobj, (c1 hc).1]; exact hx'
    | monitor =>
      obtain ⟨-, con, m2, m3⟩ := c2 hc
      refine (h3.live con id ?_).2
      rw [h3.sym, hobj, m3]
      exact List.mem_singleton.2 rfl
  · rw [hobj, hsame.quiet]
    show ses.req.quiet = _
    rw [← hsesv]; rfl
  · exact (srvQuery_nodup g2).map _ (fun x y hxy e => hxy (Fin.ext e))
  · intro n
    constructor
    · intro hn
      obtain ⟨i, hi, rfl⟩ := List.mem_map.1 hn
      obtain ⟨k, hk, hv⟩ := view_con w c lib who i
      refine ⟨k, hk, ?_⟩
      have hm : (w.view c lib who).cons[i] ∈ selection (w.view c lib who) cc.regex cc.consoles := g1.subset (List.mem_map.2 ⟨i, hi, rfl⟩)
      have := (List.mem_filter.1 hm).2
      rw [hv] at this
      exact this
    · rintro ⟨k, hk, hsel⟩
      obtain ⟨hn, hkk⟩ := List.getElem?_eq_some_iff.1 hk
      have hn' : n < (w.view c lib who).cons.length := by simpa [World.view] using hn
      obtain ⟨k', hk', hv⟩ := view_con w c lib who ⟨n, hn'⟩
      have hkk' : k' = k := by
        have : c.consoles[n]? = some k' := hk'
        rw [hk] at this; exact (Option.some.inj this).symm
      subst hkk'
      have hm : (w.view c lib who).cons[(⟨n, hn'⟩ : (w.view c lib who).Con)] ∈ selection (w.view c lib who) cc.regex cc.consoles := by
        refine List.mem_filter.2 ⟨List.getElem_mem .., ?_⟩
        rw [hv]; exact hsel
      obtain ⟨i, hi, hie⟩ := List.mem_map.1 (g1.symm.subset hm)
      refine List.mem_map.2 ⟨i, hi, ?_⟩
      obtain ⟨k2, hk2, hv2⟩ := view_con w c lib who i
      rw [hv, hv2] at hie
      have hne : k2.name = k'.name := congrArg SrvCon.name hie
      apply Decidable.by_contra
      intro hcon
      obtain ⟨l2, e2⟩ := List.getElem?_eq_some_iff.1 hk2
      have hpw := List.pairwise_iff_getElem.1 hnames
      rcases Nat.lt_or_gt_of_ne hcon with hlt | hlt
      · have := hpw i.val n l2 hn hlt
        rw [e2, hkk] at this
        exact this hne
      · have := hpw n i.val hn l2 hlt
        rw [e2, hkk] at this
        exact this hne.symm
  · intro hc
    rw [hobj]
    have := c1 (by rw [hcmd, hc]; rfl)
    rw [hcons] at this
    simpa using this
  · intro hc
    rw [hobj]
    obtain ⟨m1, con, m2, m3⟩ := c2 (by rw [hcmd, hc]; rfl)
    exact ⟨m1, by rw [m3, ← m2, hcons], by simpa using congrArg List.length (hcons.symm.trans m2)⟩
  · intro ht
    obtain ⟨b, hb1, hb2⟩ := request_line (fun p h => (hs.pats p h).1) hq
    rw [hsent, hb1] at he
    exact end_began (helloLine_clean hs.user.1 (fun x h => (hs.tty x h).1)) hb2 hcq ht he
  · obtain ⟨a1, a2⟩ := check_admitted c hr lib who h2 hses
    obtain ⟨-, r2, r3, r4, -⟩ := reqSel cc cw ns'.length
    have f1 : ses.req.force = (srvReqSel cc cw ns'.length).force := by rw [k6, ← hq']; rfl
    have f2 : ses.req.join = (srvReqSel cc cw ns'.length).join := by rw [k6, ← hq']; rfl
    have f3 : ses.req.bcast = (srvReqSel cc cw ns'.length).bcast := by rw [k6, ← hq']; rfl
    refine ⟨w2, w2', j, ses.req, _, mid, hreach, hw2, hrun, hwait, hid, hg1, hg2.symm, a1, a2, f1.trans r2, f2.trans r3, ?_, hcmd, ?_, ?_, ?_, ?_⟩
    · rw [f3, r4, hcons, List.length_map, List.length_map]
    · intro hc
      rw [hobj]
      exact (c1 (by rw [hcmd, hc]; rfl)).1
    · rw [hobj]; exact hsame.force
    · rw [hobj]; exact hsame.join
    · rw [hobj]; exact hsame.bcast

end Conman
