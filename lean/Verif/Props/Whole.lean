import Verif.Lemma.Whole
import Verif.Props.LogBook
import Verif.Props.Conf

/-
C96: the daemon as a whole.  A configuration file is read; the daemon runs; a client program asks for consoles and is served.
Console number `n` of the configuration is object `2 * n` of the daemon, its log object `2 * n + 1`.
-/
namespace Conman
open Spec

/-- C96. Whatever the configuration file is and whatever happened since the daemon was started: the consoles have different names, and each of them is there, as
the kind of device that it was configured to be, with a reset command if there is one in the configuration, with the log it was configured to have, and that log is of this console only. -/
theorem C96_consoles {cenv : CEnv} {cwd text : List UInt8} {ini : IpmiOpt} {c : SConf} (hc : processConfig cenv text (createConf cwd ini) = some c)
    {env : Env} {ss : List Step} {w : World} (hr : c.world.run env ss = some w) :
    (∀ (m n : Nat) (a b : Console), c.consoles[m]? = some a → c.consoles[n]? = some b → a.name = b.name → m = n) ∧
    (∀ n k, c.consoles[n]? = some k → 2 * n ∈ w.live ∧ (w.obj (2 * n)).kind = k.dev.kind ∧ (w.obj (2 * n)).resetCmd = c.resetCmd.isSome ∧
      (∀ a, k.dev = .unixsock a → (w.obj (2 * n)).kind = .unixsock) ∧ (∀ a b, k.dev = .telnet a b → (w.obj (2 * n)).kind = .telnet) ∧
      (∀ a b, k.dev = .serial a b → (w.obj (2 * n)).kind = .serial) ∧ (∀ a, k.dev = .process a → (w.obj (2 * n)).kind = .process) ∧
      (∀ a b, k.dev = .ipmi a b → (w.obj (2 * n)).kind = .ipmi) ∧ ∀ a, k.dev = .test a → (w.obj (2 * n)).kind = .test) ∧
    (∀ n k nm o, c.consoles[n]? = some k → k.log = some (nm, o) → LogEnv env → (∀ i up d wr, .poll i up (some (.data d)) wr ∈ ss → d.length ≤ 8191) →
      (w.obj (2 * n + 1)).kind = .logfile ∧ (w.obj (2 * n + 1)).opts = ⟨o.sanitize, o.timestamp⟩ ∧ ∀ a, 2 * n + 1 ∈ (w.obj a).readers ↔ a = 2 * n) := by
  have hu := (C71_unique cenv text _ c rfl hc).1
  refine ⟨?_, fun n k hn => ⟨(world_console c hr hn).1, (world_console c hr hn).2, world_reset c hr hn, ?_⟩, ?_⟩
  rotate_left
  · rw [(world_console c hr hn).2]
    exact ⟨fun _ h => by rw [h]; rfl, fun _ _ h => by rw [h]; rfl, fun _ _ h => by rw [h]; rfl, fun _ h => by rw [h]; rfl, fun _ _ h => by rw [h]; rfl, fun _ h => by rw [h]; rfl⟩
  rotate_left
  · intro m n a b ha hb hab
    obtain ⟨l1, e1⟩ := List.getElem?_eq_some_iff.1 ha
    obtain ⟨l2, e2⟩ := List.getElem?_eq_some_iff.1 hb
    have hpw := List.pairwise_iff_getElem.1 hu
    apply Decidable.by_contra
    intro hne
    rcases Nat.lt_or_gt_of_ne hne with h | h
    · have := (hpw m n l1 l2 h).1
      rw [e1, e2] at this; exact this hab
    · have := (hpw n m l2 l1 h).1
      rw [e1, e2] at this; exact this hab.symm
  · intro n k nm o hn hl he hlen
    exact C92_own_log (c.consoles.map c.entry) ss he c.entry_console hr n (c.entry k) _ (by rw [List.getElem?_map, hn]; rfl) (by
      show k.log.map _ = _
      rw [hl]; rfl) hlen

/-- C96. Whatever a client sends: when the thread that talks to it accepts its request, the main loop gets the request, for consoles that are there, no two the same. -/
theorem C96_admitted {env : Env} {c : SConf} {ss : List Step} {w : World} (hr : c.world.run env ss = some w) (lib : SrvWorld) (who : Nat → SrvWriter)
    {i : SrvIn} {inp : List UInt8} {s : SrvOut (w.view c lib who)} {ses : SrvSession (w.view c lib who)} (h : serve _ i inp = some s) (hs : s.session = some ses) :
    w.step env (.check ses.req) = some { w with wait := w.wait ++ [ses.req] } ∧
    ses.req.consoles ≠ [] ∧ ses.req.consoles.Nodup ∧ ∀ x ∈ ses.req.consoles, ∃ n k, x = 2 * n ∧ c.consoles[n]? = some k ∧ x ∈ w.live ∧ (w.obj x).kind = k.dev.kind := by
  obtain ⟨-, q, a, h1, h2⟩ := serve_answer h hs
  obtain ⟨ns, q', k1, -, k3, -, -, k6⟩ := srvAnswer_session h1 h2
  have hcons : ses.req.consoles = ns.map fun i => 2 * i.val := by rw [k6]; rfl
  have hnn : ns ≠ [] := by
    rintro rfl
    unfold srvValidate at k3
    rw [if_pos rfl] at k3
    obtain ⟨m, -, h⟩ := Option.map_eq_some_iff.1 k3
    cases h
  refine ⟨(check_admitted c hr lib who h1 h2).1, by rw [hcons]; simpa using hnn, ?_, ?_⟩
  · rw [hcons]
    exact (srvQuery_nodup k1).map _ (fun x y hxy e => hxy (Fin.ext (by omega)))
  · intro x hx
    rw [hcons] at hx
    obtain ⟨i, -, rfl⟩ := List.mem_map.1 hx
    obtain ⟨k, hk, -⟩ := view_con w c lib who i
    exact ⟨i.val, k, rfl, hk, world_console c hr hk⟩

/-- C96. A request of the client program for one console or a broadcast, with nobody in the way, is accepted, and waits for the main loop. -/
theorem C96_accepted {env : Env} {c : SConf} {ss : List Step} {w : World} (hr : c.world.run env ss = some w) (lib : SrvWorld) (who : Nat → SrvWriter)
    {cc : ClientConf} {cw : CWorld} {o : COutcome} {s : SrvOut (w.view c lib who)} (t : Talk (w.view c lib who) cc cw o s) (hs : Sendable (w.view c lib who) cc cw)
    (ha : lib.allowed = true) (hg : Granted (w.view c lib who) cc)
    (hsz : answerSize c.resetCmd.isSome ((selection (w.view c lib who) cc.regex cc.consoles).map (·.name)) < 131072) :
    ∃ ses, s.session = some ses ∧ w.step env (.check ses.req) = some { w with wait := w.wait ++ [ses.req] } := by
  obtain ⟨ns, -, -, h, -⟩ := C86_session_partial t hs ha hg hsz
  obtain ⟨i, hserve, -⟩ := t.server
  exact ⟨_, h, (C96_admitted hr lib who hserve h).1⟩

/-- C96. When it is taken up, the client is connected to exactly those consoles of the configuration whose names the user's patterns select: to type and, if
it is one console, to watch it; `conman -m`: to watch only. -/
theorem C96_connected {cenv : CEnv} {cwd text : List UInt8} {ini : IpmiOpt} {c : SConf} (hc : processConfig cenv text (createConf cwd ini) = some c)
    {env : Env} {ss : List Step} {w : World} (hr : c.world.run env ss = some w) {lib : SrvWorld} {who : Nat → SrvWriter} {cc : ClientConf} {cw : CWorld} {o : COutcome}
    {w3 : World} {id : Nat} (hj : Joined env c lib who cc cw o w w3 id) :
    id ∈ w3.live ∧ (w3.obj id).kind = .client ∧ (w3.obj id).quiet = cc.quiet ∧
    (cc.cmd = .connect ∨ cc.cmd = .monitor) ∧
    (∀ x, x ∈ (w3.obj id).readers ↔ cc.cmd = .connect ∧
      ∃ n k, x = 2 * n ∧ c.consoles[n]? = some k ∧ selected (w.view c lib who) cc.regex cc.consoles k.name = true) ∧
    (∀ x, x ∈ (w3.obj id).writers ↔ (cc.cmd = .connect → (w3.obj id).readers = [x]) ∧
      ∃ n k, x = 2 * n ∧ c.consoles[n]? = some k ∧ selected (w.view c lib who) cc.regex cc.consoles k.name = true) ∧
    (cc.cmd = .monitor → ∃ x, (w3.obj id).writers = [x]) ∧
    (w3.obj id).force = (cc.force && (cc.cmd = .connect)) ∧ (w3.obj id).join = (cc.join && (cc.cmd = .connect)) ∧
    ((w3.obj id).bcast = true ↔ cc.bcast = true ∧ cc.cmd = .connect ∧ (w3.obj id).readers.length ≠ 1) := by
  have hu := (C71_unique cenv text _ c rfl hc).1.imp (fun h => h.1)
  obtain ⟨-, j2, j3, -, -, j6, j7, ⟨ns, n0, n1, n2, n3, n4⟩, -, jt⟩ := joined_facts hu hr hj
  have hmem : ∀ x, x ∈ ns.map (2 * ·) ↔ ∃ n k, x = 2 * n ∧ c.consoles[n]? = some k ∧ selected (w.view c lib who) cc.regex cc.consoles k.name = true := by
    intro x
    rw [List.mem_map]
    constructor
    · rintro ⟨n, hn, rfl⟩
      obtain ⟨k, g1, g2⟩ := (n2 n).1 hn
      exact ⟨n, k, rfl, g1, g2⟩
    · rintro ⟨n, k, rfl, g1, g2⟩
      exact ⟨n, (n2 n).2 ⟨k, g1, g2⟩, rfl⟩
  have hcmd : cc.cmd = .connect ∨ cc.cmd = .monitor := by
    cases h : cc.cmd with
    | connect => exact Or.inl rfl
    | monitor => exact Or.inr rfl
    | query => exact absurd h j7
  obtain ⟨w2, w2', j, q, -, -, -, -, -, -, -, -, -, -, -, q1, q2, q3, -, q5, q6, q7, q8⟩ := jt
  refine ⟨j2, j3, j6, hcmd, ?_, ?_, ?_, q6.trans q1, q7.trans q2, ?_⟩
  rotate_left 3
  · rw [q8, q3]
    rcases hcmd with h | h
    · rw [q5 h]; simp [h]
    · simp [h]
  · intro x
    rcases hcmd with h | h
    · rw [(n3 h).1, hmem]; exact ⟨fun g => ⟨h, g⟩, fun g => g.2⟩
    · rw [(n4 h).1, h]; simp
  · intro x
    rcases hcmd with h | h
    · rw [(n3 h).2, (n3 h).1, ← hmem]
      by_cases hl : ns.length = 1
      · rw [if_pos hl]
        obtain ⟨n, rfl⟩ := List.length_eq_one_iff.1 hl
        constructor
        · intro g
          have : x = 2 * n := by simpa using g
          subst this
          exact ⟨fun _ => rfl, g⟩
        · exact fun g => g.2
      · rw [if_neg hl]
        constructor
        · intro g; simp at g
        · rintro ⟨g, -⟩
          exact absurd (by simpa using congrArg List.length (g h)) hl
    · rw [(n4 h).2.1, ← hmem]
      exact ⟨fun g => ⟨fun e => absurd (e.symm.trans h) (by decide), g⟩, fun g => g.2⟩
  · intro h
    obtain ⟨x, hx⟩ := List.length_eq_one_iff.1 (n4 h).2.2
    exact ⟨2 * x, by rw [(n4 h).2.1, hx]; rfl⟩

/-- C96. A user who gives the name of a console of the configuration, and no other name matches, is connected to that console and no other. -/
theorem C96_by_name {cenv : CEnv} {cwd text : List UInt8} {ini : IpmiOpt} {c : SConf} (hc : processConfig cenv text (createConf cwd ini) = some c)
    {env : Env} {ss : List Step} {w : World} (hr : c.world.run env ss = some w) {lib : SrvWorld} {who : Nat → SrvWriter} {cc : ClientConf} {cw : CWorld} {o : COutcome}
    {w3 : World} {id : Nat} (hj : Joined env c lib who cc cw o w w3 id) {name : List UInt8} (hone : cc.consoles = [name]) (hre : cc.regex = false)
    (hglob : ∀ x, lib.glob name x = decide (x = name)) :
    ∃ n k, c.consoles[n]? = some k ∧ k.name = name ∧ (∀ m k', c.consoles[m]? = some k' → k'.name = name → m = n) ∧
      (cc.cmd = .connect → (w3.obj id).readers = [2 * n]) ∧ (w3.obj id).writers = [2 * n] := by
  have hu := (C71_unique cenv text _ c rfl hc).1.imp (fun h => h.1)
  obtain ⟨-, -, -, -, -, -, j7, ⟨ns, n0, n1, n2, n3, n4⟩, -⟩ := joined_facts hu hr hj
  have hsel : ∀ x, selected (w.view c lib who) cc.regex cc.consoles x = decide (x = name) := by
    intro x
    unfold selected
    rw [hre, hone, if_neg (by decide), if_neg (by simp)]
    show ([name].any fun p => lib.glob p x) = _
    simp [hglob]
  obtain ⟨n, hn⟩ := List.exists_mem_of_ne_nil _ n0
  obtain ⟨k, hk, hks⟩ := (n2 n).1 hn
  rw [hsel, decide_eq_true_eq] at hks
  have huniq : ∀ (m : Nat) (k' : Console), c.consoles[m]? = some k' → k'.name = name → m = n :=
    fun m k' h1 h2 => (C96_consoles hc hr).1 m n k' k h1 hk (h2.trans hks.symm)
  have hns : ns = [n] := by
    have hall : ∀ m ∈ ns, m = n := fun m hm => by
      obtain ⟨k', g1, g2⟩ := (n2 m).1 hm
      rw [hsel, decide_eq_true_eq] at g2
      exact huniq m k' g1 g2
    cases hns : ns with
    | nil => exact absurd hns n0
    | cons a l =>
      rw [hns] at hall n1
      obtain rfl : a = n := hall a List.mem_cons_self
      cases l with
      | nil => rfl
      | cons b l =>
        have hb : b = a := hall b (by simp)
        rw [List.nodup_cons] at n1
        exact absurd (by rw [hb]; exact List.mem_cons_self) n1.1
  refine ⟨n, k, hk, hks, huniq, fun h => by rw [(n3 h).1, hns]; rfl, ?_⟩
  cases h : cc.cmd with
  | connect => rw [(n3 h).2, hns]; rfl
  | monitor => rw [(n4 h).2.1, hns]; rfl
  | query => exact absurd h j7

/-- C96. Without `-f` and `-j`, nobody was connected to any of the consoles to type when the thread looked. -/
theorem C96_unused {cenv : CEnv} {cwd text : List UInt8} {ini : IpmiOpt} {c : SConf} (hc : processConfig cenv text (createConf cwd ini) = some c)
    {env : Env} {ss : List Step} {w : World} (hr : c.world.run env ss = some w) {lib : SrvWorld} {who : Nat → SrvWriter} {cc : ClientConf} {cw : CWorld} {o : COutcome}
    {w3 : World} {id : Nat} (hj : Joined env c lib who cc cw o w w3 id) (hf : cc.force = false) (hjn : cc.join = false) :
    ∀ x ∈ (w3.obj id).readers, (w.obj x).writers = [] := by
  have hu := (C71_unique cenv text _ c rfl hc).1.imp (fun h => h.1)
  obtain ⟨-, -, -, -, -, -, j7, ⟨ns, -, -, -, -, n4⟩, -, w2, w2', j, q, -, -, -, -, -, -, -, -, -, q9, q0, q1, q2, -, q4, q5, -⟩ := joined_facts hu hr hj
  intro x hx
  have hcm : cc.cmd = .connect := by
    cases h : cc.cmd with
    | connect => rfl
    | monitor => rw [(n4 h).1] at hx; cases hx
    | query => exact absurd h j7
  rw [q5 hcm] at hx
  simp only [World.step, q0, Option.some.injEq] at q9
  split at q9
  · rename_i hv
    have hv := hv.2
    unfold World.validate at hv
    split at hv
    · cases hv
    · split at hv
      · cases hv
      · split at hv
        · cases hv
        · rename_i hb
          apply Decidable.by_contra
          intro hne
          refine hb ⟨by rw [q4, hcm]; rfl, by rw [q1, q2, hf, hjn]; simp, List.any_eq_true.2 ⟨x, hx, ?_⟩⟩
          simpa using hne
  · have := congrArg (fun v => v.wait.length) q9
    simp at this

/-- C96. With `-f`, the client is the only one that can type at each of the consoles it is connected to; all others that could before it was taken up
have lost their connections, and are told. -/
theorem C96_forced {cenv : CEnv} {cwd text : List UInt8} {ini : IpmiOpt} {c : SConf} (hc : processConfig cenv text (createConf cwd ini) = some c)
    {env : Env} (henv : ∀ n t, (env.txt n t).length ≤ queueCap) {ss : List Step} {w : World} (hr : c.world.run env ss = some w) {lib : SrvWorld} {who : Nat → SrvWriter}
    {cc : ClientConf} {cw : CWorld} {o : COutcome} {w3 : World} {id : Nat} (hj : Joined env c lib who cc cw o w w3 id) (hf : cc.force = true) :
    ∃ q mid w2 j, w.run env (.check q :: mid) = some w2 ∧ w2.run env [.grant id j] = some w3 ∧
      ∀ x ∈ (w3.obj id).readers, (w3.obj x).writers = [id] ∧ ∀ y ∈ (w2.obj x).writers, Evicted env w2 w3 id (w3.obj id).readers y := by
  have hu := (C71_unique cenv text _ c rfl hc).1.imp (fun h => h.1)
  obtain ⟨-, -, -, -, -, -, j7, ⟨ns, -, -, -, -, n4⟩, -, w2, w2', j, q, -, mid, p1, -, p3, p4, p5, p6, p7, -, -, q1, -, -, q4, q5, -⟩ := joined_facts hu hr hj
  refine ⟨q, mid, w2, j, p3, by simp only [World.run, p6, Option.bind_some, p7], fun x hx => ?_⟩
  have hcm : cc.cmd = .connect := by
    cases h : cc.cmd with
    | connect => rfl
    | monitor => rw [(n4 h).1] at hx; cases hx
    | query => exact absurd h j7
  obtain ⟨g1, g2⟩ := C10_forced_connect p1 henv id j q p4 p5 (by rw [q4, hcm]; rfl) (by rw [q1, hf, hcm]; rfl) p6
  rw [q5 hcm] at hx ⊢
  subst p7
  refine ⟨g1 x hx, fun y hy => ?_⟩
  obtain ⟨e1, e2, e3, e4⟩ := g2 x hx y hy
  exact ⟨e1, e2, e3, e4⟩

/-- C96 in part: what is typed reaches the console that was asked for.  The user of the client program, with a terminal, types text and commands E ? I L Q R Z.
From when the client is taken up the daemon goes through any history, in which it reads some of what the client program sent after its request, cut in any way.
Then every console the patterns select gets a prefix of the text typed, in order and unchanged, and all of it if the daemon has read all.
Missing: as for `C94_keys_reach_console_partial`. -/
theorem C96_typed_partial {cenv : CEnv} {cwd text : List UInt8} {ini : IpmiOpt} {c : SConf} (hc : processConfig cenv text (createConf cwd ini) = some c)
    {env : Env} {ss : List Step} {w : World} (hr : c.world.run env ss = some w) {lib : SrvWorld} {who : Nat → SrvWriter} {cc : ClientConf} {cw : CWorld} {o : COutcome}
    {w3 : World} {id : Nat} (hj : Joined env c lib who cc cw o w w3 id) (hcm : cc.cmd = .connect) (htty : cw.ttys = true) (hesc : cc.esc < 0x80)
    (hkeys : (parseKeys cc.esc (keysTyped cw.events)).all keepsOn = true)
    {n : Nat} {k : Console} (hn : c.consoles[n]? = some k) (hsel : selected (w.view c lib who) cc.regex cc.consoles k.name = true) (hkt : ∀ h p, k.dev ≠ .telnet h p)
    {post : List Step} {w4 : World} (hpost : w3.run env post = some w4) (hnet : post.flatMap (readFrom id) <+: afterLine (afterLine o.sent))
    (hng : post.all (noGrant id) = true) (hlen : ∀ i up d wr, .poll i up (some (.data d)) wr ∈ post → d.length ≤ 8191) (hl' : id ∈ w4.live) (he' : (w4.obj id).eof = false)
    (hsole : ∀ i up d wr, .poll i up (some (.data d)) wr ∈ post → i = id ∨ i ∈ w3.live ∧ (w3.obj i).kind ≠ .client)
    (hfit : typedFits env w3 (2 * n) post = true) (hg : (w4.obj (2 * n)).gen = (w3.obj (2 * n)).gen) (he : (w4.obj (2 * n)).eof = false) :
    ∃ t, t <+: typedText (parseKeys cc.esc (keysTyped cw.events)) ∧
      sentTo (2 * n) w4.fx ++ (w4.obj (2 * n)).pend = sentTo (2 * n) w3.fx ++ (w3.obj (2 * n)).pend ++ t ∧
      (post.flatMap (readFrom id) = afterLine (afterLine o.sent) → t = typedText (parseKeys cc.esc (keysTyped cw.events))) := by
  have hu := (C71_unique cenv text _ c rfl hc).1.imp (fun h => h.1)
  obtain ⟨j1, j2, j3, j4, -, -, -, ⟨ns, -, -, n2, n3, -⟩, j9, -⟩ := joined_facts hu hr hj
  obtain ⟨s0, s1, b⟩ := j9 htty
  obtain ⟨c1, c2, c3, c4, -, c6, c7⟩ := b.cs
  obtain ⟨y, hy⟩ := b.ext
  have hy' := b.sent y hy.symm
  rw [hy'] at hnet ⊢
  rw [← c1] at hesc hkeys ⊢
  have hrd : 2 * n ∈ (w3.obj id).readers := by
    rw [(n3 hcm).1]
    exact List.mem_map.2 ⟨n, (n2 n).2 ⟨k, hn, hsel⟩, rfl⟩
  have hk3 : (w3.obj (2 * n)).kind = k.dev.kind := by
    obtain ⟨s, ses, -, -, mid, w2, j, g1, g2, g3, g4⟩ := hj.talk
    have hw2 : c.world.run env (ss ++ .check ses.req :: mid) = some w2 := by rw [run_append, hr]; exact g1
    have hw3 : c.world.run env ((ss ++ .check ses.req :: mid) ++ [.grant id j]) = some w3 := by rw [run_append, hw2]; exact g4
    exact (world_console c hw3 hn).2
  refine C94_keys_reach_console_partial j1 id (2 * n) post c6 c3 hesc c2 c4 (by rw [c7, hcm]; rfl) b.run hkeys hy.symm hnet hpost j2 j3 j4 hrd hng hlen hl' he' hsole ?_ hfit hg he
  rw [hk3]
  cases hd : k.dev with
  | telnet h p => exact absurd hd (hkt h p)
  | _ => simp [ConDev.kind]

/-- C96. And back: what comes from the daemon on the terminal of the client program is a prefix of messages that waited when it was taken up and entries that hold all
output of its consoles, in order, messages of the daemon and replays.  For a client that keeps up. -/
theorem C96_shown {cenv : CEnv} {cwd text : List UInt8} {ini : IpmiOpt} {c : SConf} (hc : processConfig cenv text (createConf cwd ini) = some c)
    {env : Env} (hv : ShowEnv env) {ss : List Step} {w : World} (hr : c.world.run env ss = some w) {lib : SrvWorld} {who : Nat → SrvWriter} {cc : ClientConf} {cw : CWorld}
    {o : COutcome} {w3 : World} {id : Nat} (hj : Joined env c lib who cc cw o w w3 id) (htty : cw.ttys = true) (hstk : 1024 ≤ cw.stk.length)
    {post : List Step} {w4 : World} (hpost : w3.run env post = some w4) {x : List UInt8} (hx : sentTo id w4.fx = sentTo id w3.fx ++ x) (hnet : received cw.events <+: x)
    (hng : post.all (noGrant id) = true) (hlen : ∀ i up d wr, .poll i up (some (.data d)) wr ∈ post → d.length ≤ 8191) (hl' : id ∈ w4.live) (he' : (w4.obj id).eof = false)
    (hup : keepsUp env w3 id post = true) :
    ∃ evs : List ShowEv, (∀ e ∈ evs, e.Ok env) ∧ evs.flatMap ShowEv.outs = heardAll env w3 id post ∧
      dataOf o.out <+: (w3.obj id).pend ++ evs.flatMap ShowEv.bytes ∧
      (o.exit = none → received cw.events = x → dataOf o.out ++ (w4.obj id).pend = (w3.obj id).pend ++ evs.flatMap ShowEv.bytes) := by
  have hu := (C71_unique cenv text _ c rfl hc).1.imp (fun h => h.1)
  obtain ⟨j1, j2, j3, j4, -, -, -, -, j9, -⟩ := joined_facts hu hr hj
  obtain ⟨s0, s1, b⟩ := j9 htty
  obtain ⟨-, -, c3, c4, c5, c6, -⟩ := b.cs
  obtain ⟨evs, r, e1, e2, e3, -, e5, e6⟩ := C94_output_reaches_terminal hv j1 id post hstk c6 c3 (c5.trans c4.symm) b.run hx hnet hpost j2 j3 hng hlen hl' he' hup
  have hd : dataOf o.out = r := by rw [b.out.1, e3, b.out.2.2, List.nil_append]
  refine ⟨evs, e1, e2, by rw [hd]; exact e5, fun hex hall => ?_⟩
  rw [hd]
  refine e6 ?_ hall
  obtain ⟨s2, n, b1, -, -, -, -, b6⟩ := C83_session hstk s0 c6 c3 (c5.trans c4.symm) cw.events
  rw [b.run, Option.some.injEq] at b1
  subst b1
  rcases b6 with ⟨g, -⟩ | ⟨g, -⟩ | ⟨g, -⟩
  · exact g
  · exact absurd g (b.going hex).2
  · exact absurd g (b.going hex).1

/-- C96. For every request that can be sent and is for one console or a broadcast, with nobody in the way, there is such a run of client program, thread and main loop, and it
reaches no undefined behaviour. -/
theorem C96_joins {env : Env} {c : SConf} {ss : List Step} {w : World} (hr : c.world.run env ss = some w) (lib : SrvWorld) (who : Nat → SrvWriter)
    (cc : ClientConf) (cw : CWorld) (hs : Sendable (w.view c lib who) cc cw) (ha : lib.allowed = true) (hg : Granted (w.view c lib who) cc)
    (hsz : answerSize c.resetCmd.isSome ((selection (w.view c lib who) cc.regex cc.consoles).map (·.name)) < 131072)
    (hf : cw.resolved = true ∧ cw.connErr = none ∧ cw.send1 = none ∧ cw.send2 = none ∧ cw.shutErr = none ∧ cw.tailErr = false ∧ (cc.log ≠ none → cw.logFile ≠ none) ∧ 1024 ≤ cw.stk.length)
    (hl : c.consoles.length < 2147483648) (hz : ∀ x ∈ (w.view c lib who).cons, ∀ y ∈ x.writers, (0 : UInt8) ∉ inUse x y)
    (hx : ∀ p, lib.rex p = none → Plain (lib.rexErr p) ∧ lib.rexErr p ≠ []) (id : Nat) (hid : id ∉ w.live) :
    ∃ rsp1 rsp2 tail o w3, Joined env c lib who cc { cw with rsp1 := rsp1, rsp2 := rsp2, tail := tail } o w w3 id := by
  obtain ⟨rsp1, rsp2, tail, o, s, t⟩ := C86_runs (w.view c lib who) cc cw hs ha hf (by simpa [World.view] using hl) hz hx
  have hs' : Sendable (w.view c lib who) cc { cw with rsp1 := rsp1, rsp2 := rsp2, tail := tail } := ⟨hs.user, hs.tty, hs.pats, hs.any, hs.fits, hs.cons⟩
  obtain ⟨ses, h1, h2⟩ := C96_accepted hr lib who t hs' ha hg hsz
  have hw2 : w.run env [.check ses.req] = some { w with wait := w.wait ++ [ses.req], tick := w.tick + 1 } := by
    simp only [World.run, h2, Option.bind_some]
  have hj : ({ w with wait := w.wait ++ [ses.req], tick := w.tick + 1 } : World).wait[w.wait.length]? = some ses.req := by simp
  have hg3 : ∃ w3, ({ w with wait := w.wait ++ [ses.req], tick := w.tick + 1 } : World).run env [.grant id w.wait.length] = some w3 := by
    simp only [World.run, World.step, hj]
    rw [if_neg hid]
    exact ⟨_, rfl⟩
  obtain ⟨w3, hg3⟩ := hg3
  exact ⟨rsp1, rsp2, tail, o, w3, hs', s, ses, t, h1, [], _, w.wait.length, hw2, hj, hid, hg3⟩

/-! ### A configuration with three consoles -/

/-- The file. -/
def Spec.wholeText : String := "SERVER logdir=\"/tmp\"\nGLOBAL log=\"%N.log\" logopts=\"sanitize\"\nCONSOLE name=\"n1\" dev=\"/dev/ttyS0\"\nCONSOLE name=\"n2\" dev=\"/dev/ttyS1\" log=\"\"\nCONSOLE name=\"t\" dev=\"test:\"\n"

/-- What is read from it. -/
def Spec.wholeConf : SConf := (readDemo wholeText).getD confDemo

theorem whole_read : readDemo wholeText = some wholeConf ∧ wholeConf.consoles.map (fun k => (k.name, k.dev.kind, k.log.isSome)) =
    [(bs "n1", .serial, true), (bs "n2", .serial, false), (bs "t", .test, true)] := by decide +kernel


/-- The C library: patterns are `*` and names. -/
def Spec.wholeLib : SrvWorld := { cons := [], glob := fun p n => p = bs "*" ∨ p = n, rexErr := fun _ => bs "Invalid regular expression" }

/-- The user types "a" and "b"; "o" comes from the console. -/
def Spec.wholeUser : CWorld := { exampleWorld with events := [.round (some (some 0x61)) none, .round (some (some 0x62)) (some [0x6F])] }

/-- The daemon's consoles. -/
def Spec.wholeCfg : List ConConf := [⟨.serial, false, some ⟨true, false⟩⟩, ⟨.serial, false, none⟩, ⟨.test, false, some ⟨true, false⟩⟩]

theorem whole_world : wholeConf.world = World.boot wholeCfg := congrArg World.boot (show wholeConf.consoles.map wholeConf.entry = wholeCfg by decide +kernel)

/-- Console `n2` is up. -/
def Spec.wholeUp : World := ((World.boot wholeCfg).run Demo.env [.connUp 2]).getD (World.boot wholeCfg)

/-- It is asked for, and the client taken up. -/
def Spec.wholeJoined : World := (wholeUp.run Demo.env [.check ⟨.connect, [2], false, false, false, false⟩, .grant 10 0]).getD wholeUp

/-- Then the daemon reads what was typed, in two reads; the console says "o". -/
def Spec.wholePost : List Step := [.poll 10 true (some (.data [0x61])) none, .poll 2 true (some (.data [0x6F])) (some (.accept 1)), .poll 10 true (some (.data [0x62])) (some (.accept 1))]

def Spec.wholeEnd : World := (wholeJoined.run Demo.env wholePost).getD wholeJoined

theorem whole_up : wholeConf.world.run Demo.env [.connUp 2] = some wholeUp := by
  rw [whole_world]
  unfold wholeUp
  cases h : (World.boot wholeCfg).run Demo.env [.connUp 2] with
  | none => exact absurd (congrArg Option.isSome h) (by decide +kernel)
  | some v => rfl

/-- What a thread finds. -/
def Spec.wholeView : SrvWorld := wholeUp.view wholeConf wholeLib (fun _ => { user := [], host := [] })

theorem whole_view : wholeView.cons = [{ name := bs "n1" }, { name := bs "n2" }, { name := bs "t" }] ∧ wholeView.resetCmd = false := by decide +kernel

theorem whole_selection : selection wholeView false [bs "n2"] = [{ name := bs "n2" }] := by
  unfold selection
  rw [whole_view.1]
  decide

theorem whole_names (v : Nat) (k : Console) (h : wholeConf.consoles[v]? = some k) (hk : k.name = bs "n2") : v = 1 := by
  have hm : ∀ l, wholeConf.consoles.map (·.name) = l → l[v]? = some (bs "n2") := by rintro _ rfl; rw [List.getElem?_map, h, Option.map_some, hk]
  have hm := hm [bs "n1", bs "n2", bs "t"] (by decide +kernel)
  clear h
  match v, hm with
  | 0, h => exact absurd h (by decide)
  | 1, _ => rfl
  | 2, h => exact absurd h (by decide)
  | n + 3, h => simp at h

theorem whole_index (v : Nat) (h : ([{ name := bs "n1" }, { name := bs "n2" }, { name := bs "t" }] : List SrvCon)[v]? = some { name := bs "n2" }) : v = 1 := by
  match v, h with
  | 0, h => exact absurd (congrArg (Option.map SrvCon.name) h) (by decide)
  | 1, _ => rfl
  | 2, h => exact absurd (congrArg (Option.map SrvCon.name) h) (by decide)
  | n + 3, h => simp at h

theorem whole_joined : ∃ cw o, Joined Demo.env wholeConf wholeLib (fun _ => { user := [], host := [] }) (exampleClient .connect [bs "n2"] false false) cw o wholeUp wholeJoined 10 ∧
    cw.events = wholeUser.events ∧ cw.ttys = true ∧ 1024 ≤ cw.stk.length := by
  have hp : ∀ p ∈ [bs "n2"], Plain p ∧ p ≠ [] := by decide
  have hs : Sendable wholeView (exampleClient .connect [bs "n2"] false false) wholeUser :=
    ⟨by decide, by decide, hp, by decide, ⟨_, by rw [request_eq maxSockLine _ (by rw [msl]; omega) (fun p h => (hp p h).1), if_pos (by rw [msl]; decide)]⟩, by
      rw [whole_view.1]; decide⟩
  obtain ⟨r1, r2, tl, o, s, t⟩ := C86_runs wholeView _ _ hs rfl
    ⟨rfl, rfl, rfl, rfl, rfl, rfl, fun h => absurd rfl h, by unfold wholeUser exampleWorld; rw [List.length_replicate]; exact Nat.le_refl _⟩
    (by rw [whole_view.1]; decide) (by rw [whole_view.1]; decide) (fun p _ => by
      show Plain (bs "Invalid regular expression") ∧ bs "Invalid regular expression" ≠ []
      decide)
  have hs' : Sendable wholeView (exampleClient .connect [bs "n2"] false false) { wholeUser with rsp1 := r1, rsp2 := r2, tail := tl } := ⟨hs.user, hs.tty, hs.pats, hs.any, hs.fits, hs.cons⟩
  obtain ⟨ns, g1, -, g2, -⟩ := C86_session_partial t hs' rfl (by
    unfold Granted
    show selection wholeView false [bs "n2"] ≠ [] ∧ _
    show _ ∧ ((selection wholeView false [bs "n2"]).length = 1 ∨ _) ∧ (_ ∨ _ ∧ (_ ∨ _ ∨ ∀ x ∈ selection wholeView false [bs "n2"], x.writers = []))
    rw [whole_selection]
    decide) (by
    show answerSize wholeView.resetCmd ((selection wholeView false [bs "n2"]).map (·.name)) < 131072
    rw [whole_selection, whole_view.2]; decide)
  have g1 : (ns.map fun (i : wholeView.Con) => wholeView.cons[i]).Perm (selection wholeView false [bs "n2"]) := g1
  rw [whole_selection] at g1
  have e := List.perm_singleton.1 g1
  obtain ⟨i, rfl⟩ : ∃ i, ns = [i] := List.length_eq_one_iff.1 (by simpa using congrArg List.length e)
  have hi : ∀ l, wholeView.cons = l → l[i.val]? = some { name := bs "n2" } := by
    rintro l rfl
    have h1 : wholeView.cons[i] = { name := bs "n2" } := by simpa using e
    rw [List.getElem?_eq_getElem i.isLt]
    exact congrArg some h1
  have hi1 : i.val = 1 := whole_index i.val (hi _ whole_view.1)
  obtain ⟨ses, h1, h2⟩ : ∃ ses, s.session = some ses ∧ ses.req = ⟨.connect, [2], false, false, false, false⟩ :=
    ⟨_, g2, by simp [SrvSession.req, hi1, exampleClient, clientConf0]⟩
  have hrun : (wholeUp.run Demo.env [.check ⟨.connect, [2], false, false, false, false⟩, .grant 10 0]).isSome = true := by decide +kernel
  obtain ⟨w3, hw3⟩ := Option.isSome_iff_exists.1 hrun
  have hw3' : w3 = wholeJoined := by unfold wholeJoined; rw [hw3]; rfl
  rw [show ∀ a b : Step, [a, b] = [a] ++ [b] from fun _ _ => rfl, run_append] at hw3
  obtain ⟨w2, hw2, hg⟩ := Option.bind_eq_some_iff.1 hw3
  have hf : (wholeUp.run Demo.env [.check ⟨.connect, [2], false, false, false, false⟩]).map (fun v => (v.wait, decide (10 ∈ v.live))) =
      some ([⟨.connect, [2], false, false, false, false⟩], false) := by decide +kernel
  rw [hw2, Option.map_some, Option.some.injEq, Prod.mk.injEq] at hf
  refine ⟨_, o, ⟨hs', s, ses, t, h1, [], w2, 0, by show wholeUp.run _ [.check (SrvSession.req ses)] = _; rw [h2]; exact hw2, by show w2.wait[0]? = some (SrvSession.req ses); rw [hf.1, h2]; rfl, by simpa using hf.2, by rw [← hw3']; exact hg⟩, rfl, rfl, by unfold wholeUser exampleWorld; rw [List.length_replicate]; exact Nat.le_refl _⟩

/-- The user is at console `n2`: object 2. -/
example : (wholeJoined.obj 10).readers = [2] ∧ (wholeJoined.obj 10).writers = [2] := by
  obtain ⟨cw, o, hj, -⟩ := whole_joined
  obtain ⟨n, k, h1, h2, -, h3, h4⟩ := C96_by_name whole_read.1 whole_up hj (name := bs "n2") rfl rfl (by
    intro x
    show decide (bs "n2" = bs "*" ∨ bs "n2" = x) = _
    have : ¬ bs "n2" = bs "*" := by decide
    simp only [this, false_or]
    exact decide_eq_decide.2 eq_comm)
  have hn : n = 1 := whole_names n k h1 h2
  subst hn
  exact ⟨h3 rfl, h4⟩

/-- "ab" reaches the console, and "o" the terminal. -/
example : ∃ cw o, Joined Demo.env wholeConf wholeLib (fun _ => { user := [], host := [] }) (exampleClient .connect [bs "n2"] false false) cw o wholeUp wholeJoined 10 ∧
    afterLine (afterLine o.sent) = [0x61, 0x62] ∧ wholePost.flatMap (readFrom 10) = [0x61, 0x62] ∧ wholePost.all (noGrant 10) = true ∧ 10 ∈ wholeEnd.live ∧
    (wholeEnd.obj 10).eof = false ∧ typedFits Demo.env wholeJoined 2 wholePost = true ∧ (wholeEnd.obj 2).gen = (wholeJoined.obj 2).gen ∧ (wholeEnd.obj 2).eof = false ∧
    keepsUp Demo.env wholeJoined 10 wholePost = true ∧ typedText (parseKeys 0x26 (keysTyped cw.events)) = [0x61, 0x62] ∧
    sentTo 2 wholeEnd.fx ++ (wholeEnd.obj 2).pend = sentTo 2 wholeJoined.fx ++ (wholeJoined.obj 2).pend ++ [0x61, 0x62] ∧
    sentTo 10 wholeEnd.fx = sentTo 10 wholeJoined.fx ++ received cw.events := by
  obtain ⟨cw, o, hj, he, ht, hstk⟩ := whole_joined
  obtain ⟨-, -, -, -, -, -, -, -, j9, -⟩ := joined_facts ((C71_unique envDemo (bs wholeText) _ _ rfl whole_read.1).1.imp (fun h => h.1)) whole_up hj
  obtain ⟨s0, s1, b⟩ := j9 ht
  obtain ⟨-, -, c3, c4, c5, c6, -⟩ := b.cs
  obtain ⟨bc, rs, hf⟩ := b.flags
  refine ⟨cw, o, hj, ?_, by decide, by decide, by decide +kernel, by decide +kernel, by decide +kernel, by decide +kernel, by decide +kernel, by decide +kernel, by rw [he]; decide, by decide +kernel,
    by rw [he]; decide +kernel⟩
  rw [b.sent _ (run_keys _ c6 c3 b.run), hf, he]
  cases bc <;> cases rs <;> decide

/-- The state in which client 10 has console `n2`, as a thread finds it. -/
def Spec.wholeHeldView : SrvWorld := wholeJoined.view wholeConf wholeLib (fun _ => { user := bs "u", host := bs "h" })

theorem whole_held : wholeHeldView.cons = [{ name := bs "n1" }, { name := bs "n2", writers := [{ user := bs "u", host := bs "h" }] }, { name := bs "t" }] ∧
    wholeHeldView.resetCmd = false := by decide +kernel

theorem whole_held_selection : selection wholeHeldView false [bs "n2"] = [{ name := bs "n2", writers := [{ user := bs "u", host := bs "h" }] }] := by
  unfold selection
  rw [whole_held.1]
  decide

theorem whole_reset : wholeConf.resetCmd.isSome = false := by decide +kernel

theorem whole_held_run : wholeConf.world.run Demo.env ([.connUp 2] ++ [.check ⟨.connect, [2], false, false, false, false⟩, .grant 10 0]) = some wholeJoined := by
  rw [run_append, whole_up, Option.bind_some]
  unfold wholeJoined
  cases h : wholeUp.run Demo.env [.check ⟨.connect, [2], false, false, false, false⟩, .grant 10 0] with
  | none => exact absurd (congrArg Option.isSome h) (by decide +kernel)
  | some v => rfl

/-- Client 10 has console `n2`; `conman -f n2` takes it over. -/
example : ∃ cw o w3, Joined Demo.env wholeConf wholeLib (fun _ => { user := bs "u", host := bs "h" }) { exampleClient .connect [bs "n2"] false false with force := true } cw o wholeJoined w3 11 ∧
    (wholeJoined.obj 2).writers = [10] ∧ (w3.obj 11).readers = [2] ∧ (w3.obj 2).writers = [11] := by
  have hp : ∀ p ∈ [bs "n2"], Plain p ∧ p ≠ [] := by decide
  have hs : Sendable wholeHeldView { exampleClient .connect [bs "n2"] false false with force := true } wholeUser :=
    ⟨by decide, by decide, hp, by decide, ⟨_, by rw [request_eq maxSockLine _ (by rw [msl]; omega) (fun p h => (hp p h).1), if_pos (by rw [msl]; decide)]⟩, by
      rw [whole_held.1]; decide⟩
  obtain ⟨r1, r2, tl, o, w3, hj⟩ := C96_joins whole_held_run wholeLib (fun _ => { user := bs "u", host := bs "h" }) _ _ hs rfl (by
    unfold Granted
    show selection wholeHeldView false [bs "n2"] ≠ [] ∧ ((selection wholeHeldView false [bs "n2"]).length = 1 ∨ _) ∧ (_ ∨ _ ∧ (_ ∨ _ ∨ _))
    rw [whole_held_selection]
    exact ⟨by decide, by decide, Or.inr ⟨by decide, Or.inl rfl⟩⟩) (by
    rw [whole_reset]
    show answerSize false ((selection wholeHeldView false [bs "n2"]).map (·.name)) < 131072
    rw [whole_held_selection]; decide)
    ⟨rfl, rfl, rfl, rfl, rfl, rfl, fun h => absurd rfl h, by unfold wholeUser exampleWorld; rw [List.length_replicate]; exact Nat.le_refl _⟩
    (by have := congrArg List.length whole_held.1; simp [wholeHeldView, World.view] at this; omega)
    (by show ∀ x ∈ wholeHeldView.cons, _; rw [whole_held.1]; decide)
    (fun p _ => by
      show Plain (bs "Invalid regular expression") ∧ bs "Invalid regular expression" ≠ []
      decide) 11 (by decide +kernel)
  obtain ⟨n, k, h1, h2, -, h3, -⟩ := C96_by_name whole_read.1 whole_held_run hj (name := bs "n2") rfl rfl (by
    intro x
    show decide (bs "n2" = bs "*" ∨ bs "n2" = x) = _
    have : ¬ bs "n2" = bs "*" := by decide
    simp only [this, false_or]
    exact decide_eq_decide.2 eq_comm)
  have hn : n = 1 := whole_names n k h1 h2
  subst hn
  have hr := h3 rfl
  obtain ⟨q, mid, w2, j, -, -, hw⟩ := C96_forced whole_read.1 Demo.showEnv.txt whole_held_run hj rfl
  exact ⟨_, o, w3, hj, by decide +kernel, hr, (hw 2 (by rw [hr]; decide)).1⟩

end Conman
