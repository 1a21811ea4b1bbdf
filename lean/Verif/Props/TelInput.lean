import Verif.Lemma.TelInput
import Verif.Props.EndToEnd
import Verif.Props.Whole

/-
C98: what is typed to a telnet console, as its peer decodes it.  The vocabulary is in `Spec/TelInput.lean` and `Spec/Telnet.lean`.
-/
namespace Conman
open Spec

/-- C98 in part: what a telnet console is sent is a telnet stream: data, the negotiation, refusals and BREAK, each whole; the data
are the text typed by its clients, in order.
Missing: text with 0xFF (see `C91_telnet_command`, `C98_break_as_data`), a console that is closed or full meanwhile. -/
theorem C98_stream_partial {env : Env} {w w' : World} (h : Reachable env w) (k : Nat) (ss : List Step)
    (hr : w.run env ss = some w') (hl : k ∈ w.live) (hk : (w.obj k).kind = .telnet)
    (hlen : ∀ i up d wr, .poll i up (some (.data d)) wr ∈ ss → d.length ≤ 8191)
    (hfit : typedFits env w k ss = true) (hg : (w'.obj k).gen = (w.obj k).gen) (he : (w'.obj k).eof = false)
    (hff : 255 ∉ textAll env w k ss) :
    ∃ toks : List TelTok, sentTo k w'.fx ++ (w'.obj k).pend = sentTo k w.fx ++ (w.obj k).pend ++ toks.flatMap TelTok.enc ∧
      (∀ t ∈ toks, telSends t = true) ∧ toks.flatMap TelTok.appData = textAll env w k ss := by
  obtain ⟨toks, e, m, a⟩ := TelStream.run (env := env) k ss h.finv hl hk hff
  exact ⟨toks, by rw [input_run k ss h.finv hr hl (by rw [hk]; rfl) hlen hfit hg he, e], m, a⟩

/-- C98 in part: a peer that decodes telnet as the daemon does, and reads what is sent in any pieces, gets a beginning of the text
typed, and all of it once nothing waits; between reads it is never left inside a command then.
Missing: as above. -/
theorem C98_peer_partial {env : Env} {w w' : World} (h : Reachable env w) (k : Nat) (ss : List Step)
    (hr : w.run env ss = some w') (hl : k ∈ w.live) (hk : (w.obj k).kind = .telnet)
    (hlen : ∀ i up d wr, .poll i up (some (.data d)) wr ∈ ss → d.length ≤ 8191)
    (hfit : typedFits env w k ss = true) (hg : (w'.obj k).gen = (w.obj k).gen) (he : (w'.obj k).eof = false)
    (hff : 255 ∉ textAll env w k ss) (hp : (w.obj k).pend = [])
    {x : List UInt8} (hx : sentTo k w'.fx = sentTo k w.fx ++ x) (chunks : List (List UInt8)) (hc : chunks.flatten = x) :
    ∃ i d r, telChunks none chunks = some (i, d, r) ∧ d <+: textAll env w k ss ∧
      ((w'.obj k).pend = [] → i = none ∧ d = textAll env w k ss) := by
  have hs := TelStream.run (env := env) k ss h.finv hl hk hff
  have hi := input_run k ss h.finv hr hl (by rw [hk]; rfl) hlen hfit hg he
  rw [hx, hp, List.append_nil, List.append_assoc, List.append_cancel_left_eq] at hi
  obtain ⟨i, d, r, p1, p2, p3⟩ := hs.peer ⟨_, hi⟩ chunks hc
  refine ⟨i, d, r, p1, p2, fun hz => p3 ?_⟩
  rw [hz, List.append_nil] at hi
  exact hi

/-- C98 in part: any text `t` without 0xFF, cut into reads in any way, from the only client that types, is the data of what the
telnet console is sent.
Missing: as above. -/
theorem C98_text_arrives_partial {env : Env} {w w' : World} (h : Reachable env w) (c k : Nat) (ss : List Step) (t : List UInt8)
    (hr : w.run env ss = some w') (hl : c ∈ w.live) (hk : (w.obj c).kind = .client) (hrd : k ∈ (w.obj c).readers)
    (hesc : (w.obj c).gotEscape = false) (ht : ss.flatMap (readFrom c) = t) (hff : 255 ∉ t) (hng : ss.all (noGrant c) = true)
    (hlen : ∀ i up d wr, .poll i up (some (.data d)) wr ∈ ss → d.length ≤ 8191)
    (hl' : c ∈ w'.live) (he' : (w'.obj c).eof = false)
    (hsole : ∀ i up d wr, .poll i up (some (.data d)) wr ∈ ss → i = c ∨ i ∈ w.live ∧ (w.obj i).kind ≠ .client)
    (hkt : (w.obj k).kind = .telnet)
    (hfit : typedFits env w k ss = true) (hg : (w'.obj k).gen = (w.obj k).gen) (he : (w'.obj k).eof = false) :
    ∃ toks : List TelTok, sentTo k w'.fx ++ (w'.obj k).pend = sentTo k w.fx ++ (w.obj k).pend ++ toks.flatMap TelTok.enc ∧
      (∀ x ∈ toks, telSends x = true) ∧ toks.flatMap TelTok.appData = t := by
  have hkl := (C63_links_live h c k hrd).2.1
  have hw : wireText t = t := by
    conv => rhs; rw [C91_telnet_plain t hff]
    unfold wireText
    rw [List.flatMap_map]
    rfl
  have hwt := wireText_plain t
  rw [hw] at hwt
  have tr := textAll_run c k ss h.finv hr hl hk hrd hng hlen (by rw [hesc, ht, hwt.2]; rfl) hl' he' hsole
  rw [hesc, ht, hwt.1] at tr
  obtain ⟨toks, e, m, a⟩ := C98_stream_partial h k ss hr hkl hkt hlen hfit hg he (by rw [tr]; exact hff)
  exact ⟨toks, e, m, by rw [a, tr]⟩

/-- C98 in part: the same from the terminal of the client program, as in C94: the keys typed are text without 0xFF and commands
E ? I L Q R Z.
Missing: as above and in `C94_keys_reach_console_partial`. -/
theorem C98_keys_partial {env : Env} {w w' : World} (h : Reachable env w) (c k : Nat) (ss : List Step)
    {stk : List UInt8} {es : List CEvent} {s s' : CSess} (hp : s.phase = .running) (hd : s.cs.done = false)
    (hesc : s.cs.esc < 0x80) (hin : s.cs.inEsc = false) (hopen : s.cs.wrClosed = false) (hcon : s.cs.cmd = .connect)
    (hrun : s.run stk es = some s') (hkeys : (parseKeys s.cs.esc (keysTyped es)).all keepsOn = true)
    (hff : 255 ∉ typedText (parseKeys s.cs.esc (keysTyped es)))
    {y : List UInt8} (hy : s'.sent = s.sent ++ y) (hnet : ss.flatMap (readFrom c) <+: y)
    (hr : w.run env ss = some w') (hl : c ∈ w.live) (hk : (w.obj c).kind = .client) (hge : (w.obj c).gotEscape = false)
    (hrd : k ∈ (w.obj c).readers) (hng : ss.all (noGrant c) = true)
    (hlen : ∀ i up d wr, .poll i up (some (.data d)) wr ∈ ss → d.length ≤ 8191) (hl' : c ∈ w'.live) (he' : (w'.obj c).eof = false)
    (hsole : ∀ i up d wr, .poll i up (some (.data d)) wr ∈ ss → i = c ∨ i ∈ w.live ∧ (w.obj i).kind ≠ .client)
    (hkt : (w.obj k).kind = .telnet)
    (hfit : typedFits env w k ss = true) (hg : (w'.obj k).gen = (w.obj k).gen) (he : (w'.obj k).eof = false) :
    ∃ toks : List TelTok, sentTo k w'.fx ++ (w'.obj k).pend = sentTo k w.fx ++ (w.obj k).pend ++ toks.flatMap TelTok.enc ∧
      (∀ x ∈ toks, telSends x = true) ∧ toks.flatMap TelTok.appData <+: typedText (parseKeys s.cs.esc (keysTyped es)) ∧
      (ss.flatMap (readFrom c) = y → toks.flatMap TelTok.appData = typedText (parseKeys s.cs.esc (keysTyped es))) := by
  have hkl := (C63_links_live h c k hrd).2.1
  obtain ⟨q1, q2, q3⟩ := session_wire hp hd hesc hin hopen hcon hrun hkeys hy hnet
  have tr := textAll_run c k ss h.finv hr hl hk hrd hng hlen (by rw [hge]; exact q2) hl' he' hsole
  rw [hge] at tr
  obtain ⟨toks, e, m, a⟩ := C98_stream_partial h k ss hr hkl hkt hlen hfit hg he (by rw [tr]; exact fun g => hff (q1.subset g))
  exact ⟨toks, e, m, by rw [a, tr]; exact q1, fun g => by rw [a, tr]; exact q3 g⟩

/-- C98 in part: the same with the configuration, as in C96: every telnet console that the patterns of the request select.
Missing: as above. -/
theorem C98_typed_partial {cenv : CEnv} {cwd text : List UInt8} {ini : IpmiOpt} {c : SConf} (hc : processConfig cenv text (createConf cwd ini) = some c)
    {env : Env} {ss : List Step} {w : World} (hr : c.world.run env ss = some w) {lib : SrvWorld} {who : Nat → SrvWriter} {cc : ClientConf} {cw : CWorld} {o : COutcome}
    {w3 : World} {id : Nat} (hj : Joined env c lib who cc cw o w w3 id) (hcm : cc.cmd = .connect) (htty : cw.ttys = true) (hesc : cc.esc < 0x80)
    (hkeys : (parseKeys cc.esc (keysTyped cw.events)).all keepsOn = true) (hff : 255 ∉ typedText (parseKeys cc.esc (keysTyped cw.events)))
    {n : Nat} {k : Console} (hn : c.consoles[n]? = some k) (hsel : selected (w.view c lib who) cc.regex cc.consoles k.name = true) (hkt : ∃ h p, k.dev = .telnet h p)
    {post : List Step} {w4 : World} (hpost : w3.run env post = some w4) (hnet : post.flatMap (readFrom id) <+: afterLine (afterLine o.sent))
    (hng : post.all (noGrant id) = true) (hlen : ∀ i up d wr, .poll i up (some (.data d)) wr ∈ post → d.length ≤ 8191) (hl' : id ∈ w4.live) (he' : (w4.obj id).eof = false)
    (hsole : ∀ i up d wr, .poll i up (some (.data d)) wr ∈ post → i = id ∨ i ∈ w3.live ∧ (w3.obj i).kind ≠ .client)
    (hfit : typedFits env w3 (2 * n) post = true) (hg : (w4.obj (2 * n)).gen = (w3.obj (2 * n)).gen) (he : (w4.obj (2 * n)).eof = false) :
    ∃ toks : List TelTok, sentTo (2 * n) w4.fx ++ (w4.obj (2 * n)).pend = sentTo (2 * n) w3.fx ++ (w3.obj (2 * n)).pend ++ toks.flatMap TelTok.enc ∧
      (∀ x ∈ toks, telSends x = true) ∧ toks.flatMap TelTok.appData <+: typedText (parseKeys cc.esc (keysTyped cw.events)) ∧
      (post.flatMap (readFrom id) = afterLine (afterLine o.sent) → toks.flatMap TelTok.appData = typedText (parseKeys cc.esc (keysTyped cw.events))) := by
  have hu := (C71_unique cenv text _ c rfl hc).1.imp (fun h => h.1)
  obtain ⟨j1, j2, j3, j4, -, -, -, ⟨ns, -, -, n2, n3, -⟩, j9, -⟩ := joined_facts hu hr hj
  obtain ⟨s0, s1, b⟩ := j9 htty
  obtain ⟨c1, c2, c3, c4, -, c6, c7⟩ := b.cs
  obtain ⟨y, hy⟩ := b.ext
  have hy' := b.sent y hy.symm
  rw [hy'] at hnet ⊢
  rw [← c1] at hesc hkeys hff ⊢
  have hrd : 2 * n ∈ (w3.obj id).readers := by
    rw [(n3 hcm).1]
    exact List.mem_map.2 ⟨n, (n2 n).2 ⟨k, hn, hsel⟩, rfl⟩
  have hk3 : (w3.obj (2 * n)).kind = k.dev.kind := by
    obtain ⟨s, ses, -, -, mid, w2, j, g1, g2, g3, g4⟩ := hj.talk
    have hw2 : c.world.run env (ss ++ .check ses.req :: mid) = some w2 := by rw [run_append, hr]; exact g1
    have hw3 : c.world.run env ((ss ++ .check ses.req :: mid) ++ [.grant id j]) = some w3 := by rw [run_append, hw2]; exact g4
    exact (world_console c hw3 hn).2
  refine C98_keys_partial j1 id (2 * n) post c6 c3 hesc c2 c4 (by rw [c7, hcm]; rfl) b.run hkeys hff hy.symm hnet hpost j2 j3 j4 hrd hng hlen hl' he' hsole ?_ hfit hg he
  rw [hk3]
  obtain ⟨h, p, hd⟩ := hkt
  rw [hd]
  rfl

/-! ### A connection -/

/-- Telnet console 2 comes up; client 10 is connected to it. -/
def Demo.telSess : List Step := [.check ⟨.connect, [2], false, false, false, false⟩, .grant 10 0]

/-- The connection comes up, "ab" is typed while the peer asks for an option that is refused, a break, and "c". -/
def Demo.telRun : List Step := [.connUp 2, .poll 10 true (some (.data [0x61, 0x62])) none, .poll 2 true (some (.data [255, 253, 24, 0x68])) (some (.accept 4)),
  .poll 10 true (some (.data [255, 0x42])) none, .poll 10 true (some (.data [0x63])) none, .poll 2 true none (some (.accept 99))]

example : let w := Demo.after Demo.telSess
    let w' := Demo.after (Demo.telSess ++ Demo.telRun)
    Reachable Demo.env w ∧ (w.run Demo.env Demo.telRun).isSome = true ∧ 2 ∈ w.live ∧ (w.obj 2).kind = .telnet ∧ (w.obj 2).fd = false ∧ (w.obj 2).pend = [] ∧
    typedFits Demo.env w 2 Demo.telRun = true ∧ (w'.obj 2).gen = (w.obj 2).gen ∧ (w'.obj 2).eof = false ∧
    textAll Demo.env w 2 Demo.telRun = [0x61, 0x62, 0x63] ∧ (w'.obj 2).pend = [] ∧
    sentTo 2 w'.fx = [TelTok.do_ 0, .do_ 1, .do_ 3, .will 0, .will 3, .data 0x61, .data 0x62, .wont 24, .cmd 243, .data 0x63].flatMap TelTok.enc :=
  ⟨Demo.reach _ (by decide +kernel), by decide +kernel, by decide +kernel, by decide +kernel, by decide +kernel, by decide +kernel, by decide +kernel,
    by decide +kernel, by decide +kernel, by decide +kernel, by decide +kernel, by decide +kernel⟩

/-- The reads of that history are short and come from client 10 or a console. -/
example : let w := Demo.after Demo.telSess
    ∀ i up d wr, .poll i up (some (.data d)) wr ∈ Demo.telRun → d.length ≤ 8191 ∧ (i = 10 ∨ i ∈ w.live ∧ (w.obj i).kind ≠ .client) := by
  intro w i up d wr hm
  simp only [Demo.telRun, List.mem_cons, Step.poll.injEq, Option.some.injEq, ReadRes.data.injEq, List.not_mem_nil, or_false] at hm
  rcases hm with h | ⟨rfl, _, rfl, _⟩ | ⟨rfl, _, rfl, _⟩ | ⟨rfl, _, rfl, _⟩ | ⟨rfl, _, rfl, _⟩ | ⟨_, _, h, _⟩
  · cases h
  · exact ⟨by decide, Or.inl rfl⟩
  · refine ⟨by decide, Or.inr ⟨?_, ?_⟩⟩
    · show 2 ∈ (Demo.after Demo.telSess).live; decide +kernel
    · show ((Demo.after Demo.telSess).obj 2).kind ≠ .client; decide +kernel
  · exact ⟨by decide, Or.inl rfl⟩
  · exact ⟨by decide, Or.inl rfl⟩
  · simp at h

/-- Without the break: the text of the only client. -/
example : let w := Demo.after Demo.telSess
    let ss := Demo.telRun.take 3
    let w' := Demo.after (Demo.telSess ++ ss)
    10 ∈ w.live ∧ (w.obj 10).kind = .client ∧ 2 ∈ (w.obj 10).readers ∧ (w.obj 10).gotEscape = false ∧ ss.flatMap (readFrom 10) = [0x61, 0x62] ∧
    ss.all (noGrant 10) = true ∧ 10 ∈ w'.live ∧ (w'.obj 10).eof = false ∧ typedFits Demo.env w 2 ss = true ∧ (w'.obj 2).gen = (w.obj 2).gen ∧
    (w'.obj 2).eof = false :=
  ⟨by decide +kernel, by decide +kernel, by decide +kernel, by decide +kernel, by decide +kernel, by decide +kernel, by decide +kernel, by decide +kernel,
    by decide +kernel, by decide +kernel, by decide +kernel⟩

/-- C98, what fails. A user types 0xFF and then asks for a break: the peer decodes two bytes of data and no break. -/
theorem C98_break_as_data :
    ∃ w, Reachable Demo.env w ∧ (w.obj 2).kind = .telnet ∧ 2 ∈ (w.obj 10).readers ∧ (w.obj 10).gotEscape = false ∧
      (w.run Demo.env [.poll 10 true (some (.data (wireText [0xFF]))) none, .poll 10 true (some (.data [255, 0x42])) none]).map (fun v => (v.obj 2).pend) =
        some ((w.obj 2).pend ++ [0xFF, 0xFF, 0xF3]) ∧
      [0xFF, 0xFF, 0xF3] = [TelTok.data 0xFF, TelTok.data 0xF3].flatMap TelTok.enc :=
  ⟨Demo.after [.connUp 2, .check ⟨.connect, [2], false, false, false, false⟩, .grant 10 0], Demo.reach _ (by decide +kernel),
    by decide +kernel, by decide +kernel, by decide +kernel, by decide +kernel, by decide +kernel⟩

end Conman
