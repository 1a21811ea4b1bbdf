import Verif.Lemma.EndToEnd
import Verif.Props.Quiet
import Verif.Props.Screen
import Verif.Props.Input

/-
C94: from the terminal of a client to the console, and back.  The vocabulary is in `Spec/EndToEnd.lean`, `Spec/Screen.lean` and
`Spec/Flow.lean`.

Client program and daemon are put together by two assumptions about the connection between them: what one side has read is a
prefix of what the other has sent.
-/
namespace Conman
open Spec

/-- C94 (partial). A session of the client program (from `s` to `s'`, events `es`) with the daemon's client object `c`: the daemon
goes through any history `ss`, in which it reads from `c` some of the bytes the client program sent, cut in any way.  The keys typed
are text and commands E ? I L Q R Z.  Then console `k`, one of those `c` writes to, gets a prefix of the text typed, in order and
unchanged, and all of it if the daemon has read all.
Missing: commands that write to the console or change the mode (see `C60_command_overtakes_text`, C13), telnet consoles and several writers
(see `C94_among_others`), a console that is closed or full meanwhile (see `C91_lost_when_closed`). -/
theorem C94_keys_reach_console_partial {env : Env} {w w' : World} (h : Reachable env w) (c k : Nat) (ss : List Step)
    {stk : List UInt8} {es : List CEvent} {s s' : CSess} (hp : s.phase = .running) (hd : s.cs.done = false)
    (hesc : s.cs.esc < 0x80) (hin : s.cs.inEsc = false) (hopen : s.cs.wrClosed = false) (hcon : s.cs.cmd = .connect)
    (hrun : s.run stk es = some s') (hkeys : (parseKeys s.cs.esc (keysTyped es)).all keepsOn = true)
    {y : List UInt8} (hy : s'.sent = s.sent ++ y) (hnet : ss.flatMap (readFrom c) <+: y)
    (hr : w.run env ss = some w') (hl : c ∈ w.live) (hk : (w.obj c).kind = .client) (hge : (w.obj c).gotEscape = false)
    (hrd : k ∈ (w.obj c).readers) (hng : ss.all (noGrant c) = true)
    (hlen : ∀ i up d wr, .poll i up (some (.data d)) wr ∈ ss → d.length ≤ 8191) (hl' : c ∈ w'.live) (he' : (w'.obj c).eof = false)
    (hsole : ∀ i up d wr, .poll i up (some (.data d)) wr ∈ ss → i = c ∨ i ∈ w.live ∧ (w.obj i).kind ≠ .client)
    (hkt : (w.obj k).kind ≠ .telnet)
    (hfit : typedFits env w k ss = true) (hg : (w'.obj k).gen = (w.obj k).gen) (he : (w'.obj k).eof = false) :
    ∃ t, t <+: typedText (parseKeys s.cs.esc (keysTyped es)) ∧
      sentTo k w'.fx ++ (w'.obj k).pend = sentTo k w.fx ++ (w.obj k).pend ++ t ∧
      (ss.flatMap (readFrom c) = y → t = typedText (parseKeys s.cs.esc (keysTyped es))) := by
  have hkc : (w.obj k).kind.isConsole = true := by
    rcases h.inv.inv.l.kinds c k hrd with z | z
    · exact z.2
    · have := z.1; rw [hk] at this; simp [OKind.isConsole] at this
  have hkl := (C63_links_live h c k hrd).2.1
  obtain ⟨q1, q2, q3⟩ := session_wire hp hd hesc hin hopen hcon hrun hkeys hy hnet
  have tr := (text_run c k ss h.finv hr hl hk hrd hng hlen (by rw [hge]; exact q2) hl' he').2 hkl hkt hsole
  rw [hge] at tr
  exact ⟨_, q1, by rw [input_run k ss h.finv hr hkl hkc hlen hfit hg he, tr], q3⟩

/-- C94. The same with other clients that type too, and for all kinds of consoles: the text is, in order, among what the console
gets. -/
theorem C94_among_others {env : Env} {w w' : World} (h : Reachable env w) (c k : Nat) (ss : List Step)
    {stk : List UInt8} {es : List CEvent} {s s' : CSess} (hp : s.phase = .running) (hd : s.cs.done = false)
    (hesc : s.cs.esc < 0x80) (hin : s.cs.inEsc = false) (hopen : s.cs.wrClosed = false) (hcon : s.cs.cmd = .connect)
    (hrun : s.run stk es = some s') (hkeys : (parseKeys s.cs.esc (keysTyped es)).all keepsOn = true)
    (hnet : s'.sent = s.sent ++ ss.flatMap (readFrom c))
    (hr : w.run env ss = some w') (hl : c ∈ w.live) (hk : (w.obj c).kind = .client) (hge : (w.obj c).gotEscape = false)
    (hrd : k ∈ (w.obj c).readers) (hng : ss.all (noGrant c) = true)
    (hlen : ∀ i up d wr, .poll i up (some (.data d)) wr ∈ ss → d.length ≤ 8191) (hl' : c ∈ w'.live) (he' : (w'.obj c).eof = false)
    (hfit : typedFits env w k ss = true) (hg : (w'.obj k).gen = (w.obj k).gen) (he : (w'.obj k).eof = false) :
    ∃ u, sentTo k w'.fx ++ (w'.obj k).pend = sentTo k w.fx ++ (w.obj k).pend ++ u ∧
      (typedText (parseKeys s.cs.esc (keysTyped es))).Sublist u := by
  have hkc : (w.obj k).kind.isConsole = true := by
    rcases h.inv.inv.l.kinds c k hrd with z | z
    · exact z.2
    · have := z.1; rw [hk] at this; simp [OKind.isConsole] at this
  have hkl := (C63_links_live h c k hrd).2.1
  obtain ⟨_, q2, q3⟩ := session_wire hp hd hesc hin hopen hcon hrun hkeys hnet List.prefix_rfl
  have tr := (text_run c k ss h.finv hr hl hk hrd hng hlen (by rw [hge]; exact q2) hl' he').1
  rw [hge, q3 rfl] at tr
  exact ⟨_, input_run k ss h.finv hr hkl hkc hlen hfit hg he, tr⟩

/-- C94. And back: whatever the session's events are, what comes from the daemon on the terminal, and what is added to the log, is a
prefix of what waited for `c` and entries that hold all output of its consoles, in order, messages of the daemon and replays; if the
session goes on and all has arrived, terminal and what waits are together all of these.  For a client that keeps up. -/
theorem C94_output_reaches_terminal {env : Env} (hv : ShowEnv env) {w w' : World} (h : Reachable env w) (c : Nat) (ss : List Step)
    {stk : List UInt8} (hstk : 1024 ≤ stk.length) {es : List CEvent} {s s' : CSess} (hp : s.phase = .running) (hd : s.cs.done = false)
    (hc : s.closed = s.cs.wrClosed) (hrun : s.run stk es = some s')
    {x : List UInt8} (hx : sentTo c w'.fx = sentTo c w.fx ++ x) (hnet : received es <+: x)
    (hr : w.run env ss = some w') (hl : c ∈ w.live) (hk : (w.obj c).kind = .client) (hng : ss.all (noGrant c) = true)
    (hlen : ∀ i up d wr, .poll i up (some (.data d)) wr ∈ ss → d.length ≤ 8191) (hl' : c ∈ w'.live) (he' : (w'.obj c).eof = false)
    (hup : keepsUp env w c ss = true) :
    ∃ (evs : List ShowEv) (r : List UInt8), (∀ e ∈ evs, e.Ok env) ∧ evs.flatMap ShowEv.outs = heardAll env w c ss ∧
      dataOf s'.out = dataOf s.out ++ r ∧ s'.log = s.log.map (· ++ r) ∧ r <+: (w.obj c).pend ++ evs.flatMap ShowEv.bytes ∧
      (s'.phase = .running → received es = x → r ++ (w'.obj c).pend = (w.obj c).pend ++ evs.flatMap ShowEv.bytes) := by
  obtain ⟨evs, a1, _, a3, a4⟩ := C93_all_of_it_partial hv h c ss hr hl hk hng hlen hl' he' hup
  obtain ⟨s2, n, b1, b2, b3, b4, _, b6⟩ := C83_session hstk s hp hd hc es
  rw [hrun, Option.some.injEq] at b1
  subst b1
  rw [hx, List.append_assoc, List.append_assoc, List.append_cancel_left_eq] at a4
  refine ⟨evs, received (es.take n), a1, a3, b3, b4, ?_, fun hph hall => ?_⟩
  · have e1 : received (es.take n) <+: received es := by
      rw [← List.take_append_drop n es, received_append, List.take_append_drop]
      exact List.prefix_append _ _
    rw [← a4]
    exact (e1.trans hnet).trans (List.prefix_append _ _)
  · rcases b6 with ⟨_, g⟩ | ⟨g, _⟩ | ⟨g, _⟩
    · rw [g, List.take_length, hall]; exact a4
    · rw [hph] at g; simp at g
    · rw [hph] at g; simp at g

/-- C94. A client in quiet mode that sends no command for a replay or for leaving quiet mode sees the output of its consoles and
nothing else. -/
theorem C94_quiet_terminal {env : Env} {w w' : World} (h : Reachable env w) (c : Nat) (ss : List Step)
    {stk : List UInt8} (hstk : 1024 ≤ stk.length) {es : List CEvent} {s s' : CSess} (hp : s.phase = .running) (hd : s.cs.done = false)
    (hc : s.closed = s.cs.wrClosed) (hrun : s.run stk es = some s')
    {x : List UInt8} (hx : sentTo c w'.fx = sentTo c w.fx ++ x) (hnet : received es <+: x)
    (hr : w.run env ss = some w') (hl : c ∈ w.live) (hk : (w.obj c).kind = .client) (hq : (w.obj c).quiet = true)
    (hng : ss.all (noGrant c) = true)
    (hlen : ∀ i up d wr, .poll i up (some (.data d)) wr ∈ ss → d.length ≤ 8191)
    (hself : (wireCommands (w.obj c).gotEscape (ss.flatMap (readFrom c))).any isSelf = false)
    (hno : noOverflow env w c ss = true) (hl' : c ∈ w'.live) (he' : (w'.obj c).eof = false) :
    ∃ r, dataOf s'.out = dataOf s.out ++ r ∧ s'.log = s.log.map (· ++ r) ∧ r <+: (w.obj c).pend ++ heardAll env w c ss ∧
      (s'.phase = .running → received es = x → r ++ (w'.obj c).pend = (w.obj c).pend ++ heardAll env w c ss) := by
  have a4 := C65_output_faithful h c ss hr hl hk hq hng hlen hself hno hl' he'
  obtain ⟨s2, n, b1, b2, b3, b4, _, b6⟩ := C83_session hstk s hp hd hc es
  rw [hrun, Option.some.injEq] at b1
  subst b1
  rw [hx, List.append_assoc, List.append_assoc, List.append_cancel_left_eq] at a4
  refine ⟨received (es.take n), b3, b4, ?_, fun hph hall => ?_⟩
  · have e1 : received (es.take n) <+: received es := by
      rw [← List.take_append_drop n es, received_append, List.take_append_drop]
      exact List.prefix_append _ _
    rw [← a4]
    exact (e1.trans hnet).trans (List.prefix_append _ _)
  · rcases b6 with ⟨_, g⟩ | ⟨g, _⟩ | ⟨g, _⟩
    · rw [g, List.take_length, hall]; exact a4
    · rw [hph] at g; simp at g
    · rw [hph] at g; simp at g

/-! ### A session -/

/-- The user types "a", 0xFF, "&L", "b", "&"; the terminal shows "h" and the replay meanwhile. -/
def Demo.user : List CEvent := [.round (some (some 0x61)) none, .round (some (some 0xFF)) (some [0x68]), .round (some (some 0x26)) none,
  .round (some (some 0x4C)) none, .round none (some [0x4C]), .round (some (some 0x62)) none, .round (some (some 0x26)) none]

def Demo.term : CSess := { cs := { esc := 0x26 }, consoles := [bs "n"], log := some [] }

/-- The daemon at the same time: console 0 says "h"; what was typed comes in three reads. -/
def Demo.wire : List Step := [.poll 10 true (some (.data [0x61, 0xFF])) none, .poll 0 true (some (.data [0x68])) (some (.accept 1)),
  .poll 10 true none (some (.accept 1)), .poll 10 true (some (.data [0xFF, 0xFF])) none, .poll 10 true (some (.data [0x4C, 0x62])) none,
  .poll 10 true none (some (.accept 1))]

example : (Demo.term.run (List.replicate 1024 0) Demo.user).map (fun s => (s.sent, dataOf s.out, s.log, s.phase)) =
      some ([0x61, 0xFF, 0xFF, 0xFF, 0x4C, 0x62], [0x68, 0x4C], some [0x68, 0x4C], .running) ∧
    keysTyped Demo.user = [0x61, 0xFF, 0x26, 0x4C, 0x62, 0x26] ∧
    (parseKeys 0x26 (keysTyped Demo.user)).all keepsOn = true ∧ typedText (parseKeys 0x26 (keysTyped Demo.user)) = [0x61, 0xFF, 0x62] ∧
    Demo.term.phase = .running ∧ Demo.term.cs.done = false ∧ Demo.term.cs.wrClosed = false ∧ Demo.term.cs.inEsc = false ∧
    Demo.term.cs.cmd = .connect ∧ Demo.term.closed = false :=
  ⟨by decide +kernel, by decide, by decide, by decide, rfl, rfl, rfl, rfl, rfl, rfl⟩

example : let w := Demo.after Demo.one
    let w' := Demo.after (Demo.one ++ Demo.wire)
    Reachable Demo.env w ∧ (w.run Demo.env Demo.wire).isSome = true ∧ 10 ∈ w.live ∧ (w.obj 10).kind = .client ∧
    (w.obj 10).gotEscape = false ∧ 0 ∈ (w.obj 10).readers ∧ (w.obj 0).kind = .serial ∧
    Demo.wire.flatMap (readFrom 10) = [0x61, 0xFF, 0xFF, 0xFF, 0x4C, 0x62] ∧ Demo.wire.all (noGrant 10) = true ∧ 10 ∈ w'.live ∧
    (w'.obj 10).eof = false ∧ typedFits Demo.env w 0 Demo.wire = true ∧ (w'.obj 0).gen = (w.obj 0).gen ∧ (w'.obj 0).eof = false ∧
    keepsUp Demo.env w 10 Demo.wire = true ∧ heardAll Demo.env w 10 Demo.wire = [0x68] ∧
    sentTo 0 w'.fx ++ (w'.obj 0).pend = [0x61, 0xFF, 0x62] ∧ sentTo 10 w'.fx = received Demo.user ∧ (w'.obj 10).pend = [] :=
  ⟨Demo.reach _ (by decide +kernel), by decide +kernel, by decide +kernel, by decide +kernel, by decide +kernel, by decide +kernel,
    by decide +kernel, by decide +kernel, by decide +kernel, by decide +kernel, by decide +kernel, by decide +kernel, by decide +kernel,
    by decide +kernel, by decide +kernel, by decide +kernel, by decide +kernel, by decide +kernel, by decide +kernel⟩

/-- The reads of that history are short, and come from client 10 or a console. -/
example : let w := Demo.after Demo.one
    ∀ i up d wr, .poll i up (some (.data d)) wr ∈ Demo.wire → d.length ≤ 8191 ∧ (i = 10 ∨ i ∈ w.live ∧ (w.obj i).kind ≠ .client) := by
  intro w i up d wr hm
  simp only [Demo.wire, List.mem_cons, Step.poll.injEq, Option.some.injEq, ReadRes.data.injEq, List.not_mem_nil, or_false] at hm
  rcases hm with ⟨rfl, _, rfl, _⟩ | ⟨rfl, _, rfl, _⟩ | ⟨_, _, h, _⟩ | ⟨rfl, _, rfl, _⟩ | ⟨rfl, _, rfl, _⟩ | ⟨_, _, h, _⟩
  · exact ⟨by decide, Or.inl rfl⟩
  · refine ⟨by decide, Or.inr ⟨?_, ?_⟩⟩
    · show 0 ∈ (Demo.after Demo.one).live; decide +kernel
    · show ((Demo.after Demo.one).obj 0).kind ≠ .client; decide +kernel
  · simp at h
  · exact ⟨by decide, Or.inl rfl⟩
  · exact ⟨by decide, Or.inl rfl⟩
  · simp at h

end Conman
