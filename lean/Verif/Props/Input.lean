import Verif.Lemma.WorldInputRun

/-
C91: what clients type on its way to a console.  The vocabulary is in `Spec/Input.lean`.
-/
namespace Conman
open Spec

/-- C91. Whatever happens, the bytes sent to a console and those that wait for it are taken, in order, from those that waited at
the start and what its clients (and, for a telnet console, the telnet protocol) have put in since: nothing is made up, doubled or
reordered. -/
theorem C91_nothing_invented {env : Env} {w w' : World} (h : Reachable env w) (k : Nat) (ss : List Step)
    (hr : w.run env ss = some w') (hl : k ∈ w.live) (hk : (w.obj k).kind.isConsole = true)
    (hlen : ∀ i up d wr, .poll i up (some (.data d)) wr ∈ ss → d.length ≤ 8191) :
    ∃ x, sentTo k w'.fx = sentTo k w.fx ++ x ∧ (x ++ (w'.obj k).pend).Sublist ((w.obj k).pend ++ typedAll env w k ss) :=
  input_sub k ss h.finv hr hl hk hlen

/-- C91 (partial). Nothing is lost either while the console is not closed or at its end of file and its buffer does not overflow.
Missing: see `C91_lost_when_closed`. -/
theorem C91_input_faithful_partial {env : Env} {w w' : World} (h : Reachable env w) (k : Nat) (ss : List Step)
    (hr : w.run env ss = some w') (hl : k ∈ w.live) (hk : (w.obj k).kind.isConsole = true)
    (hlen : ∀ i up d wr, .poll i up (some (.data d)) wr ∈ ss → d.length ≤ 8191)
    (hfit : typedFits env w k ss = true) (hg : (w'.obj k).gen = (w.obj k).gen) (he : (w'.obj k).eof = false) :
    sentTo k w'.fx ++ (w'.obj k).pend = sentTo k w.fx ++ (w.obj k).pend ++ typedAll env w k ss :=
  input_run k ss h.finv hr hl hk hlen hfit hg he

/-- C91 (partial). Any text `t`, with 0xFF doubled as the client program does, cut into reads in any way, from the only client that
types: it reaches its console unchanged and in order, as long as that is neither closed nor at its end of file, and its buffer does
not overflow.
Missing: telnet consoles (see `C91_telnet_command`). -/
theorem C91_text_arrives_partial {env : Env} {w w' : World} (h : Reachable env w) (c k : Nat) (ss : List Step) (t : List UInt8)
    (hr : w.run env ss = some w') (hl : c ∈ w.live) (hk : (w.obj c).kind = .client) (hrd : k ∈ (w.obj c).readers)
    (hesc : (w.obj c).gotEscape = false) (ht : ss.flatMap (readFrom c) = wireText t) (hng : ss.all (noGrant c) = true)
    (hlen : ∀ i up d wr, .poll i up (some (.data d)) wr ∈ ss → d.length ≤ 8191)
    (hl' : c ∈ w'.live) (he' : (w'.obj c).eof = false)
    (hsole : ∀ i up d wr, .poll i up (some (.data d)) wr ∈ ss → i = c ∨ i ∈ w.live ∧ (w.obj i).kind ≠ .client)
    (hkt : (w.obj k).kind ≠ .telnet)
    (hfit : typedFits env w k ss = true) (hg : (w'.obj k).gen = (w.obj k).gen) (he : (w'.obj k).eof = false) :
    sentTo k w'.fx ++ (w'.obj k).pend = sentTo k w.fx ++ (w.obj k).pend ++ t := by
  have hkc : (w.obj k).kind.isConsole = true := by
    rcases h.inv.inv.l.kinds c k hrd with z | z
    · exact z.2
    · have := z.1; rw [hk] at this; simp [OKind.isConsole] at this
  have hkl := (C63_links_live h c k hrd).2.1
  have hwt := wireText_plain t
  have tr := (text_run c k ss h.finv hr hl hk hrd hng hlen (by rw [hesc, ht, hwt.2]; rfl) hl' he').2 hkl hkt hsole
  rw [hesc, ht, hwt.1] at tr
  rw [input_run k ss h.finv hr hkl hkc hlen hfit hg he, tr]

/-- C91. With others typing too, and for every kind of console, the text of each client is, in order, among what is added. -/
theorem C91_each_in_order {env : Env} {w w' : World} (h : Reachable env w) (c k : Nat) (ss : List Step) (t : List UInt8)
    (hr : w.run env ss = some w') (hl : c ∈ w.live) (hk : (w.obj c).kind = .client) (hrd : k ∈ (w.obj c).readers)
    (hesc : (w.obj c).gotEscape = false) (ht : ss.flatMap (readFrom c) = wireText t) (hng : ss.all (noGrant c) = true)
    (hlen : ∀ i up d wr, .poll i up (some (.data d)) wr ∈ ss → d.length ≤ 8191)
    (hl' : c ∈ w'.live) (he' : (w'.obj c).eof = false)
    (hfit : typedFits env w k ss = true) (hg : (w'.obj k).gen = (w.obj k).gen) (he : (w'.obj k).eof = false) :
    ∃ u, sentTo k w'.fx ++ (w'.obj k).pend = sentTo k w.fx ++ (w.obj k).pend ++ u ∧ t.Sublist u := by
  have hkc : (w.obj k).kind.isConsole = true := by
    rcases h.inv.inv.l.kinds c k hrd with z | z
    · exact z.2
    · have := z.1; rw [hk] at this; simp [OKind.isConsole] at this
  have hkl := (C63_links_live h c k hrd).2.1
  have hwt := wireText_plain t
  have tr := (text_run c k ss h.finv hr hl hk hrd hng hlen (by rw [hesc, ht, hwt.2]; rfl) hl' he').1
  rw [hesc, ht, hwt.1] at tr
  exact ⟨_, input_run k ss h.finv hr hkl hkc hlen hfit hg he, tr⟩

/-- C91. Text for an open console makes the daemon poll it for writing. -/
theorem C91_wakes_console {env : Env} {w w' : World} (h : Reachable env w) (c k : Nat) (hl : c ∈ w.live)
    (hk : (w.obj c).kind = .client) (hec : (w.obj c).eof = false) (hrd : k ∈ (w.obj c).readers) (hf : (w.obj k).fd = true)
    (he : (w.obj k).eof = false) (up : Bool) (d : List UInt8) (hd : d.length ≤ 8191)
    (hc : wireCommands (w.obj c).gotEscape d = []) (hne : wireData (w.obj c).gotEscape d ≠ [])
    (hs : w.step env (.poll c up (some (.data d)) none) = some w') :
    (w'.obj k).pout = true ∧ (w'.obj k).pend = lastN queueCap ((w.obj k).pend ++ wireData (w.obj c).gotEscape d) := by
  have hw := h.inv.inv
  have ci := h.finv.e.cl c hl hk
  have hkc : (w.obj k).kind.isConsole = true := by
    rcases h.inv.inv.l.kinds c k hrd with z | z
    · exact z.2
    · have := z.1; rw [hk] at this; simp [OKind.isConsole] at this
  have hki : k ≠ c := by rintro rfl; exact not_client_of_console hkc hk
  rw [poll_is_read env c up _ hl (ci.pin hec)] at hs
  unfold World.read at hs
  rw [if_neg (by simp [ci.fd]), if_neg (by simp [hk]), if_neg (by rw [hk]; simp)] at hs
  simp only [hk, Option.map_eq_some_iff] at hs
  rw [List.take_of_length_le (by rw [readBufSize_eq]; exact hd)] at hs
  obtain ⟨w1, h1, rfl⟩ := hs
  obtain ⟨u1, u2, u3⟩ := unesc_data (w.obj c).gotEscape d
  rw [u2, hc] at h1
  simp only [World.acts, Option.some.injEq] at h1
  subst h1
  have sl : SL w (w.mod c (fun o => { o with gotEscape := (processClientEscapes (w.obj c).gotEscape d).gotEscape })) := by
    refine ⟨fun j => ?_, rfl⟩
    rw [World.mod_obj]; split <;> exact ⟨rfl, rfl, rfl⟩
  have hlen : (wireData (w.obj c).gotEscape d).length ≤ queueCap := by
    have := unesc_data (w.obj c).gotEscape d
    have q : ∀ (l : List UInt8) (e : Bool), (wireData e l).length ≤ l.length := by
      intro l
      induction l with
      | nil => intro e; simp [wireData]
      | cons b l ih =>
        intro e
        unfold wireData
        split
        · have := ih false; split <;> simp <;> omega
        · have := ih (decide (b = 0xFF)); split <;> simp <;> omega
    have := q d (w.obj c).gotEscape
    unfold queueCap; omega
  rw [u1, (deliver_exact (hw.l.same sl) env c _ hne).1, World.mod_self, World.mod_ne _ _ hki]
  dsimp only
  rw [if_pos hrd, if_neg (by intro g; rw [g] at hkc; simp [OKind.isConsole] at hkc)]
  refine ⟨?_, ?_⟩
  · unfold Obj.write
    rw [if_neg hne, if_neg (by rw [he]; simp), if_neg (by simp)]
    simp [hf, not_client_of_console hkc]
  · rw [(InFed.write _ _ (hw.oi k).cap hlen).pend, he, if_neg Bool.false_ne_true]

/-- C91. A console that is polled for writing and takes `n` bytes gets the first `n` waiting ones. -/
theorem C91_sent_in_order {env : Env} {w w' : World} (h : Reachable env w) (k : Nat) (hl : k ∈ w.live)
    (hk : (w.obj k).kind.isConsole = true) (he : (w.obj k).eof = false) (hp : (w.obj k).pout = true)
    (hc : (w.obj k).conn ≠ .pending) (up : Bool) (n : Nat) (hs : w.step env (.poll k up none (some (.accept n))) = some w') :
    sentTo k w'.fx = sentTo k w.fx ++ (w.obj k).pend.take n ∧ (w'.obj k).pend = (w.obj k).pend.drop n := by
  simp only [World.step] at hs
  rw [if_neg (by simp [hl, hp])] at hs
  simp only [Option.map_some, Option.some.injEq] at hs
  rw [if_neg (by simp [hl]), if_pos hp] at hs
  subst hs
  have hf : (w.obj k).fd = true := by
    cases hf : (w.obj k).fd with
    | true => rfl
    | false => have := ((h.inv.inv.oi k).closed hf).2; rw [hp] at this; simp at this
  obtain ⟨m, f1, f2, f3, f4⟩ := flush_self h.inv.inv env up k (.accept n) hf hc
  have hm := f3 n rfl
  have t : (w.obj k).pend.take m = (w.obj k).pend.take n ∧ (w.obj k).pend.drop m = (w.obj k).pend.drop n := by
    rcases Nat.le_total n (w.obj k).pend.length with g | g
    · rw [Nat.min_eq_left g] at hm; rw [hm]; exact ⟨rfl, rfl⟩
    · rw [Nat.min_eq_right g] at hm
      subst hm
      rw [List.take_length, List.drop_length, List.take_of_length_le g, List.drop_of_length_le g]; exact ⟨rfl, rfl⟩
  rw [t.1] at f2
  refine ⟨f2, ?_⟩
  rcases f4 with ⟨_, g2, _, _, _⟩ | ⟨g1, g2, _⟩
  · rw [g2, t.2]
  · rcases g2 with g | g
    · simp at g
    · rw [he] at g; simp at g

/-- Client 10 types "a", 0xFF, "b" in two reads that cut the escaped 0xFF; the serial console takes one byte in between, prints, and
client 12, which only watches, is sent it. -/
def Demo.typing : List Step := [.poll 10 true (some (.data [0x61, 0xFF])) none, .poll 0 true (some (.data [0x68])) (some (.accept 1)),
  .poll 10 true (some (.data [0xFF, 0x62])) none, .poll 12 true none (some (.accept 9))]

example : let w := Demo.after Demo.three
    let w' := Demo.after (Demo.three ++ Demo.typing)
    Reachable Demo.env w ∧ (w.run Demo.env Demo.typing).isSome = true ∧ 10 ∈ w.live ∧ 0 ∈ w.live ∧ (w.obj 10).kind = .client ∧
    (w.obj 0).kind = .serial ∧ 0 ∈ (w.obj 10).readers ∧ (w.obj 10).gotEscape = false ∧
    Demo.typing.flatMap (readFrom 10) = wireText [0x61, 0xFF, 0x62] ∧ Demo.typing.all (noGrant 10) = true ∧
    10 ∈ w'.live ∧ (w'.obj 10).eof = false ∧ typedFits Demo.env w 0 Demo.typing = true ∧
    (w'.obj 0).gen = (w.obj 0).gen ∧ (w'.obj 0).eof = false ∧
    typedAll Demo.env w 0 Demo.typing = [0x61, 0xFF, 0x62] ∧ sentTo 0 w.fx = [] ∧ sentTo 0 w'.fx = [0x61] ∧ (w'.obj 0).pend = [0xFF, 0x62] :=
  ⟨Demo.reach _ (by decide +kernel), by decide +kernel, by decide +kernel, by decide +kernel, by decide +kernel, by decide +kernel,
    by decide +kernel, by decide +kernel, by decide +kernel, by decide +kernel, by decide +kernel, by decide +kernel, by decide +kernel,
    by decide +kernel, by decide +kernel, by decide +kernel, by decide +kernel, by decide +kernel, by decide +kernel⟩

/-- The reads of that history are short and come from client 10 or a console. -/
example : let w := Demo.after Demo.three
    ∀ i up d wr, .poll i up (some (.data d)) wr ∈ Demo.typing → d.length ≤ 8191 ∧ (i = 10 ∨ i ∈ w.live ∧ (w.obj i).kind ≠ .client) := by
  intro w i up d wr hm
  simp only [Demo.typing, List.mem_cons, Step.poll.injEq, Option.some.injEq, ReadRes.data.injEq, List.not_mem_nil, or_false] at hm
  rcases hm with ⟨rfl, _, rfl, _⟩ | ⟨rfl, _, rfl, _⟩ | ⟨rfl, _, rfl, _⟩ | ⟨_, _, h, _⟩
  · exact ⟨by decide, Or.inl rfl⟩
  · refine ⟨by decide, Or.inr ⟨?_, ?_⟩⟩
    · show 0 ∈ (Demo.after Demo.three).live; decide +kernel
    · show ((Demo.after Demo.three).obj 0).kind ≠ .client; decide +kernel
  · exact ⟨by decide, Or.inl rfl⟩
  · simp at h

/-- Two clients type at once: each finds its text in order; `&B` to the telnet console is IAC BREAK. -/
example : let w := Demo.after Demo.three
    let ss : List Step := [.poll 10 true (some (.data [0x61])) none, .poll 11 true (some (.data [0x78])) none, .poll 10 true (some (.data [0x62])) none]
    let w' := Demo.after (Demo.three ++ ss)
    ss.flatMap (readFrom 10) = wireText [0x61, 0x62] ∧ ss.flatMap (readFrom 11) = wireText [0x78] ∧ (w'.obj 0).pend = [0x61, 0x78, 0x62] ∧
    typedAll Demo.env w 0 ss = [0x61, 0x78, 0x62] :=
  ⟨by decide +kernel, by decide +kernel, by decide +kernel, by decide +kernel⟩

/-- "a" wakes console 0, which then takes it. -/
example : let w := Demo.after Demo.three
    let w1 := Demo.after (Demo.three ++ [.poll 10 true (some (.data [0x61])) none])
    0 ∈ (w.obj 10).readers ∧ (w.obj 10).eof = false ∧ (w.obj 0).fd = true ∧ (w.obj 0).eof = false ∧ (w.obj 0).pout = false ∧
    wireCommands (w.obj 10).gotEscape [0x61] = [] ∧ wireData (w.obj 10).gotEscape [0x61] = [0x61] ∧ (w1.obj 0).pout = true ∧
    (w1.obj 0).conn ≠ .pending ∧ (w1.step Demo.env (.poll 0 true none (some (.accept 5)))).map (fun v => sentTo 0 v.fx) = some [0x61] :=
  ⟨by decide +kernel, by decide +kernel, by decide +kernel, by decide +kernel, by decide +kernel, by decide +kernel, by decide +kernel,
    by decide +kernel, by decide +kernel, by decide +kernel⟩

/-! ### What does not hold -/

/-- A process console (object 0) whose program ended, with client 10 that can write to it; it types "ls". -/
def Demo.stale : World := ((World.boot [⟨.process, false, none⟩]).run Demo.env [.connUp 0, .check Demo.con, .grant 10 0,
  .poll 0 false (some .err) none, .poll 10 true (some (.data [0x6C, 0x73])) none]).getD (World.boot [])

/-- C91, what fails. Typed text for a console that is down is kept, but the new connection is not polled for writing: when the console
is back it is not sent (whatever the next step is), but waits until something else is typed. -/
theorem C91_not_sent_after_reconnect {env : Env} {w w' : World} (h : Reachable env w) (k : Nat) (hl : k ∈ w.live)
    (hk : (w.obj k).kind.isConsole = true) (hkt : (w.obj k).kind ≠ .telnet) (hf : (w.obj k).fd = false)
    (hs : w.step env (.connUp k) = some w') :
    (w'.obj k).fd = true ∧ (w'.obj k).pend = (w.obj k).pend ∧ (w'.obj k).pout = false ∧
    ∀ s w'', w'.step env s = some w'' → sentTo k w''.fx = sentTo k w'.fx := by
  have hp : (w.obj k).pout = false := ((h.inv.inv.oi k).closed hf).2
  have key : (w'.obj k).fd = true ∧ (w'.obj k).pend = (w.obj k).pend ∧ (w'.obj k).pout = false := by
    simp only [World.step, Option.some.injEq, if_pos hl] at hs
    subst hs
    unfold World.connUp
    dsimp only
    rw [if_neg (by simp [hk]), if_neg (by simp [hf]), if_neg hkt]
    have hsl : SL w (w.mod k (fun o => { o with fd := true, pin := true, conn := .up, eof := false })) := by
      refine ⟨fun j => ?_, rfl⟩
      rw [World.mod_obj]; split <;> exact ⟨rfl, rfl, rfl⟩
    have hv : ((w.mod k (fun o => { o with fd := true, pin := true, conn := .up, eof := false })).obj k) =
        { w.obj k with fd := true, pin := true, conn := .up, eof := false } := World.mod_self _ _ _
    generalize (w.mod k (fun o => { o with fd := true, pin := true, conn := .up, eof := false })) = v at hsl hv ⊢
    split
    · rw [hv]; exact ⟨rfl, rfl, hp⟩
    · have hl1 := h.inv.inv.l.same hsl
      rw [(notify_exact hl1 env k _).1 k, if_neg, hv]
      · exact ⟨rfl, rfl, hp⟩
      · rintro (g | g)
        · exact hl1.not_self k g
        · exact hl1.not_self k ((hl1.sym k k).2 g)
  refine ⟨key.1, key.2.1, key.2.2, fun s w'' hs' => ?_⟩
  obtain ⟨l, e1, e2⟩ := step_sent env s hs'
  rw [e1, sentTo_append, sentTo_none k l, List.append_nil]
  intro d hd
  rw [(e2 k d hd).1] at key
  simp at key

/-- The hypotheses hold for a process console; "ls" still waits after the reconnection, and is sent together with the next key. -/
example : Reachable Demo.env Demo.stale ∧ 0 ∈ Demo.stale.live ∧ (Demo.stale.obj 0).kind = .process ∧ (Demo.stale.obj 0).fd = false ∧
    (Demo.stale.obj 0).pend = [0x6C, 0x73] ∧
    (Demo.stale.run Demo.env [.connUp 0, .poll 0 true (some (.data [0x24])) (some (.accept 9)), .poll 0 true none (some (.accept 9))]).map
      (fun v => (sentTo 0 v.fx, (v.obj 0).pend)) = some ([], [0x6C, 0x73]) ∧
    (Demo.stale.run Demo.env [.connUp 0, .poll 0 true (some (.data [0x24])) (some (.accept 9)), .poll 0 true none (some (.accept 9)),
      .poll 10 true (some (.data [0x0D])) none, .poll 0 true none (some (.accept 9))]).map
      (fun v => (sentTo 0 v.fx, (v.obj 0).pend)) = some ([0x6C, 0x73, 0x0D], []) := by
  refine ⟨⟨[⟨.process, false, none⟩], [.connUp 0, .check Demo.con, .grant 10 0,
    .poll 0 false (some .err) none, .poll 10 true (some (.data [0x6C, 0x73])) none], by decide, ?_⟩, by decide +kernel, by decide +kernel,
    by decide +kernel, by decide +kernel, by decide +kernel, by decide +kernel⟩
  unfold Demo.stale
  have hs : ((World.boot [⟨.process, false, none⟩]).run Demo.env [.connUp 0, .check Demo.con, .grant 10 0,
    .poll 0 false (some .err) none, .poll 10 true (some (.data [0x6C, 0x73])) none]).isSome = true := by decide +kernel
  cases hr : (World.boot [⟨.process, false, none⟩]).run Demo.env [.connUp 0, .check Demo.con, .grant 10 0,
    .poll 0 false (some .err) none, .poll 10 true (some (.data [0x6C, 0x73])) none] with
  | none => rw [hr] at hs; simp at hs
  | some w => rfl

/-- C91, what fails. Text typed while a console is at its end of file is dropped, and what waits is lost when the console is
closed: in both cases the console is open again in the end, and client 10 has been connected to it all the time. -/
theorem C91_lost_when_closed :
    ∃ w, Reachable Demo.env w ∧ (w.obj 0).kind = .serial ∧ 0 ∈ (w.obj 10).readers ∧ (w.obj 0).pend = [0x61] ∧
      (w.run Demo.env [.poll 0 true (some .eof) none, .poll 10 true (some (.data [0x62])) none, .poll 0 true none (some (.accept 9))]).map
        (fun v => (sentTo 0 v.fx, (v.obj 0).fd, (v.obj 0).pend, (v.obj 10).readers)) = some ([0x61], true, [], [0]) ∧
      (w.run Demo.env [.poll 0 true (some .err) none, .poll 0 true none (some (.accept 9))]).map
        (fun v => (sentTo 0 v.fx, (v.obj 0).fd, (v.obj 0).pend, (v.obj 10).readers)) = some ([], true, [], [0]) :=
  ⟨Demo.after (Demo.one ++ [.poll 10 true (some (.data [0x61])) none]), Demo.reach _ (by decide +kernel), by decide +kernel,
    by decide +kernel, by decide +kernel, by decide +kernel, by decide +kernel⟩

/-- C91, what fails. The daemon does not double 0xFF for a telnet console: the text 0xFF 0xF4 (sent doubled by the client program, as
any text) leaves as the telnet command "interrupt process", not as two data bytes. -/
theorem C91_telnet_command :
    ∃ w, Reachable Demo.env w ∧ (w.obj 2).kind = .telnet ∧ 2 ∈ (w.obj 10).readers ∧ (w.obj 10).gotEscape = false ∧
      (w.step Demo.env (.poll 10 true (some (.data (wireText [0xFF, 0xF4]))) none)).map (fun v => (v.obj 2).pend) =
        some ((w.obj 2).pend ++ (TelTok.cmd 0xF4).enc) ∧
      (TelTok.cmd 0xF4).enc ≠ [TelTok.data 0xFF, TelTok.data 0xF4].flatMap TelTok.enc :=
  ⟨Demo.after [.connUp 2, .check ⟨.connect, [2], false, false, false, false⟩, .grant 10 0], Demo.reach _ (by decide +kernel),
    by decide +kernel, by decide +kernel, by decide +kernel, by decide +kernel, by decide +kernel⟩

/-- C91. Text without 0xFF is what its bytes look like to a telnet peer. -/
theorem C91_telnet_plain (t : List UInt8) (h : 255 ∉ t) : t = (t.map TelTok.data).flatMap TelTok.enc := by
  induction t with
  | nil => rfl
  | cons b t ih =>
    rw [List.map_cons, List.flatMap_cons, ← ih (fun g => h (List.mem_cons_of_mem _ g))]
    show b :: t = iacDouble b ++ t
    rw [iacDouble, if_neg (by rintro rfl; exact h List.mem_cons_self)]
    rfl

end Conman
