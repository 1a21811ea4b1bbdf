import Verif.Lemma.TalkRun

/-
C86: a request from the command line of the client to the consoles of the server and back.
-/
namespace Conman
open Spec

/-- What is told about a client that is in the way, as it is sent. -/
def Spec.inUseLine (con : SrvCon) (w : SrvWriter) : List UInt8 :=
  if (inUse con w).length < 1022 then inUse con w else (inUse con w).take 1022 ++ bs "\n"

/-- C86. Every request that can be sent gets to its end: whatever the server is configured for and the user asks, there is a run of the two programs, and it
reaches no undefined behaviour.  (What every run does is said by the other theorems.) -/
theorem C86_runs (sw : SrvWorld) (c : ClientConf) (w : CWorld) (hs : Sendable sw c w) (ha : sw.allowed = true)
    (hf : w.resolved = true ∧ w.connErr = none ∧ w.send1 = none ∧ w.send2 = none ∧ w.shutErr = none ∧ w.tailErr = false ∧ (c.log ≠ none → w.logFile ≠ none) ∧ 1024 ≤ w.stk.length)
    (hc : sw.cons.length < 2147483648) (hz : ∀ x ∈ sw.cons, ∀ y ∈ x.writers, (0 : UInt8) ∉ inUse x y)
    (hr : ∀ p, sw.rex p = none → Plain (sw.rexErr p) ∧ sw.rexErr p ≠ []) :
    ∃ rsp1 rsp2 tail o s, Talk sw c { w with rsp1 := rsp1, rsp2 := rsp2, tail := tail } o s := by
  obtain ⟨f1, f2, f3, f4, f5, f6, f7, f8⟩ := hf
  have hlen : maxSockLine ≤ (List.replicate maxSockLine (0 : UInt8)).length := by rw [List.length_replicate]; exact Nat.le_refl _
  obtain ⟨a, a1, a2, a3⟩ := answer_exists hs hlen hc hz hr
  have key : ∀ rsp2 tail, (∀ t, rsp2 ≠ .err t) → (∃ r, clientRsp (clientHost c w) c.port rsp2 = some r) →
      (∃ rest2, Reads a.closed a.out rsp2 rest2 ∧ ((¬ ∃ q, AnswersOk rsp2 q) → List.flatten tail = rest2)) →
      ∃ o s, Talk sw c { w with rsp1 := .line (bs "OK\n"), rsp2 := rsp2, tail := tail } o s := by
    intro rsp2 tail hne htot hreads
    let w' : CWorld := { w with rsp1 := .line (bs "OK\n"), rsp2 := rsp2, tail := tail }
    have hs' : Sendable sw c w' := ⟨hs.user, hs.tty, hs.pats, hs.any, hs.fits, hs.cons⟩
    obtain ⟨log, q, hq, hmain⟩ := client_reduce hs' f1 f2 f3 f4 f5 f7 rfl
    obtain ⟨o, ho⟩ : ∃ o, clientLast c w' log (helloLine w.user w.tty ++ bs "\n" ++ q) = some o := by
      obtain ⟨r, hr⟩ := htot
      unfold clientLast
      rw [show clientRsp (clientHost c w') c.port w'.rsp2 = some r from hr, Option.bind_some]
      split
      · exact ⟨_, rfl⟩
      · exact clientEnd_total c w' f8 ..
    obtain ⟨more, hmore⟩ := last_sent ho
    obtain ⟨i, i1, i2⟩ := serve_runs (more := more) hs ha hq hlen a1
    refine ⟨o, { a with out := bs "OK\n" ++ a.out }, hmain.trans ho, ⟨i, ?_, i2⟩, ⟨a.out, ?_, fun h => ?_, fun _ => hreads⟩, a2, f1, f2, f3, f4, f5, ?_, hne, f6, f7, f8⟩
    · rw [← hmore, List.append_assoc]; exact i1
    · have := reads_ok (closed := a.closed) (b := bs "OK") a.out (by decide) (by decide) (by rw [msl]; decide)
      rw [show bs "OK" ++ bs "\n" = bs "OK\n" by decide] at this
      exact this
    · exact absurd ⟨_, _, rfl, recv_hello⟩ h
    · intro t h; cases h
  rcases a3 with ⟨e1, e2⟩ | ⟨b, lines, r, e1, e2, e3, e4, e5, e6, e7⟩
  · obtain ⟨o, s, h⟩ := key .eof [] (fun t h => by cases h) ⟨_, rfl⟩ ⟨[], by rw [e1, e2]; exact reads_end, fun _ => rfl⟩
    exact ⟨_, _, _, o, s, h⟩
  · have hr2 : Reads a.closed a.out (.line (b ++ bs "\n")) lines := by rw [e1]; exact reads_ok lines e2 e3 e4
    obtain ⟨r, ok⟩ := r
    obtain ⟨o, s, h⟩ := key (.line (b ++ bs "\n")) [lines] (fun t h => by cases h) (by
      cases ok with
      | true => exact ⟨_, clientRsp_ok.2 ⟨_, rfl, e5⟩⟩
      | false => exact ⟨_, clientRsp_err e5 (e7 rfl)⟩) ⟨lines, hr2, fun _ => by simp⟩
    exact ⟨_, _, _, o, s, h⟩

/-! ### An example

Two consoles, of which one is in use. -/

/-- The example's server. -/
def Spec.exampleServer : SrvWorld :=
  { cons := [{ name := bs "n10" }, { name := bs "n9", writers := [{ user := bs "bob", host := bs "host", tty := some (bs "tty2"), idle := some (bs "5m") }] }, { name := bs "x" }]
    glob := fun p n => p = bs "*" ∨ p = n ∨ p = bs "n*" ∧ n.head? = some 0x6E
    rexErr := fun _ => bs "Invalid regular expression" }

/-- The example's client. -/
def Spec.exampleClient (cmd : MsgCmd) (pats : List (List UInt8)) (regex bcast : Bool) : ClientConf :=
  { clientConf0 with cmd := cmd, consoles := pats, regex := regex, bcast := bcast }

/-- What it meets. -/
def Spec.exampleWorld : CWorld := { stk := List.replicate 1024 0, user := bs "alice", tty := some (bs "tty1"), rsp1 := .eof, rsp2 := .eof }

theorem example_sendable {cmd : MsgCmd} {pats : List (List UInt8)} {regex bcast : Bool} (hp : ∀ p ∈ pats, Plain p ∧ p ≠ []) (ha : cmd = .query ∨ pats ≠ [])
    (hl : (protoStr (cmdTok cmd) ++ line (reqItems (exampleClient cmd pats regex bcast).req)).length < 131072) : Sendable exampleServer (exampleClient cmd pats regex bcast) exampleWorld where
  user := by decide
  tty := by decide
  pats := hp
  any := ha
  fits := ⟨_, by rw [request_eq maxSockLine _ (by rw [msl]; omega) (fun p h => (hp p h).1), if_pos (by rw [msl]; exact hl)]⟩
  cons := by decide

theorem example_runs {cmd : MsgCmd} {pats : List (List UInt8)} {regex bcast : Bool} (hs : Sendable exampleServer (exampleClient cmd pats regex bcast) exampleWorld) :
    ∃ rsp1 rsp2 tail o s, Talk exampleServer (exampleClient cmd pats regex bcast) { exampleWorld with rsp1 := rsp1, rsp2 := rsp2, tail := tail } o s :=
  C86_runs _ _ _ hs rfl ⟨rfl, rfl, rfl, rfl, rfl, rfl, fun h => absurd rfl h, by unfold exampleWorld; rw [List.length_replicate]; exact Nat.le_refl _⟩ (by decide) (by decide) (fun p _ => by
    show Plain (bs "Invalid regular expression") ∧ bs "Invalid regular expression" ≠ []
    decide)

theorem example_again {cmd : MsgCmd} {pats : List (List UInt8)} {regex bcast : Bool} {rsp1 rsp2 : RspIn} {tail : List (List UInt8)}
    (hs : Sendable exampleServer (exampleClient cmd pats regex bcast) exampleWorld) :
    Sendable exampleServer (exampleClient cmd pats regex bcast) { exampleWorld with rsp1 := rsp1, rsp2 := rsp2, tail := tail } := ⟨hs.user, hs.tty, hs.pats, hs.any, hs.fits, hs.cons⟩

/-! ### Queries -/

/-- C86 in part: `conman -q PATTERNS` writes the names of exactly those configured consoles that a pattern matches, one per line, each as often as it is configured,
in the order of C31, and nothing else; its exit status is 0.  Without patterns all of them are written.  This holds however the messages are cut on their way.
Missing: answers of more than 131071 bytes (`C86_too_long`). -/
theorem C86_query_partial {sw : SrvWorld} {c : ClientConf} {w : CWorld} {o : COutcome} {s : SrvOut sw} (t : Talk sw c w o s) (hs : Sendable sw c w)
    (ha : sw.allowed = true) (hq : c.cmd = .query) (hne : selection sw c.regex c.consoles ≠ [])
    (hsz : answerSize sw.resetCmd ((selection sw c.regex c.consoles).map (·.name)) < 131072) :
    ∃ names : List (List UInt8), names.Perm ((selection sw c.regex c.consoles).map (·.name)) ∧ o.exit = some 0 ∧ o.out = names.map (fun n => .data (n ++ bs "\n")) ∧ o.err = [] ∧
      s.closed = true ∧ s.session = none ∧
      (Orderly (sw.cons.map (·.name)) → names.Pairwise fun x y => ∃ v, compareObjs x y = some v ∧ v ≤ 0) := by
  obtain ⟨stk, log, sent, a, rest, h1, h2, h3, h4, -, h5, h6, h7⟩ := talk_main t hs ha
  obtain ⟨-, -, -, -, -, -, w7, w8, -, w10⟩ := t.fine
  rcases answer_query hs h1 with ⟨g1, g2, -⟩ | ⟨-, ns, g1, g2, g3⟩
  · exact absurd ⟨g1, g2⟩ (rex_of_selection hne)
  have hp : (ns.map sw.name).Perm ((selection sw c.regex c.consoles).map (·.name)) := by rw [names_of]; exact g1.map _
  have hnn : ns ≠ [] := by
    rintro rfl
    have := g1.length_eq
    simp at this
    exact hne (List.length_eq_zero_iff.1 this.symm)
  have hpl : ∀ n ∈ ns.map sw.name, Plain n ∧ n.length ≤ 1022 := by
    intro n hn
    obtain ⟨i, -, rfl⟩ := List.mem_map.1 hn
    have := hs.cons sw.cons[i] (List.getElem_mem ..)
    exact ⟨this.1, this.2.2⟩
  have hn1 : ns.map sw.name ≠ [] := by simpa using hnn
  have hz : answerSize sw.resetCmd (ns.map sw.name) < maxSockLine := by rw [answerSize_perm hp]; exact hsz
  have hans : a = { out := protoStr tokOk ++ line (rspItems sw.resetCmd (ns.map sw.name)) } := by
    have hcq : (srvReqSel c w ns.length).cmd = some .query := by rw [(reqSel c w ns.length).1, hq]
    have hv : srvValidate sw stk (srvReqSel c w ns.length) ns = some none := by
      unfold srvValidate srvTooMany srvBusy
      rw [if_neg hnn, if_pos hcq, if_pos (Or.inl hcq), if_neg (by simp), if_neg (by simp)]
    rw [srvAnswer_accepted g2 hv (fun n hn => (hpl n hn).1) hnn h2, if_pos hz, if_pos hq]
  rw [hans] at h5
  have he := talk_ok (fun n hn => (hpl n hn).1) hn1 hz w7 h5 h7
  unfold clientEnd at he
  rw [if_pos hq, displayConsoles_eq w10 (fun n hn => ⟨plain_nz (hpl n hn).1, (hpl n hn).2⟩), Option.map_some] at he
  cases he
  refine ⟨ns.map sw.name, hp, ?_, ?_, ?_, by rw [h4, hans], by rw [h3, hans], fun ho => ?_⟩
  · simp
  · simp
  · simp
  · rw [List.pairwise_map]; exact g3 ho

example : ∃ w o s, Talk exampleServer (exampleClient .query [bs "n*"] false false) w o s ∧ o.exit = some 0 ∧
    o.out.Perm [.data (bs "n10\n"), .data (bs "n9\n")] := by
  have hs : Sendable exampleServer (exampleClient .query [bs "n*"] false false) exampleWorld := example_sendable (by decide) (by decide) (by decide)
  obtain ⟨r1, r2, tl, o, s, t⟩ := example_runs hs
  have hsel : selection exampleServer false [bs "n*"] = exampleServer.cons.take 2 := by decide
  obtain ⟨names, n1, n2, n3, -⟩ := C86_query_partial t (example_again hs) rfl rfl (by
    show selection exampleServer false [bs "n*"] ≠ []
    rw [hsel]; decide) (by
    show answerSize false ((selection exampleServer false [bs "n*"]).map (·.name)) < 131072
    rw [hsel]; decide)
  refine ⟨_, o, s, t, n2, ?_⟩
  have n1 : names.Perm ((selection exampleServer false [bs "n*"]).map (·.name)) := n1
  rw [hsel] at n1
  rw [n3]
  exact n1.map _

/-- C86. When no console is selected, every request is refused with this message, on standard error; the exit status is 2. -/
theorem C86_no_match {sw : SrvWorld} {c : ClientConf} {w : CWorld} {o : COutcome} {s : SrvOut sw} (t : Talk sw c w o s) (hs : Sendable sw c w) (ha : sw.allowed = true)
    (hr : c.regex = true → sw.rex (if c.consoles = [] then [0x2E, 0x2A] else alternation c.consoles) ≠ none) (hne : selection sw c.regex c.consoles = []) :
    o.exit = some 2 ∧ o.out = [] ∧ o.err = bs "ERROR: Found no matching consoles.\n\n" ∧ s.closed = true ∧ s.session = none := by
  obtain ⟨stk, log, sent, a, rest, h1, h2, h3, h4, -, h5, h6, h7⟩ := talk_main t hs ha
  obtain ⟨-, -, -, -, -, -, w7, w8, -, -⟩ := t.fine
  rcases answer_query hs h1 with ⟨g1, g2, -⟩ | ⟨-, ns, g1, g2, g3⟩
  · exact absurd g2 (hr g1)
  obtain ⟨-, hl, -⟩ := perm_facts hs g1
  rw [hne] at hl
  have hns : ns = [] := List.length_eq_zero_iff.1 hl
  have hm : Plain (bs "Found no matching consoles") ∧ bs "Found no matching consoles" ≠ [] := by decide
  have hans := srvAnswer_refused (m := errLine 5 (bs "Found no matching consoles") ++ bs "\n") g2 (by
    unfold srvValidate
    rw [if_pos hns, (srvErr_eq (by omega) hm.1).1, Option.map_some]) h2
  rw [hans] at h5
  obtain ⟨e1, e2, e3⟩ := talk_refused (n := 5) (lines := []) (by omega) hm w7 w8 (by rw [List.append_nil]; exact h5) h6 h7
  refine ⟨e1, e2, ?_, by rw [h4, hans], by rw [h3, hans]⟩
  rw [e3, show errHint c (5 : Nat) = [] by unfold errHint; simp]
  decide

example : ∃ w o s, Talk exampleServer (exampleClient .connect [bs "y"] false false) w o s ∧ o.exit = some 2 ∧ o.err = bs "ERROR: Found no matching consoles.\n\n" := by
  have hs : Sendable exampleServer (exampleClient .connect [bs "y"] false false) exampleWorld := example_sendable (by decide) (by decide) (by decide)
  obtain ⟨r1, r2, tl, o, s, t⟩ := example_runs hs
  obtain ⟨n1, -, n2, -⟩ := C86_no_match t (example_again hs) rfl (fun h => absurd h (by decide)) (by
    show selection exampleServer false [bs "y"] = []
    decide)
  exact ⟨_, o, s, t, n1, n2⟩

/-- C86. A regular expression that the system does not accept: its message is passed on. -/
theorem C86_bad_regex {sw : SrvWorld} {c : ClientConf} {w : CWorld} {o : COutcome} {s : SrvOut sw} (t : Talk sw c w o s) (hs : Sendable sw c w) (ha : sw.allowed = true)
    (hx : c.regex = true) {pat : List UInt8} (hp : pat = if c.consoles = [] then [0x2E, 0x2A] else alternation c.consoles) (hr : sw.rex pat = none)
    (hm : Plain (sw.rexErr pat) ∧ sw.rexErr pat ≠ []) :
    o.exit = some 2 ∧ o.out = [] ∧ o.err = bs "ERROR: " ++ sw.rexErr pat ++ bs ".\n\n" ∧ s.closed = true ∧ s.session = none := by
  obtain ⟨stk, log, sent, a, rest, h1, h2, h3, h4, -, h5, h6, h7⟩ := talk_main t hs ha
  obtain ⟨-, -, -, -, -, -, w7, w8, -, -⟩ := t.fine
  rcases answer_query hs h1 with ⟨-, -, g3⟩ | ⟨g1, -⟩
  · rw [← hp, List.take_of_length_le (by have := hm.1.2; rw [msl]; omega)] at g3
    have hans : a = { out := errLine 3 (sw.rexErr pat) ++ bs "\n" } := by
      unfold srvAnswer at h2
      rw [g3, Option.bind_some] at h2
      dsimp only at h2
      rw [(srvErr_eq (by omega) hm.1).1, Option.map_some] at h2
      cases h2; rfl
    rw [hans] at h5
    obtain ⟨e1, e2, e3⟩ := talk_refused (n := 3) (lines := []) (by omega) hm w7 w8 (by rw [List.append_nil]; exact h5) h6 h7
    refine ⟨e1, e2, ?_, by rw [h4, hans], by rw [h3, hans]⟩
    rw [e3, show errHint c (3 : Nat) = [] by unfold errHint; simp, List.append_nil, List.append_nil]
  · rw [hp] at hr; exact absurd hr (g1 hx)

example : ∃ w o s, Talk exampleServer (exampleClient .connect [bs "("] true false) w o s ∧ o.exit = some 2 ∧ o.err = bs "ERROR: Invalid regular expression.\n\n" := by
  have hs : Sendable exampleServer (exampleClient .connect [bs "("] true false) exampleWorld := example_sendable (by decide) (by decide) (by decide)
  obtain ⟨r1, r2, tl, o, s, t⟩ := example_runs hs
  obtain ⟨n1, -, n2, -⟩ := C86_bad_regex t (example_again hs) rfl rfl rfl rfl (by
    show Plain (bs "Invalid regular expression") ∧ bs "Invalid regular expression" ≠ []
    decide)
  exact ⟨_, o, s, t, n1, by rw [n2]; decide⟩

/-! ### Sessions -/

/-- C86. To connect to or monitor more than one console is refused, unless it is a broadcast; the consoles are listed on standard error. -/
theorem C86_too_many {sw : SrvWorld} {c : ClientConf} {w : CWorld} {o : COutcome} {s : SrvOut sw} (t : Talk sw c w o s) (hs : Sendable sw c w) (ha : sw.allowed = true)
    (hq : c.cmd ≠ .query) (hb : ¬ (c.cmd = .connect ∧ c.bcast = true)) (hn : 1 < (selection sw c.regex c.consoles).length) (hc : sw.cons.length < 2147483648) :
    ∃ names : List (List UInt8), names.Perm ((selection sw c.regex c.consoles).map (·.name)) ∧
      (Orderly (sw.cons.map (·.name)) → names.Pairwise fun x y => ∃ v, compareObjs x y = some v ∧ v ≤ 0) ∧
      o.exit = some 2 ∧ o.out = [] ∧ s.closed = true ∧ s.session = none ∧
      o.err = bs "ERROR: Found " ++ dec names.length ++ bs " matching consoles.\n\n" ++ (names.map (· ++ bs "\n")).flatten ++
        (if c.bcast then [] else bs "\nDo you want to broadcast (-b) to multiple consoles?\n\n") := by
  obtain ⟨stk, log, sent, a, rest, h1, h2, h3, h4, -, h5, h6, h7⟩ := talk_main t hs ha
  obtain ⟨-, -, -, -, -, -, w7, w8, -, -⟩ := t.fine
  have hsel : selection sw c.regex c.consoles ≠ [] := by intro g; rw [g] at hn; simp at hn
  rcases answer_query hs h1 with ⟨g1, g2, -⟩ | ⟨-, ns, g1, g2, g3⟩
  · exact absurd ⟨g1, g2⟩ (rex_of_selection hsel)
  obtain ⟨hp, hl, hpl⟩ := perm_facts hs g1
  have hle := selection_le sw c.regex c.consoles
  have hm : Plain (bs "Found " ++ dec ns.length ++ bs " matching consoles") ∧ bs "Found " ++ dec ns.length ++ bs " matching consoles" ≠ [] := by
    refine ⟨(plain_count (by omega)).1, ?_⟩
    rw [show bs "Found " = [0x46, 0x6F, 0x75, 0x6E, 0x64, 0x20] by decide]
    simp
  obtain ⟨r1, -, -, r4, -⟩ := reqSel c w ns.length
  have hans := srvAnswer_refused (m := errLine 6 (bs "Found " ++ dec ns.length ++ bs " matching consoles") ++ bs "\n" ++ ((ns.map sw.name).map (· ++ bs "\n")).flatten) g2 (by
    unfold srvValidate
    rw [if_neg (by intro g; rw [g] at hl; simp at hl; omega)]
    have htm : srvTooMany (srvReqSel c w ns.length) ns.length = true := by
      unfold srvTooMany
      rw [if_neg (by rw [r1]; simpa using hq), if_neg (by omega), if_neg]
      rintro ⟨k1, k2⟩
      rw [r1] at k1
      rw [r4] at k2
      simp only [Bool.and_eq_true] at k2
      exact hb ⟨by simpa using k1, k2.1.1⟩
    rw [if_pos htm, (srvErr_eq (by omega) hm.1).1, Option.bind_some,
      mapM_some (g := fun i => sw.name i ++ bs "\n") (fun i hi => by
        obtain ⟨k1, k2⟩ := hpl _ (List.mem_map_of_mem hi)
        exact nameLine_eq h1 (plain_nz k1) (by omega)), Option.map_some, List.map_map]
    rfl) h2
  rw [hans] at h5
  obtain ⟨e1, e2, e3⟩ := talk_refused (by omega) hm w7 w8 h5 h6 h7
  refine ⟨ns.map sw.name, hp, fun ho => by rw [List.pairwise_map]; exact g3 ho, e1, e2, by rw [h4, hans], by rw [h3, hans], ?_⟩
  rw [e3]
  have hh : errHint c (6 : Nat) = if c.bcast then [] else bs "\nDo you want to broadcast (-b) to multiple consoles?\n\n" := by
    unfold errHint
    cases c.bcast <;> simp
  rw [hh, List.length_map]
  simp only [← List.append_assoc]
  congr 2
  rw [show bs "ERROR: Found " = bs "ERROR: " ++ bs "Found " by decide, show bs " matching consoles.\n\n" = bs " matching consoles" ++ bs ".\n\n" by decide]
  simp only [List.append_assoc]

example : ∃ w o s, Talk exampleServer (exampleClient .monitor [bs "n*"] false false) w o s ∧ o.exit = some 2 ∧
    ∃ names : List (List UInt8), names.Perm [bs "n10", bs "n9"] ∧
      o.err = bs "ERROR: Found 2 matching consoles.\n\n" ++ (names.map (· ++ bs "\n")).flatten ++ bs "\nDo you want to broadcast (-b) to multiple consoles?\n\n" := by
  have hs : Sendable exampleServer (exampleClient .monitor [bs "n*"] false false) exampleWorld := example_sendable (by decide) (by decide) (by decide)
  obtain ⟨r1, r2, tl, o, s, t⟩ := example_runs hs
  have hsel : selection exampleServer false [bs "n*"] = exampleServer.cons.take 2 := by decide
  obtain ⟨names, n1, -, n2, -, -, -, n3⟩ := C86_too_many t (example_again hs) rfl (by decide) (by decide) (by
    show 1 < (selection exampleServer false [bs "n*"]).length
    rw [hsel]; decide) (by decide)
  have n1 : names.Perm ((selection exampleServer false [bs "n*"]).map (·.name)) := n1
  rw [hsel] at n1
  refine ⟨_, o, s, t, n2, names, n1, ?_⟩
  rw [n3, n1.length_eq]
  rfl

/-- C86. To connect to consoles of which some are in use is refused, unless it is by force or to join; who uses them is told on standard error (in lines of at most 1023
bytes). -/
theorem C86_busy {sw : SrvWorld} {c : ClientConf} {w : CWorld} {o : COutcome} {s : SrvOut sw} (t : Talk sw c w o s) (hs : Sendable sw c w) (ha : sw.allowed = true)
    (hq : c.cmd = .connect) (hf : c.force = false ∧ c.join = false) (hb : (selection sw c.regex c.consoles).length = 1 ∨ c.bcast = true)
    (hu : (selection sw c.regex c.consoles).filter (fun x => !x.writers.isEmpty) ≠ []) (hc : sw.cons.length < 2147483648)
    (hz : ∀ x ∈ sw.cons, ∀ y ∈ x.writers, (0 : UInt8) ∉ inUse x y) :
    ∃ used : List SrvCon, used.Perm ((selection sw c.regex c.consoles).filter fun x => !x.writers.isEmpty) ∧
      o.exit = some 2 ∧ o.out = [] ∧ s.closed = true ∧ s.session = none ∧
      o.err = (if used.length = 1 then bs "ERROR: Found console already in use.\n\n" else bs "ERROR: Found " ++ dec used.length ++ bs " consoles already in use.\n\n") ++
        (used.map fun x => (x.writers.map (inUseLine x)).flatten).flatten ++ bs "\nDo you want to force (-f) or join (-j) the connection?\n\n" := by
  obtain ⟨stk, log, sent, a, rest, h1, h2, h3, h4, -, h5, h6, h7⟩ := talk_main t hs ha
  obtain ⟨-, -, -, -, -, -, w7, w8, -, -⟩ := t.fine
  have hsel : selection sw c.regex c.consoles ≠ [] := by intro g; rw [g] at hu; exact hu rfl
  rcases answer_query hs h1 with ⟨g1, g2, -⟩ | ⟨-, ns, g1, g2, g3⟩
  · exact absurd ⟨g1, g2⟩ (rex_of_selection hsel)
  obtain ⟨hp, hl, hpl⟩ := perm_facts hs g1
  have hle := selection_le sw c.regex c.consoles
  obtain ⟨r1, r2, r3, r4, -⟩ := reqSel c w ns.length
  have hnn : ns ≠ [] := by rintro rfl; exact hsel (List.length_eq_zero_iff.1 hl.symm)
  let busy := ns.filter fun (i : sw.Con) => !sw.cons[i].writers.isEmpty
  have hbusy : srvBusy sw (srvReqSel c w ns.length) ns = busy := by
    unfold srvBusy
    rw [if_neg (by rw [r1, hq]; decide), if_neg (by rw [r2, r3, hf.1, hf.2]; simp)]
  have hbp : (busy.map fun (i : sw.Con) => sw.cons[i]).Perm ((selection sw c.regex c.consoles).filter fun x => !x.writers.isEmpty) := by
    have := g1.filter (fun x => !x.writers.isEmpty)
    rw [List.filter_map] at this
    exact this
  have hbl : busy.length ≤ ns.length := List.length_filter_le ..
  have hbn : busy ≠ [] := by
    intro g
    rw [g] at hbp
    exact hu (List.length_eq_zero_iff.1 hbp.length_eq.symm)
  have hm : Plain (busyMsg busy.length) ∧ busyMsg busy.length ≠ [] := by
    refine ⟨(plain_count (by omega)).2, ?_⟩
    unfold busyMsg
    split
    · decide
    · rw [show bs "Found " = [0x46, 0x6F, 0x75, 0x6E, 0x64, 0x20] by decide]
      simp
  have hans := srvAnswer_refused (m := errLine 7 (busyMsg busy.length) ++ bs "\n" ++
      ((busy.map fun (i : sw.Con) => sw.cons[i]).map fun x => (x.writers.map (inUseLine x)).flatten).flatten) g2 (by
    unfold srvValidate
    have htm : srvTooMany (srvReqSel c w ns.length) ns.length = false := by
      unfold srvTooMany
      rw [if_neg (by rw [r1, hq]; decide)]
      by_cases h : ns.length = 1
      · rw [if_pos h]
      · rw [if_neg h, if_pos]
        rw [r1, r4, hq]
        rcases hb with hb | hb
        · omega
        · simp [hb, h]
    rw [if_neg hnn, if_neg (by rw [htm]; decide), hbusy, if_pos hbn, (srvErr_eq (by omega) hm.1).1, Option.bind_some,
      mapM_some (g := fun (i : sw.Con) => sw.cons[i].writers.map (inUseLine sw.cons[i])) (fun i hi =>
        mapM_some fun y hy => busyLine_eq h1 (hz _ (List.getElem_mem ..) y hy)), Option.map_some, List.map_map]
    congr 3
    rw [List.flatten_flatten, List.map_map]
    rfl) h2
  rw [hans] at h5
  obtain ⟨e1, e2, e3⟩ := talk_refused (by omega) hm w7 w8 h5 h6 h7
  refine ⟨busy.map fun (i : sw.Con) => sw.cons[i], hbp, e1, e2, by rw [h4, hans], by rw [h3, hans], ?_⟩
  rw [e3]
  have hh : errHint c (7 : Nat) = bs "\nDo you want to force (-f) or join (-j) the connection?\n\n" := by
    unfold errHint
    rw [hf.1, hf.2]; simp
  rw [hh, List.length_map]
  congr 2
  unfold busyMsg
  split
  · decide
  · rw [show bs "ERROR: Found " = bs "ERROR: " ++ bs "Found " by decide, show bs " consoles already in use.\n\n" = bs " consoles already in use" ++ bs ".\n\n" by decide]
    simp only [List.append_assoc]

example : ∃ w o s, Talk exampleServer (exampleClient .connect [bs "n*"] false true) w o s ∧ o.exit = some 2 ∧
    o.err = bs "ERROR: Found console already in use.\n\nConsole [n9] open R/W by <bob@host> on tty2 (idle 5m).\n\nDo you want to force (-f) or join (-j) the connection?\n\n" := by
  have hs : Sendable exampleServer (exampleClient .connect [bs "n*"] false true) exampleWorld := example_sendable (by decide) (by decide) (by decide)
  obtain ⟨r1, r2, tl, o, s, t⟩ := example_runs hs
  have hsel : (selection exampleServer false [bs "n*"]).filter (fun x => !x.writers.isEmpty) = (exampleServer.cons.drop 1).take 1 := by decide
  obtain ⟨used, n1, n2, -, -, -, n3⟩ := C86_busy t (example_again hs) rfl rfl ⟨rfl, rfl⟩ (Or.inr rfl) (by
    show (selection exampleServer false [bs "n*"]).filter (fun x => !x.writers.isEmpty) ≠ []
    rw [hsel]; decide) (by decide) (by decide)
  have n1 : used.Perm ((selection exampleServer false [bs "n*"]).filter (fun x => !x.writers.isEmpty)) := n1
  rw [hsel] at n1
  have n1 : used = (exampleServer.cons.drop 1).take 1 := List.perm_singleton.1 n1
  refine ⟨_, o, s, t, n2, ?_⟩
  rw [n3, n1]
  decide +kernel

/-- The request is for one console, or a broadcast, and those who use the consoles are not in the way. -/
def Spec.Granted (sw : SrvWorld) (c : ClientConf) : Prop :=
  selection sw c.regex c.consoles ≠ [] ∧ ((selection sw c.regex c.consoles).length = 1 ∨ c.cmd = .connect ∧ c.bcast = true) ∧
  (c.cmd = .monitor ∨ c.cmd = .connect ∧ (c.force = true ∨ c.join = true ∨ ∀ x ∈ selection sw c.regex c.consoles, x.writers = []))

theorem granted_valid {sw : SrvWorld} {c : ClientConf} {w : CWorld} (hg : Granted sw c) {ns : List sw.Con} {stk : List UInt8}
    (g : (ns.map fun (i : sw.Con) => sw.cons[i]).Perm (selection sw c.regex c.consoles)) : srvValidate sw stk (srvReqSel c w ns.length) ns = some none ∧ ns ≠ [] ∧ c.cmd ≠ .query := by
  obtain ⟨k1, k2, k3⟩ := hg
  have hl : ns.length = (selection sw c.regex c.consoles).length := by simpa using g.length_eq
  have hnn : ns ≠ [] := by rintro rfl; exact k1 (List.length_eq_zero_iff.1 hl.symm)
  obtain ⟨r1, r2, r3, r4, -⟩ := reqSel c w ns.length
  have hcq : c.cmd ≠ .query := by
    rcases k3 with h | ⟨h, -⟩ <;> rw [h] <;> decide
  refine ⟨?_, hnn, hcq⟩
  have htm : srvTooMany (srvReqSel c w ns.length) ns.length = false := by
    unfold srvTooMany
    rw [if_neg (by rw [r1]; simpa using hcq)]
    by_cases h : ns.length = 1
    · rw [if_pos h]
    · rw [if_neg h, if_pos]
      rcases k2 with k2 | ⟨k2, k4⟩
      · omega
      · rw [r1, r4, k2]; simp [k4, h]
  have hby : srvBusy sw (srvReqSel c w ns.length) ns = [] := by
    unfold srvBusy
    rw [r1, r2, r3]
    rcases k3 with h | ⟨h, h'⟩
    · rw [if_pos (Or.inr (by rw [h]))]
    · rw [if_neg (by rw [h]; decide)]
      rcases h' with h' | h' | h'
      · rw [if_pos (Or.inl (by simp [h', h]))]
      · rw [if_pos (Or.inr (by simp [h', h]))]
      · split
        · rfl
        · rw [List.filter_eq_nil_iff]
          intro i hi
          have := h' sw.cons[i] (g.mem_iff.1 (List.mem_map_of_mem (f := fun (i : sw.Con) => sw.cons[i]) hi))
          rw [this]; simp
  unfold srvValidate
  rw [if_neg hnn, if_neg (by rw [htm]; decide), hby, if_neg (by simp)]

/-- C86 in part: otherwise the session begins, with exactly the selected consoles and in the name of the user on the server's side, and the client says so first.
Missing: answers of more than 131071 bytes (`C86_too_long`). -/
theorem C86_session_partial {sw : SrvWorld} {c : ClientConf} {w : CWorld} {o : COutcome} {s : SrvOut sw} (t : Talk sw c w o s) (hs : Sendable sw c w) (ha : sw.allowed = true)
    (hg : Granted sw c) (hsz : answerSize sw.resetCmd ((selection sw c.regex c.consoles).map (·.name)) < 131072) :
    ∃ ns : List sw.Con, (ns.map fun (i : sw.Con) => sw.cons[i]).Perm (selection sw c.regex c.consoles) ∧
      s.closed = false ∧ s.session = some ⟨c.cmd, some w.user, w.tty, c.quiet, c.force && (c.cmd = .connect), c.join && (c.cmd = .connect), c.bcast && (c.cmd = .connect) && ns.length ≠ 1, ns⟩ ∧ o.err = [] ∧
      (w.ttys = false → o.exit = some 1 ∧ o.out = []) ∧
      (w.ttys = true → o.exit ≠ some 2 ∧
        (∀ x, selection sw c.regex c.consoles = [x] → x.name.length ≤ 900 → o.out.head? = some (.note (bs "\r\n<ConMan> Connection to console [" ++ x.name ++ bs "] opened.\r\n"))) ∧
        (1 < ns.length → ns.length < 1000000 → o.out.head? = some (.note (bs "\r\n<ConMan> Broadcast to " ++ dec ns.length ++ bs " consoles opened.\r\n")))) := by
  obtain ⟨stk, log, sent, a, rest, h1, h2, h3, h4, -, h5, h6, h7⟩ := talk_main t hs ha
  obtain ⟨-, -, -, -, -, -, w7, w8, -, w10⟩ := t.fine
  rcases answer_query hs h1 with ⟨g1, g2, -⟩ | ⟨-, ns, g1, g2, g3⟩
  · exact absurd ⟨g1, g2⟩ (rex_of_selection hg.1)
  obtain ⟨hp, hl, hpl⟩ := perm_facts hs g1
  obtain ⟨hv, hnn, hcq⟩ := granted_valid (w := w) (stk := stk) hg g1
  have hz : answerSize sw.resetCmd (ns.map sw.name) < maxSockLine := by rw [answerSize_perm hp]; exact hsz
  have hans := srvAnswer_accepted g2 hv (fun n hn => (hpl n hn).1) hnn h2
  rw [if_pos hz, if_neg hcq] at hans
  rw [hans] at h5
  have he := talk_ok (fun n hn => (hpl n hn).1) (by simpa using hnn) hz w7 h5 h7
  have hno := end_noerr he
  refine ⟨ns, g1, by rw [h4, hans], by rw [h3, hans], hno.1, fun ht => ?_, fun ht => ⟨hno.2, ?_⟩⟩
  · unfold clientEnd at he
    rw [if_neg hcq, if_pos ht] at he
    cases he; exact ⟨rfl, rfl⟩
  · have hfirst : ∀ x, statusMsg w.stk (ns.map sw.name) (bs "opened") = some x → o.out.head? = some (.note x) := by
      intro x hx
      unfold clientEnd at he
      rw [if_neg hcq, if_neg (by rw [ht]; decide), hx, Option.bind_some] at he
      obtain ⟨r, hr, he⟩ := Option.map_eq_some_iff.1 he
      obtain ⟨more, hmore⟩ := crun_out hr
      have : o.out = r.out := by rw [← he]; cases r.phase <;> rfl
      rw [this, ← hmore]; rfl
    constructor
    · intro x hx hxl
      rw [hx] at hp
      have e : ns.map sw.name = [x.name] := List.perm_singleton.1 hp
      have hxz : (0 : UInt8) ∉ x.name := plain_nz (hpl x.name (by rw [e]; exact List.mem_cons_self ..)).1
      have := hfirst _ (by rw [e]; exact (C84_status_text w10 hxz hxl [] (by decide) (by decide)).1)
      rw [this, show bs "] opened.\r\n" = bs "] " ++ bs "opened" ++ bs ".\r\n" by decide]
      simp only [List.append_assoc]
    · intro hlt hmx
      have := hfirst _ ((C84_status_text (name := []) w10 (by simp) (by simp) (ns.map sw.name) (by rw [List.length_map]; omega) (by decide)).2 (by rw [List.length_map]; exact hmx))
      rw [this, List.length_map, show bs " consoles opened.\r\n" = bs " consoles " ++ bs "opened" ++ bs ".\r\n" by decide]
      simp only [List.append_assoc]

example : ∃ w o s, Talk exampleServer (exampleClient .connect [bs "x"] false false) w o s ∧ s.session.isSome ∧
    o.out.head? = some (.note (bs "\r\n<ConMan> Connection to console [x] opened.\r\n")) := by
  have hs : Sendable exampleServer (exampleClient .connect [bs "x"] false false) exampleWorld := example_sendable (by decide) (by decide) (by decide)
  obtain ⟨r1, r2, tl, o, s, t⟩ := example_runs hs
  have hsel : selection exampleServer false [bs "x"] = [{ name := bs "x" }] := by decide
  obtain ⟨ns, -, -, n2, -, -, n3⟩ := C86_session_partial t (example_again hs) rfl (by
    show Granted exampleServer (exampleClient .connect [bs "x"] false false)
    unfold Granted exampleClient
    dsimp only
    rw [hsel]
    decide) (by
    show answerSize false ((selection exampleServer false [bs "x"]).map (·.name)) < 131072
    rw [hsel]; decide)
  refine ⟨_, o, s, t, by rw [n2]; rfl, ?_⟩
  have := (n3 rfl).2.1 _ hsel (by decide)
  rw [this]; decide

/-! ### What is missing -/

/-- An answer of 131072 bytes or more is not sent: although the request is good, the client only finds the connection closed. -/
theorem C86_too_long {sw : SrvWorld} {c : ClientConf} {w : CWorld} {o : COutcome} {s : SrvOut sw} (t : Talk sw c w o s) (hs : Sendable sw c w) (ha : sw.allowed = true)
    (hg : c.cmd = .query ∧ selection sw c.regex c.consoles ≠ [] ∨ Granted sw c) (hsz : 131072 ≤ answerSize sw.resetCmd ((selection sw c.regex c.consoles).map (·.name))) :
    o.exit = some 2 ∧ o.out = [] ∧ o.err = bs "ERROR: " ++ argS (bs "Connection terminated by " ++ peerText (clientHost c w) c.port) ++ bs ".\n\n" ∧ s.session = none := by
  obtain ⟨stk, log, sent, a, rest, h1, h2, h3, h4, -, h5, h6, h7⟩ := talk_main t hs ha
  obtain ⟨-, -, -, -, -, -, w7, w8, -, w10⟩ := t.fine
  have hsel : selection sw c.regex c.consoles ≠ [] := by
    rcases hg with h | h
    · exact h.2
    · exact h.1
  rcases answer_query hs h1 with ⟨g1, g2, -⟩ | ⟨-, ns, g1, g2, g3⟩
  · exact absurd ⟨g1, g2⟩ (rex_of_selection hsel)
  obtain ⟨hp, hl, hpl⟩ := perm_facts hs g1
  have hv : srvValidate sw stk (srvReqSel c w ns.length) ns = some none ∧ ns ≠ [] := by
    rcases hg with ⟨hq, -⟩ | hg
    · have hnn : ns ≠ [] := by rintro rfl; exact hsel (List.length_eq_zero_iff.1 hl.symm)
      have hcq : (srvReqSel c w ns.length).cmd = some .query := by rw [(reqSel c w ns.length).1, hq]
      refine ⟨?_, hnn⟩
      unfold srvValidate srvTooMany srvBusy
      rw [if_neg hnn, if_pos hcq, if_pos (Or.inl hcq), if_neg (by simp), if_neg (by simp)]
    · obtain ⟨k1, k2, -⟩ := granted_valid (w := w) (stk := stk) hg g1
      exact ⟨k1, k2⟩
  have hz : ¬ answerSize sw.resetCmd (ns.map sw.name) < maxSockLine := by rw [answerSize_perm hp, msl]; omega
  have hans := srvAnswer_accepted g2 hv.1 (fun n hn => (hpl n hn).1) hv.2 h2
  rw [if_neg hz] at hans
  rw [hans] at h5
  obtain ⟨e1, e2, e3⟩ := talk_eof w7 h5 h7
  exact ⟨e1, e2, e3, by rw [h3, hans]⟩

/-- Another server, with twenty thousand consoles. -/
def Spec.largeServer : SrvWorld := { cons := List.replicate 20000 { name := bs "node" }, glob := fun _ _ => true, rexErr := fun _ => bs "Invalid" }

example : ∃ w o s, Talk largeServer (exampleClient .query [] false false) w o s ∧ o.exit = some 2 ∧ o.err = bs "ERROR: Connection terminated by <127.0.0.1:7890>.\n\n" := by
  have hsel : selection largeServer false [] = List.replicate 20000 { name := bs "node" } := by
    unfold selection largeServer
    rw [List.filter_eq_self]
    intro x _
    rfl
  have hmem : ∀ x ∈ largeServer.cons, x = { name := bs "node" } := fun x hx => (List.mem_replicate.1 hx).2
  have hs0 : Sendable exampleServer (exampleClient .query [] false false) exampleWorld := example_sendable (by decide) (by decide) (by decide)
  have hs : Sendable largeServer (exampleClient .query [] false false) exampleWorld := ⟨hs0.user, hs0.tty, hs0.pats, hs0.any, hs0.fits, fun x hx => by
    rw [hmem x hx]; decide⟩
  obtain ⟨r1, r2, tl, o, s, t⟩ := C86_runs _ _ _ hs rfl
    ⟨rfl, rfl, rfl, rfl, rfl, rfl, fun h => absurd rfl h, by unfold exampleWorld; rw [List.length_replicate]; exact Nat.le_refl _⟩ (by
      show (List.replicate 20000 _).length < _
      rw [List.length_replicate]; omega) (fun x hx y hy => by rw [hmem x hx] at hy; cases hy) (fun p _ => by
    show Plain (bs "Invalid") ∧ bs "Invalid" ≠ []
    decide)
  obtain ⟨n1, -, n2, -⟩ := C86_too_long t ⟨hs.user, hs.tty, hs.pats, hs.any, hs.fits, hs.cons⟩ rfl (Or.inl ⟨rfl, by
    show selection largeServer false [] ≠ []
    rw [hsel]
    intro h
    have := congrArg List.length h
    rw [List.length_replicate] at this
    simp at this⟩) (by
    show 131072 ≤ answerSize false ((selection largeServer false []).map (·.name))
    rw [hsel]
    unfold answerSize
    rw [List.map_map, List.map_replicate, List.sum_replicate_nat, if_neg (by decide)]
    have : ((fun n : List UInt8 => n.length + 11) ∘ fun x : SrvCon => x.name) { name := bs "node" } = 15 := by decide
    rw [this]; omega)
  refine ⟨_, o, s, t, n1, ?_⟩
  rw [n2, show clientHost (exampleClient .query [] false false) _ = bs "127.0.0.1" from rfl]
  decide +kernel

/-- A client that TCP-Wrappers keep out finds the connection closed, too. -/
theorem C86_kept_out {sw : SrvWorld} {c : ClientConf} {w : CWorld} {o : COutcome} {s : SrvOut sw} (t : Talk sw c w o s) (hs : Sendable sw c w) (ha : sw.allowed = false) :
    o.exit = some 2 ∧ o.out = [] ∧ o.err = bs "ERROR: " ++ argS (bs "Connection terminated by " ++ peerText (clientHost c w) c.port) ++ bs ".\n\n" ∧
    s.out = [] ∧ s.session = none := by
  obtain ⟨i, hserve, -⟩ := t.server
  obtain ⟨w1, w2, w3, w4, w5, w6, w7, w8, w9, w10⟩ := t.fine
  have ht' : ∀ x ∈ w.tty, Plain x := fun x h => (hs.tty x h).1
  unfold serve at hserve
  rw [if_pos ha] at hserve
  cases hserve
  obtain ⟨rest, hr, -⟩ := t.answers
  obtain ⟨e1, -⟩ := reads_nil hr w6
  have hg : greeting maxSockLine w.user w.tty = some (some (helloLine w.user w.tty ++ bs "\n")) := by
    rw [greeting_eq maxSockLine w.user w.tty (by rw [msl]; omega) hs.user.1 ht', if_pos (helloLine_len hs.user.1 ht')]
  obtain ⟨log, hc⟩ : ∃ log, clientConnect c w log = some o := by
    have := t.client
    unfold clientMain at this
    cases hl : c.log with
    | none => rw [hl] at this; exact ⟨_, this⟩
    | some n =>
      rw [hl] at this
      cases hf : w.logFile with
      | none => exact absurd hf (w9 (by rw [hl]; simp))
      | some old => rw [hf] at this; exact ⟨_, this⟩
  unfold clientConnect at hc
  rw [if_neg (by rw [w1]; decide), w2] at hc
  dsimp only at hc
  unfold clientGreet at hc
  rw [hg, Option.bind_some, w3] at hc
  dsimp only at hc
  rw [e1] at hc
  unfold clientRsp at hc
  rw [Option.bind_some, if_pos rfl] at hc
  cases hc
  unfold displayError
  dsimp only
  rw [if_neg (fun g => g.1 rfl)]
  refine ⟨rfl, rfl, ?_, rfl, rfl⟩
  dsimp only
  rw [show errHint c 1 = [] by unfold errHint; simp, List.append_nil]
  rfl

example : ∃ w o s, Talk { exampleServer with allowed := false } (exampleClient .query [] false false) w o s ∧ o.exit = some 2 ∧
    o.err = bs "ERROR: Connection terminated by <127.0.0.1:7890>.\n\n" := by
  have hs0 : Sendable exampleServer (exampleClient .query [] false false) exampleWorld := example_sendable (by decide) (by decide) (by decide)
  have hlen : maxSockLine ≤ (List.replicate maxSockLine (0 : UInt8)).length := by rw [List.length_replicate]; exact Nat.le_refl _
  have hstk : 1024 ≤ exampleWorld.stk.length := by unfold exampleWorld; rw [List.length_replicate]; exact Nat.le_refl _
  obtain ⟨o, ho⟩ := C85_total_partial (exampleClient .query [] false false) exampleWorld hstk hs0.user.1 (fun t h => (hs0.tty t h).1) (fun p h => (hs0.pats p h).1)
    (fun s h => by cases h) (fun s h => by cases h) (fun r h => by obtain ⟨s, h, -⟩ := h; cases h)
  have t : Talk { exampleServer with allowed := false } (exampleClient .query [] false false) exampleWorld o {} :=
    ⟨ho, ⟨⟨[], [], List.replicate maxSockLine 0, List.replicate maxSockLine 0, List.replicate maxSockLine 0⟩, rfl, hlen, hlen, hlen, by simp, by simp⟩,
      ⟨[], reads_end, fun _ => rfl, fun _ => ⟨[], reads_end, fun _ => rfl⟩⟩, rfl, rfl, rfl, rfl, rfl, rfl, (fun t h => by cases h), (fun t h => by cases h), rfl, fun h => absurd rfl h, hstk⟩
  obtain ⟨n1, -, n2, -⟩ := C86_kept_out t ⟨hs0.user, hs0.tty, hs0.pats, hs0.any, hs0.fits, hs0.cons⟩ rfl
  exact ⟨_, o, _, t, n1, by rw [n2]; decide +kernel⟩

end Conman
