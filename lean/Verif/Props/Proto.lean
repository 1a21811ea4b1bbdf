import Verif.Lemma.ProtoAny

/-
C18, C19, C56, C67: requests and responses.
-/
namespace Conman
open Spec

/-- C18. A request is either refused by the client for being too long for the line buffer, or sent as one line.  Whatever follows it on
the connection and however it arrives, the server reads exactly this line and finds in it the command, the options (`FORCE`, `JOIN`,
`BROADCAST` are sent for `CONNECT` only) and the names, in order; empty names are dropped. -/
theorem C18_request (size : Nat) (r : ReqMsg) (h0 : 0 < size) (h : ∀ c ∈ r.consoles, Plain c) :
    ∃ msg, request size r = some (if msg.length < size then some msg else none) ∧ (msg.length < size →
      ∀ (sched : List Sys) (more buf : List UInt8) (res : LineRes) (m : Nat) (q : SrvReq), size ≤ buf.length →
        readLine sched (msg ++ more) buf size = some res → res.fin = .ret m →
        q.quiet = false ∧ q.regex = false ∧ q.force = false ∧ q.join = false ∧ q.bcast = false ∧ q.consoles = [] →
        0 < m ∧ res.rest = more ∧ recvReq res.buf q = some { q with
          cmd := some r.cmd, quiet := r.quiet, regex := r.regex, force := r.force && (r.cmd = .connect), join := r.join && (r.cmd = .connect),
          bcast := r.bcast && (r.cmd = .connect), consoles := r.consoles.filter (· ≠ []) }) := by
  refine ⟨_, request_eq size r h0 h, ?_⟩
  intro hlen sched more buf res m q hbuf hres hm hq
  have hok := reqItems_ok h
  have e : protoStr (cmdTok r.cmd) ++ line (reqItems r) = (protoStr (cmdTok r.cmd) ++ ((reqItems r).map Item.render).flatten) ++ bs "\n" := by
    unfold line; simp
  rw [e] at hlen hres
  obtain ⟨g1, g2, junk, g3⟩ := readLine_msg (by
    simp only [List.mem_append, not_or]
    exact ⟨by cases r.cmd <;> decide, (line_clean hok).2⟩) hlen hbuf hres hm
  refine ⟨g1, g2, ?_⟩
  rw [← e] at g3
  unfold recvReq
  have hil := items_length (reqItems r)
  have hl3 := congrArg List.length g3
  simp only [List.length_append, List.length_cons] at hl3
  rw [reqLoop_eq junk r res.buf.length (lexCreate res.buf) q h (by omega) (by omega) (by rw [← g3]; rfl)]
  unfold reqItems
  rw [List.foldl_append, foldl_opts r { q with cmd := some r.cmd } ⟨hq.1, hq.2.1, hq.2.2.1, hq.2.2.2.1, hq.2.2.2.2.1⟩, foldl_cons_items]
  simp [hq.2.2.2.2.2]


/-- C18, for the greeting: the server learns the user and the terminal.  An empty user or terminal name is taken for a missing one. -/
theorem C18_greeting (size : Nat) (user : List UInt8) (tty : Option (List UInt8)) (h0 : 0 < size) (hu : Plain user) (ht : ∀ t ∈ tty, Plain t) :
    ∃ msg, greeting size user tty = some (if msg.length < size then some msg else none) ∧ (msg.length < size →
      ∀ (sched : List Sys) (more buf : List UInt8) (res : LineRes) (m : Nat), size ≤ buf.length →
        readLine sched (msg ++ more) buf size = some res → res.fin = .ret m →
        0 < m ∧ res.rest = more ∧
          recvGreeting res.buf = some { user := if user = [] then none else some user, tty := if tty.getD [] = [] then none else tty }) := by
  refine ⟨_, greeting_eq size user tty h0 hu ht, ?_⟩
  intro hlen sched more buf res m hbuf hres hm
  obtain ⟨g1, g2, junk, g3⟩ := readLine_msg (helloLine_clean hu ht) hlen hbuf hres hm
  refine ⟨g1, g2, ?_⟩
  have hl3 := congrArg List.length g3
  have h5 : (protoStr tokHello).length = 5 := by decide
  unfold helloLine at hl3
  simp only [List.length_append, List.length_cons, h5] at hl3
  obtain ⟨n, hn⟩ : ∃ n, res.buf.length + 1 = n + 3 := ⟨res.buf.length - 2, by omega⟩
  unfold recvGreeting
  rw [hn, greetingLoop_eq junk user tty n (lexCreate res.buf) {} hu ht g3]

/-- C19. A positive response is either given up by the server for being too long, or sent as one line, in which the client finds the
names of the consoles, all of them and in order, and whether a reset is possible (sent with names only). -/
theorem C19_ok (size : Nat) (reset : Bool) (consoles : List (List UInt8)) (h0 : 0 < size) (h : ∀ c ∈ consoles, Plain c) :
    ∃ msg, rspOk size reset consoles = some (if msg.length < size then some msg else none) ∧ (msg.length < size →
      ∀ (sched : List Sys) (more buf : List UInt8) (res : LineRes) (m : Nat), size ≤ buf.length →
        readLine sched (msg ++ more) buf size = some res → res.fin = .ret m →
        0 < m ∧ res.rest = more ∧ recvRsp res.buf = some ({ consoles := consoles, reset := reset && decide (consoles ≠ []) }, true)) := by
  refine ⟨_, rspOk_eq size reset consoles h0 h, ?_⟩
  intro hlen sched more buf res m hbuf hres hm
  have hok := rspItems_ok (reset := reset) h
  have e : protoStr tokOk ++ line (rspItems reset consoles) = (protoStr tokOk ++ ((rspItems reset consoles).map Item.render).flatten) ++ bs "\n" := by
    unfold line; simp
  rw [e] at hlen hres
  obtain ⟨g1, g2, junk, g3⟩ := readLine_msg (by
    simp only [List.mem_append, not_or]
    exact ⟨by decide, (line_clean hok).2⟩) hlen hbuf hres hm
  rw [← e] at g3
  exact ⟨g1, g2, recvRsp_ok junk res.buf reset consoles h g3⟩

/-- C19, C56. A negative response reaches the client with its number and text; without a text, with a standard text. -/
theorem C56_error (size errnum : Nat) (errmsg : Option (List UInt8)) (h0 : 0 < size) (hn : 0 < errnum ∧ errnum ≤ 2147483647)
    (hm : ∀ t ∈ errmsg, Plain t ∧ t ≠ []) :
    ∃ msg, rspErr size errnum errmsg = some (if msg.length < size then some msg else none) ∧ (msg.length < size →
      ∀ (sched : List Sys) (more buf : List UInt8) (res : LineRes) (m : Nat), size ≤ buf.length →
        readLine sched (msg ++ more) buf size = some res → res.fin = .ret m →
        0 < m ∧ res.rest = more ∧ recvRsp res.buf = some ({ errnum := errnum, errmsg := some (errmsg.getD (bs "unspecified error")) }, false)) := by
  have hp : Plain (errmsg.getD (bs "unspecified error")) ∧ errmsg.getD (bs "unspecified error") ≠ [] := by
    cases errmsg with
    | none => exact ⟨plain_default, by decide⟩
    | some t => exact hm t rfl
  refine ⟨_, rspErr_eq size errnum errmsg h0 hp.1, ?_⟩
  intro hlen sched more buf res m hbuf hres hm
  obtain ⟨g1, g2, junk, g3⟩ := readLine_msg (errLine_nl hp.1) hlen hbuf hres hm
  refine ⟨g1, g2, ?_⟩
  rw [recvRsp_err junk res.buf errnum _ hp.1 hn.2 g3, if_neg (by omega), if_neg hp.2]

/-- A name that is too long for the server's buffer: there is no response at all. -/
theorem C19_overlong (size : Nat) (reset : Bool) (consoles : List (List UInt8)) (c : List UInt8) (hc : c ∈ consoles) (hl : 1024 ≤ c.length) :
    rspOk size reset consoles = some none := by
  have : consoles.mapM nameArg = none := by
    induction consoles with
    | nil => simp at hc
    | cons d ds ih =>
      rw [List.mapM_cons]
      rcases List.mem_cons.1 hc with rfl | hc
      · have : nameArg c = none := by unfold nameArg; rw [if_pos]; exact hl
        rw [this]; rfl
      · rw [ih hc]
        cases nameArg d <;> rfl
  unfold rspOk rspPieces
  rw [this]
  rfl

/-- C67. Whatever the client sends, the server's parsers come to an end without leaving the buffer, and the names taken from a request
are 7-bit and at most 1023 bytes long. -/
theorem C67_server_total (buf : List UInt8) (h : (0 : UInt8) ∈ buf) (q : SrvReq) :
    (∃ q', recvGreeting buf = some q') ∧ ∃ q', recvReq buf q = some q' ∧ ∀ c ∈ q'.consoles, c ∈ q.consoles ∨ NameOk c :=
  ⟨greetingLoop_any _ _ _ h (Nat.le_succ _), reqLoop_any _ (lexCreate buf) q h (Nat.le_succ _)⟩

/-- C67, for the client; the full statement is that its parser comes to an end on every response.  It does, except that a number
too large for an `int` is passed to `atoi`, which is undefined. -/
theorem C67_client_total_partial (buf : List UInt8) (h : (0 : UInt8) ∈ buf) (hh : ¬ HugeNumber buf) : ∃ r, recvRsp buf = some r :=
  rspLoop_any _ (lexCreate buf) h (Nat.le_succ _) hh

/-- What is missing in `C67_client_total_partial`: a server can make the client pass any number to `atoi`. -/
theorem C67_client_overflow : recvRsp (bs "ERROR CODE=2147483648 MESSAGE='x'\n" ++ [0]) = none := by decide +kernel

/-- Empty names vanish on the way. -/
theorem C18_empty_names_dropped : request 64 { cmd := .connect, consoles := [[], bs "a"] } = some (some (bs "CONNECT CONSOLE='' CONSOLE='a'\n")) ∧
    recvReq (bs "CONNECT CONSOLE='' CONSOLE='a'\n" ++ [0]) {} = some { cmd := some .connect, consoles := [bs "a"] } := by decide +kernel

/-- A line break in a name cuts the request: the server sees the line up to it, and takes the rest for keystrokes. -/
theorem C18_newline_cuts : request 64 { cmd := .connect, consoles := [bs "a", bs "b\nrm"] } = some (some (bs "CONNECT CONSOLE='a' CONSOLE='b\nrm'\n")) ∧
    (readLine (List.replicate 60 (.upto 1)) (bs "CONNECT CONSOLE='a' CONSOLE='b\nrm'\n") (List.replicate 64 0) 64).map (·.rest) = some (bs "rm'\n") ∧
    recvReq (bs "CONNECT CONSOLE='a' CONSOLE='b\n" ++ [0]) {} = some { cmd := some .connect, consoles := [bs "a"] } := by decide +kernel

/-- A carriage return in a name ends one command and starts another: the last command counts. -/
theorem C18_cr_injects : request 64 { cmd := .query, consoles := [bs "a'\x0dCONNECT"] } = some (some (bs "QUERY CONSOLE='a" ++ [0xA7, 0x0D] ++ bs "CONNECT'\n")) ∧
    recvReq (bs "QUERY CONSOLE='a" ++ [0xA7, 0x0D] ++ bs "CONNECT'\n" ++ [0]) {} = some { cmd := some .connect } := by decide +kernel

example : request 128 { cmd := .connect, quiet := true, force := true, consoles := [bs "it's", bs "b 2"] } =
    some (some (bs "CONNECT OPTION=QUIET OPTION=FORCE CONSOLE='it" ++ [0xA7] ++ bs "s' CONSOLE='b 2'\n")) ∧ Plain (bs "it's") ∧ Plain (bs "b 2") := by decide +kernel

example : readLine (List.replicate 60 (.upto 1)) (bs "QUERY\nrest") (List.replicate 64 1) 64 ≠ none ∧ greeting 64 (bs "me") (some (bs "/dev/pts/1")) =
    some (some (bs "HELLO USER='me' TTY='/dev/pts/1'\n")) := by decide +kernel

example : rspOk 64 true [bs "a", bs "b"] = some (some (bs "OK OPTION=RESET CONSOLE='a' CONSOLE='b'\n")) ∧ rspOk 16 true [bs "a", bs "b"] = some none := by decide +kernel

example : rspErr 64 4 (some (bs "No match")) = some (some (bs "ERROR CODE=4 MESSAGE='No match'\n")) ∧ Plain (bs "No match") := by decide +kernel

example : ¬ HugeNumber (bs "OK\n" ++ [0]) := by
  rintro ⟨a, d, b, e, hd, hn⟩
  have : d = [] := by
    cases d with
    | nil => rfl
    | cons c d =>
      have hc : c ∈ bs "OK\n" ++ [0] := by rw [e]; simp
      have h1 := hd c (by simp)
      have : ∀ c ∈ bs "OK\n" ++ [0], ¬ digit c := by decide
      exact absurd h1 (this c hc)
  subst this
  simp [number] at hn

end Conman
