import Verif.Lemma.Serve
import Verif.Props.ClientExit

/-
The client and the server talk to each other: definitions and lemmas for C86.
-/
namespace Conman
open Spec

/-- The client reads a line from a connection with `inp` on it, `closed` by the server behind it or not; `rest` stays on it.  Reads can be interrupted and cut in any way. -/
def Spec.Reads (closed : Bool) (inp : List UInt8) (a : RspIn) (rest : List UInt8) : Prop :=
  ∃ sched buf res, maxSockLine ≤ buf.length ∧ readLine sched inp buf maxSockLine = some res ∧ res.rest = rest ∧
    ((∃ m s, res.fin = .ret (m + 1) ∧ cstr res.buf = some s ∧ a = .line s) ∨ (res.fin = .ret 0 ∧ closed = true ∧ a = .eof) ∨ ∃ t, res.fin = .err ∧ a = .err t)

/-- A client and a server thread that are connected: each reads what the other has written, and no system call fails. -/
structure Spec.Talk (sw : SrvWorld) (c : ClientConf) (w : CWorld) (o : COutcome) (s : SrvOut sw) : Prop where
  client : clientMain c w = some o
  server : ∃ i : SrvIn, serve sw i o.sent = some s ∧ maxSockLine ≤ i.stk1.length ∧ maxSockLine ≤ i.stk2.length ∧ maxSockLine ≤ i.stk3.length ∧
    Sys.fail ∉ i.sched1 ∧ Sys.fail ∉ i.sched2
  answers : ∃ rest, Reads s.closed s.out w.rsp1 rest ∧ ((¬ ∃ q, AnswersOk w.rsp1 q) → w.tail.flatten = rest) ∧
    ((∃ q, AnswersOk w.rsp1 q) → ∃ rest2, Reads s.closed rest w.rsp2 rest2 ∧ ((¬ ∃ q, AnswersOk w.rsp2 q) → w.tail.flatten = rest2))
  /-- the server got enough to answer -/
  done : s.waiting = false
  fine : w.resolved = true ∧ w.connErr = none ∧ w.send1 = none ∧ w.send2 = none ∧ w.shutErr = none ∧ (∀ t, w.rsp1 ≠ .err t) ∧ (∀ t, w.rsp2 ≠ .err t) ∧
    w.tailErr = false ∧ (c.log ≠ none → w.logFile ≠ none) ∧ 1024 ≤ w.stk.length

/-- The names involved can be sent: of the user, the terminal, the patterns and the consoles; the request fits a line. -/
structure Spec.Sendable (sw : SrvWorld) (c : ClientConf) (w : CWorld) : Prop where
  user : Plain w.user ∧ w.user ≠ []
  tty : ∀ t ∈ w.tty, Plain t ∧ t ≠ []
  pats : ∀ p ∈ c.consoles, Plain p ∧ p ≠ []
  any : c.cmd = .query ∨ c.consoles ≠ []
  fits : ∃ q, request maxSockLine c.req = some (some q)
  cons : ∀ n ∈ sw.cons, Plain n.name ∧ n.name ≠ [] ∧ n.name.length ≤ 1022

/-! ### Reading -/

theorem plain_nz {s : List UInt8} (h : Plain s) : (0 : UInt8) ∉ s := fun g => absurd (h.1 0 g).1 (by decide)

theorem reads_line {closed : Bool} {b more : List UInt8} {a : RspIn} {rest : List UInt8} (hn : (0x0A : UInt8) ∉ b) (hz : (0 : UInt8) ∉ b)
    (hl : (b ++ bs "\n").length < maxSockLine) (h : Reads closed (b ++ bs "\n" ++ more) a rest) (he : ∀ t, a ≠ .err t) : a = .line (b ++ bs "\n") ∧ rest = more := by
  obtain ⟨sched, buf, res, h1, h2, h3, h4⟩ := h
  rcases h4 with ⟨m, s, g1, g2, g3⟩ | ⟨g1, -, g3⟩ | ⟨t, -, g3⟩
  · obtain ⟨-, f2, junk, f3⟩ := readLine_msg hn hl h1 h2 g1
    refine ⟨?_, by rw [← h3, f2]⟩
    have : cstr res.buf = some (b ++ bs "\n") := by
      rw [f3, cstr_iff]
      refine ⟨?_, junk, rfl⟩
      rw [List.mem_append, not_or]; exact ⟨hz, by decide⟩
    rw [this] at g2; cases g2; exact g3
  · obtain ⟨f1, -⟩ := readLine_msg hn hl h1 h2 g1
    exact absurd f1 (by omega)
  · exact absurd g3 (he t)

theorem reads_nil {closed : Bool} {a : RspIn} {rest : List UInt8} (h : Reads closed [] a rest) (he : ∀ t, a ≠ .err t) : a = .eof ∧ closed = true ∧ rest = [] := by
  obtain ⟨sched, buf, res, h1, h2, h3, h4⟩ := h
  obtain ⟨r, f1, -, -, f4, -⟩ := C26_read_line sched [] buf maxSockLine (by rw [msl]; omega) h1
  rw [h2] at f1; cases f1
  rcases h4 with ⟨m, s, g1, g2, g3⟩ | ⟨g1, g2, g3⟩ | ⟨t, -, g3⟩
  · obtain ⟨k1, -⟩ := f4 _ g1
    have : firstLine ([] : List UInt8) = [] := rfl
    rw [this] at k1; simp at k1
  · obtain ⟨-, k2, -⟩ := f4 _ g1
    exact ⟨g3, g2, by rw [← h3, k2]; rfl⟩
  · exact absurd g3 (he t)

/-! ### The server -/

theorem srvRead {sched : List Sys} {inp stk : List UInt8} {size : Nat} {r : LineRes} (h2 : 2 ≤ size) (hs : size ≤ stk.length) (hf : Sys.fail ∉ sched)
    (h : readLine sched inp stk size = some r) : r.fin = .blocked ∨ ∃ m, r.fin = .ret m := by
  obtain ⟨r', f1, -, -, -, f5, -⟩ := C26_read_line sched inp stk size h2 hs
  rw [h] at f1; cases f1
  cases hr : r.fin with
  | ret m => exact Or.inr ⟨m, rfl⟩
  | err => exact absurd (f5 hr) hf
  | blocked => exact Or.inl rfl

theorem rspOk_hello : rspOk maxSockLine false [] = some (some (bs "OK\n")) := by
  rw [rspOk_eq maxSockLine false [] (by decide) (by simp)]
  have : protoStr tokOk ++ line (rspItems false []) = bs "OK\n" := by decide
  rw [this, if_pos (by rw [msl]; decide)]

theorem helloLine_len {user : List UInt8} {tty : Option (List UInt8)} (hu : Plain user) (ht : ∀ t ∈ tty, Plain t) : (helloLine user tty ++ bs "\n").length < maxSockLine := by
  have hm := msl
  have he : ∀ t s, (strArg t s).length = 4 + (protoStr t).length + s.length := by
    intro t s
    unfold strArg lexEncode
    simp only [List.length_append, List.length_map]
    have h1 : (bs " ").length = 1 := by decide
    have h2 : (bs "='").length = 2 := by decide
    have h3 : (bs "'").length = 1 := by decide
    omega
  have h1 : (protoStr tokHello).length = 5 := by decide
  have h2 : (protoStr tokUser).length = 4 := by decide
  have h3 : (protoStr tokTty).length = 3 := by decide
  have h4 : (bs "\n").length = 1 := by decide
  have := hu.2
  unfold helloLine
  cases tty with
  | none => simp only [List.length_append, Option.toList_none, List.map_nil, List.flatten_nil, List.length_nil, he]; omega
  | some t =>
    have := (ht t rfl).2
    simp only [List.length_append, Option.toList_some, List.map_cons, List.map_nil, List.flatten_cons, List.flatten_nil, List.append_nil, he]; omega

theorem serve_greet {sw : SrvWorld} {i : SrvIn} {user : List UInt8} {tty : Option (List UInt8)} {more : List UInt8} {s : SrvOut sw} (ha : sw.allowed = true)
    (hu : Plain user ∧ user ≠ []) (ht : ∀ t ∈ tty, Plain t ∧ t ≠ []) (hs : maxSockLine ≤ i.stk1.length) (hf : Sys.fail ∉ i.sched1)
    (h : serve sw i (helloLine user tty ++ bs "\n" ++ more) = some s) (hw : s.waiting = false) :
    srvRequest sw i { user := some user, tty := tty } (bs "OK\n") more = some s := by
  have hm := msl
  have ht' : ∀ t ∈ tty, Plain t := fun t h => (ht t h).1
  unfold serve at h
  rw [if_neg (by rw [ha]; decide)] at h
  obtain ⟨r, hr, h⟩ := Option.bind_eq_some_iff.1 h
  have hlen : maxSockLine ≤ (i.stk1.take maxSockLine).length := by rw [List.length_take]; omega
  obtain ⟨msg, e1, e2⟩ := C18_greeting maxSockLine user tty (by omega) hu.1 ht'
  rw [greeting_eq maxSockLine user tty (by omega) hu.1 ht', if_pos (helloLine_len hu.1 ht')] at e1
  have hmsg : msg = helloLine user tty ++ bs "\n" ∧ msg.length < maxSockLine := by
    split at e1
    · rename_i hl; exact ⟨by simpa using e1.symm, hl⟩
    · simp at e1
  rcases srvRead (by omega) hlen hf hr with hb | ⟨m, hb⟩
  · rw [hb] at h; cases h; simp at hw
  · obtain ⟨f1, f2, f3⟩ := e2 hmsg.2 i.sched1 more (i.stk1.take maxSockLine) r m hlen (by rw [hmsg.1]; exact hr) hb
    rw [hb] at h
    cases m with
    | zero => omega
    | succ m =>
      dsimp only at h
      rw [f3, Option.bind_some, if_neg hu.2] at h
      dsimp only at h
      rw [rspOk_hello, Option.bind_some] at h
      dsimp only at h
      rw [f2] at h
      have : (if tty.getD [] = [] then none else tty) = tty := by
        cases tty with
        | none => rfl
        | some t => rw [if_neg]; exact (ht t rfl).2
      rw [this] at h
      exact h

theorem srvRequest_out {sw : SrvWorld} {i : SrvIn} {q : SrvReq} {sent inp : List UInt8} {s : SrvOut sw} (h : srvRequest sw i q sent inp = some s) :
    ∃ x, s.out = sent ++ x := by
  unfold srvRequest at h
  obtain ⟨r, -, h⟩ := Option.bind_eq_some_iff.1 h
  split at h
  · cases h; exact ⟨[], by simp⟩
  · cases h; exact ⟨[], by simp⟩
  · cases h; exact ⟨[], by simp⟩
  · obtain ⟨q', -, h⟩ := Option.bind_eq_some_iff.1 h
    obtain ⟨a, -, rfl⟩ := Option.map_eq_some_iff.1 h
    exact ⟨a.out, rfl⟩

/-- The request as the server has it. -/
def srvReqOf (c : ClientConf) (w : CWorld) : SrvReq :=
  { user := some w.user, tty := w.tty, cmd := some c.cmd, quiet := c.quiet, regex := c.regex, force := c.force && (c.cmd = .connect), join := c.join && (c.cmd = .connect),
    bcast := c.bcast && (c.cmd = .connect), consoles := c.consoles }

theorem serve_request {sw : SrvWorld} {i : SrvIn} {c : ClientConf} {w : CWorld} {msg more sent : List UInt8} {s : SrvOut sw}
    (hp : ∀ p ∈ c.consoles, Plain p ∧ p ≠ []) (hq : request maxSockLine c.req = some (some msg)) (hs : maxSockLine ≤ i.stk2.length) (hf : Sys.fail ∉ i.sched2)
    (h : srvRequest sw i { user := some w.user, tty := w.tty } sent (msg ++ more) = some s) (hw : s.waiting = false) :
    ∃ a, srvAnswer sw i.stk3 (srvReqOf c w) = some a ∧ s = { a with out := sent ++ a.out } := by
  have hm := msl
  unfold srvRequest at h
  obtain ⟨r, hr, h⟩ := Option.bind_eq_some_iff.1 h
  have hlen : maxSockLine ≤ (i.stk2.take maxSockLine).length := by rw [List.length_take]; omega
  obtain ⟨msg', e1, e2⟩ := C18_request maxSockLine c.req (by omega) (fun p h => (hp p h).1)
  rw [hq] at e1
  have hmsg : msg = msg' ∧ msg'.length < maxSockLine := by
    split at e1
    · rename_i hl; exact ⟨by simpa using e1, hl⟩
    · simp at e1
  rcases srvRead (by omega) hlen hf hr with hb | ⟨m, hb⟩
  · rw [hb] at h; cases h; simp at hw
  · obtain ⟨f1, f2, f3⟩ := e2 hmsg.2 i.sched2 more (i.stk2.take maxSockLine) r m { user := some w.user, tty := w.tty } hlen (by rw [← hmsg.1]; exact hr) hb
      ⟨rfl, rfl, rfl, rfl, rfl, rfl⟩
    rw [hb] at h
    cases m with
    | zero => omega
    | succ m =>
      dsimp only at h
      rw [f3, Option.bind_some] at h
      have : c.req.consoles.filter (· ≠ []) = c.consoles := by
        show c.consoles.filter (· ≠ []) = c.consoles
        rw [List.filter_eq_self]
        intro p hp'
        simpa using (hp p hp').2
      rw [this] at h
      obtain ⟨a, ha, rfl⟩ := Option.map_eq_some_iff.1 h
      exact ⟨a, ha, rfl⟩

/-! ### The client -/

theorem error_sent (c : ClientConf) (w : CWorld) (log : Option (List UInt8)) (sent : List UInt8) (sd : Bool) (n : Int) (m : Option (List UInt8)) :
    (displayError c w log sent sd n m).sent = sent := (failed_error c w log sent sd n m).2

theorem req_sent {c : ClientConf} {w : CWorld} {log : Option (List UInt8)} {sent host : List UInt8} {r1 : CliRsp} {o : COutcome}
    (h : clientReq c w log sent host r1 = some o) : sent <+: o.sent := by
  unfold clientReq at h
  obtain ⟨q, -, h⟩ := Option.bind_eq_some_iff.1 h
  split at h
  · cases h; rw [error_sent]; exact List.prefix_rfl
  · cases h; rw [error_sent]; exact List.prefix_rfl
  · rename_i q
    split at h
    · cases h; rw [error_sent]; exact List.prefix_append _ _
    · obtain ⟨r, -, h⟩ := Option.bind_eq_some_iff.1 h
      split at h
      · cases h; rw [error_sent]; exact List.prefix_append _ _
      · exact (List.prefix_append _ _).trans (end_sent h)

/-- The last stage of the client. -/
def clientLast (c : ClientConf) (w : CWorld) (log : Option (List UInt8)) (sent : List UInt8) : Option COutcome :=
  (clientRsp (clientHost c w) c.port w.rsp2).bind fun r =>
  if r.2 = false then some (displayError c w log sent true r.1.errnum r.1.errmsg) else clientEnd c w log sent (clientHost c w) r.1.consoles r.1.reset

theorem last_sent {c : ClientConf} {w : CWorld} {log : Option (List UInt8)} {sent : List UInt8} {o : COutcome}
    (h : clientLast c w log sent = some o) : sent <+: o.sent := by
  unfold clientLast at h
  obtain ⟨r, -, h⟩ := Option.bind_eq_some_iff.1 h
  split at h
  · cases h; rw [error_sent]; exact List.prefix_rfl
  · exact end_sent h

theorem recv_hello : recvRsp (bs "OK\n" ++ [0]) = some ({}, true) := by
  have := recvRsp_ok [] (bs "OK\n" ++ [0]) false [] (by simp) (by decide)
  rw [this]; rfl

/-- Up to the answer to the request; what was sent until then. -/
theorem talk_sent {sw : SrvWorld} {c : ClientConf} {w : CWorld} {o : COutcome} {s : SrvOut sw} (t : Talk sw c w o s) (hs : Sendable sw c w) (ha : sw.allowed = true) :
    ∃ (stk : List UInt8) (log : Option (List UInt8)) (sent : List UInt8) (a : SrvOut sw) (rest : List UInt8), maxSockLine ≤ stk.length ∧
      srvAnswer sw stk (srvReqOf c w) = some a ∧ s.session = a.session ∧ s.closed = a.closed ∧ s.out = bs "OK\n" ++ a.out ∧ Reads a.closed a.out w.rsp2 rest ∧
      ((¬ ∃ q, AnswersOk w.rsp2 q) → w.tail.flatten = rest) ∧ clientLast c w log sent = some o ∧
      ∃ q, request maxSockLine c.req = some (some q) ∧ sent = helloLine w.user w.tty ++ bs "\n" ++ q := by
  obtain ⟨i, hserve, hs1, hs2, hs3, hf1, hf2⟩ := t.server
  obtain ⟨w1, w2, w3, w4, w5, w6, w7, w8, w9, w10⟩ := t.fine
  have ht' : ∀ x ∈ w.tty, Plain x := fun x h => (hs.tty x h).1
  have hg : greeting maxSockLine w.user w.tty = some (some (helloLine w.user w.tty ++ bs "\n")) := by
    rw [greeting_eq maxSockLine w.user w.tty (by rw [msl]; omega) hs.user.1 ht', if_pos (helloLine_len hs.user.1 ht')]
  obtain ⟨log, hc⟩ : ∃ log, clientConnect c w log = some o := by
    have := t.client
    unfold clientMain at this
    cases hl : c.log with
    | none => rw [hl] at this; exact ⟨_, this⟩
    | some n =>
      rw [hl] at this
      cases hf : w.logFile with
      | none => exact absurd hf (w9 (by rw [hl]; simp))
      | some old => rw [hf] at this; exact ⟨_, this⟩
  unfold clientConnect at hc
  rw [if_neg (by rw [w1]; decide), w2] at hc
  dsimp only at hc
  unfold clientGreet at hc
  rw [hg, Option.bind_some, w3] at hc
  dsimp only at hc
  have hpre : (helloLine w.user w.tty ++ bs "\n") <+: o.sent := by
    obtain ⟨r, -, h⟩ := Option.bind_eq_some_iff.1 hc
    split at h
    · cases h; rw [error_sent]; exact List.prefix_rfl
    · exact req_sent h
  obtain ⟨more, hmore⟩ := hpre
  rw [← hmore] at hserve
  have hreq := serve_greet ha hs.user hs.tty hs1 hf1 hserve t.done
  obtain ⟨x, hx⟩ := srvRequest_out hreq
  obtain ⟨rest1, hr1, -, hr3⟩ := t.answers
  rw [hx, show bs "OK\n" = bs "OK" ++ bs "\n" by decide] at hr1
  obtain ⟨hl1, hrest⟩ := reads_line (by decide) (by decide) (by rw [msl]; decide) hr1 w6
  rw [show bs "OK" ++ bs "\n" = bs "OK\n" by decide] at hl1
  have hok : AnswersOk w.rsp1 {} := ⟨_, hl1, recv_hello⟩
  obtain ⟨rest2, hr2, hr2'⟩ := hr3 ⟨_, hok⟩
  rw [clientRsp_ok.2 hok, Option.bind_some] at hc
  rw [if_neg (by decide)] at hc
  obtain ⟨q, hq⟩ := hs.fits
  have hc' : clientLast c w log (helloLine w.user w.tty ++ bs "\n" ++ q) = some o := by
    unfold clientReq at hc
    rw [show ({ c.req with consoles := c.consoles ++ ({} : CliRsp).consoles } : ReqMsg) = c.req by
      show ({ c.req with consoles := c.consoles ++ [] } : ReqMsg) = c.req
      rw [List.append_nil]; rfl, hq, Option.bind_some, w4] at hc
    dsimp only at hc
    have hsh : (if c.cmd = .query then w.shutErr else none) = none := by rw [w5]; split <;> rfl
    rw [hsh] at hc
    dsimp only at hc
    simpa [clientLast] using hc
  obtain ⟨more2, hmore2⟩ := last_sent hc'
  have hmm : more = q ++ more2 := by
    rw [← hmore, List.append_assoc] at hmore2
    exact (List.append_cancel_left hmore2).symm
  rw [hmm] at hreq
  obtain ⟨a, ha1, ha2⟩ := serve_request hs.pats hq hs2 hf2 hreq t.done
  have hxa : x = a.out := by
    rw [ha2] at hx
    exact (List.append_cancel_left hx).symm
  refine ⟨i.stk3, log, _, a, rest2, hs3, ha1, by rw [ha2], by rw [ha2], by rw [ha2], ?_, hr2', hc', q, hq, rfl⟩
  rw [hrest, hxa, ha2] at hr2
  exact hr2

/-- Up to the answer to the request. -/
theorem talk_main {sw : SrvWorld} {c : ClientConf} {w : CWorld} {o : COutcome} {s : SrvOut sw} (t : Talk sw c w o s) (hs : Sendable sw c w) (ha : sw.allowed = true) :
    ∃ (stk : List UInt8) (log : Option (List UInt8)) (sent : List UInt8) (a : SrvOut sw) (rest : List UInt8), maxSockLine ≤ stk.length ∧
      srvAnswer sw stk (srvReqOf c w) = some a ∧ s.session = a.session ∧ s.closed = a.closed ∧ s.out = bs "OK\n" ++ a.out ∧ Reads a.closed a.out w.rsp2 rest ∧
      ((¬ ∃ q, AnswersOk w.rsp2 q) → w.tail.flatten = rest) ∧ clientLast c w log sent = some o := by
  obtain ⟨stk, log, sent, a, rest, h1, h2, h3, h4, h5, h6, h7, h8, -⟩ := talk_sent t hs ha
  exact ⟨stk, log, sent, a, rest, h1, h2, h3, h4, h5, h6, h7, h8⟩

end Conman
