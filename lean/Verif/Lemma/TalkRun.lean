import Verif.Lemma.TalkAns

/-
Every request gets its answer: lemmas for C86.
-/
namespace Conman
open Spec

/-- Enough reads. -/
def patient (n : Nat) : List Sys := List.replicate n (.upto 1)

theorem patient_fine (n : Nat) : Sys.fail ∉ patient n ∧ ((patient n).filter (· ≠ .intr)).length = n := by
  refine ⟨fun h => ?_, ?_⟩
  · have := (List.mem_replicate.1 h).2
    cases this
  · unfold patient
    rw [List.filter_replicate_of_pos (by decide), List.length_replicate]

theorem patient_reads (inp buf : List UInt8) (hl : maxSockLine ≤ buf.length) : ∃ r m, readLine (patient (inp.length + 1)) inp buf maxSockLine = some r ∧ r.fin = .ret m := by
  obtain ⟨p1, p2⟩ := patient_fine (inp.length + 1)
  obtain ⟨r, h1, -, -, -, -, h6⟩ := C26_read_line (patient (inp.length + 1)) inp buf maxSockLine (by rw [msl]; omega) hl
  obtain ⟨m, hm⟩ := h6 p1 (by rw [p2]; omega)
  exact ⟨r, m, h1, hm⟩

theorem reads_ok {closed : Bool} {b : List UInt8} (more : List UInt8) (hn : (0x0A : UInt8) ∉ b) (hz : (0 : UInt8) ∉ b) (hl : (b ++ bs "\n").length < maxSockLine) :
    Reads closed (b ++ bs "\n" ++ more) (.line (b ++ bs "\n")) more := by
  have hr : maxSockLine ≤ (List.replicate maxSockLine (0 : UInt8)).length := by rw [List.length_replicate]; exact Nat.le_refl _
  obtain ⟨r, m, h1, h2⟩ := patient_reads (b ++ bs "\n" ++ more) _ hr
  obtain ⟨f1, f2, junk, f3⟩ := readLine_msg hn hl hr h1 h2
  refine ⟨_, _, r, hr, h1, f2, Or.inl ⟨m - 1, b ++ bs "\n", by rw [h2]; congr 1; omega, ?_, rfl⟩⟩
  rw [f3, cstr_iff]
  refine ⟨?_, junk, rfl⟩
  rw [List.mem_append, not_or]; exact ⟨hz, by decide⟩

theorem reads_end : Reads true [] .eof [] := by
  have hr : maxSockLine ≤ (List.replicate maxSockLine (0 : UInt8)).length := by rw [List.length_replicate]; exact Nat.le_refl _
  obtain ⟨r, m, h1, h2⟩ := patient_reads [] _ hr
  obtain ⟨r', f1, -, -, f4, -⟩ := C26_read_line (patient 1) [] (List.replicate maxSockLine (0 : UInt8)) maxSockLine (by rw [msl]; omega) hr
  have : some r = some r' := by rw [← h1, ← f1]; rfl
  cases this
  obtain ⟨k1, k2, -⟩ := f4 m h2
  have hm : m = 0 := by rw [k1]; rfl
  exact ⟨_, _, r, hr, h1, by rw [k2]; simp, Or.inr (Or.inl ⟨by rw [h2, hm], rfl, rfl⟩)⟩

/-- The client, up to the answer to its request. -/
theorem client_reduce {sw : SrvWorld} {c : ClientConf} {w : CWorld} (hs : Sendable sw c w) (h1 : w.resolved = true) (h2 : w.connErr = none) (h3 : w.send1 = none)
    (h4 : w.send2 = none) (h5 : w.shutErr = none) (h6 : c.log ≠ none → w.logFile ≠ none) (h7 : w.rsp1 = .line (bs "OK\n")) :
    ∃ log q, request maxSockLine c.req = some (some q) ∧ clientMain c w = clientLast c w log (helloLine w.user w.tty ++ bs "\n" ++ q) := by
  have ht' : ∀ x ∈ w.tty, Plain x := fun x h => (hs.tty x h).1
  have hg : greeting maxSockLine w.user w.tty = some (some (helloLine w.user w.tty ++ bs "\n")) := by
    rw [greeting_eq maxSockLine w.user w.tty (by rw [msl]; omega) hs.user.1 ht', if_pos (helloLine_len hs.user.1 ht')]
  obtain ⟨log, hc⟩ : ∃ log, clientMain c w = clientConnect c w log := by
    unfold clientMain
    cases hl : c.log with
    | none => exact ⟨_, rfl⟩
    | some n =>
      cases hf : w.logFile with
      | none => exact absurd hf (h6 (by rw [hl]; simp))
      | some old => exact ⟨_, rfl⟩
  obtain ⟨q, hq⟩ := hs.fits
  refine ⟨log, q, hq, ?_⟩
  have hok : AnswersOk w.rsp1 {} := ⟨_, h7, recv_hello⟩
  rw [hc]
  unfold clientConnect
  rw [if_neg (by rw [h1]; decide), h2]
  dsimp only
  unfold clientGreet
  rw [hg, Option.bind_some, h3]
  dsimp only
  rw [clientRsp_ok.2 hok, Option.bind_some, if_neg (by decide)]
  unfold clientReq
  rw [show ({ c.req with consoles := c.consoles ++ ({} : CliRsp).consoles } : ReqMsg) = c.req by
    show ({ c.req with consoles := c.consoles ++ [] } : ReqMsg) = c.req
    rw [List.append_nil]; rfl, hq, Option.bind_some, h4]
  dsimp only
  have hsh : (if c.cmd = .query then w.shutErr else none) = none := by rw [h5]; split <;> rfl
  rw [hsh]
  dsimp only
  simp [clientLast]

theorem recv_refused {n : Nat} {msg : List UInt8} (hn : 1 < n ∧ n < 10) (hm : Plain msg ∧ msg ≠ []) :
    recvRsp (errLine n msg ++ bs "\n" ++ [0]) = some ({ errnum := n, errmsg := some msg }, false) := by
  have := recvRsp_err [] (errLine n msg ++ bs "\n" ++ [0]) n msg hm.1 (by omega) rfl
  rw [if_neg (by omega), if_neg hm.2] at this
  exact this

/-- An answer as a line with what follows it, or none. -/
def Answerable {sw : SrvWorld} (a : SrvOut sw) : Prop :=
  a.waiting = false ∧ ((a.out = [] ∧ a.closed = true) ∨
    ∃ b lines r, a.out = b ++ bs "\n" ++ lines ∧ (0x0A : UInt8) ∉ b ∧ (0 : UInt8) ∉ b ∧ (b ++ bs "\n").length < maxSockLine ∧ recvRsp (b ++ bs "\n" ++ [0]) = some r ∧
      (r.2 = true → lines = []) ∧ (r.2 = false → r.1.errnum ≠ 1))

theorem answerable_error {sw : SrvWorld} {n : Nat} {msg lines : List UInt8} (hn : 1 < n ∧ n < 10) (hm : Plain msg ∧ msg ≠ []) :
    Answerable ({ out := errLine n msg ++ bs "\n" ++ lines } : SrvOut sw) := by
  refine ⟨rfl, Or.inr ⟨_, lines, _, rfl, errLine_nl hm.1, errLine_nz hm.1, (srvErr_eq hn.2 hm.1).2, recv_refused hn hm, fun h => by simp at h, fun _ => ?_⟩⟩
  dsimp only
  omega

theorem found_plain {n : Nat} (hn : n < 2147483648) :
    (Plain (bs "Found " ++ dec n ++ bs " matching consoles") ∧ bs "Found " ++ dec n ++ bs " matching consoles" ≠ []) ∧ Plain (busyMsg n) ∧ busyMsg n ≠ [] := by
  refine ⟨⟨(plain_count hn).1, ?_⟩, (plain_count hn).2, ?_⟩
  · rw [show bs "Found " = [0x46, 0x6F, 0x75, 0x6E, 0x64, 0x20] by decide]
    simp
  · unfold busyMsg
    split
    · decide
    · rw [show bs "Found " = [0x46, 0x6F, 0x75, 0x6E, 0x64, 0x20] by decide]
      simp

theorem answer_exists {sw : SrvWorld} {c : ClientConf} {w : CWorld} (hs : Sendable sw c w) {stk : List UInt8} (hl : maxSockLine ≤ stk.length) (hc : sw.cons.length < 2147483648)
    (hz : ∀ x ∈ sw.cons, ∀ y ∈ x.writers, (0 : UInt8) ∉ inUse x y) (hr : ∀ p, sw.rex p = none → Plain (sw.rexErr p) ∧ sw.rexErr p ≠ []) :
    ∃ a, srvAnswer sw stk (srvReqOf c w) = some a ∧ Answerable a := by
  rcases answer_query hs hl with ⟨-, g2, g3⟩ | ⟨-, ns, g1, g2, g3⟩
  · have hm := hr _ g2
    rw [List.take_of_length_le (by have := hm.1.2; rw [msl]; omega)] at g3
    refine ⟨{ out := errLine 3 _ ++ bs "\n" ++ [] }, ?_, answerable_error (n := 3) (by omega) hm⟩
    unfold srvAnswer
    rw [g3, Option.bind_some]
    dsimp only
    rw [(srvErr_eq (by omega) hm.1).1, Option.map_some, List.append_nil]
  · obtain ⟨hp, hlen, hpl⟩ := perm_facts hs g1
    have hle := selection_le sw c.regex c.consoles
    have hv : (∃ n msg lines, (1 < n ∧ n < 10) ∧ (Plain msg ∧ msg ≠ []) ∧ srvValidate sw stk (srvReqSel c w ns.length) ns = some (some (errLine n msg ++ bs "\n" ++ lines))) ∨
        (ns ≠ [] ∧ srvValidate sw stk (srvReqSel c w ns.length) ns = some none) := by
      unfold srvValidate
      by_cases h0 : ns = []
      · rw [if_pos h0]
        have hm : Plain (bs "Found no matching consoles") ∧ bs "Found no matching consoles" ≠ [] := by decide
        exact Or.inl ⟨5, _, [], by omega, hm, by rw [(srvErr_eq (by omega) hm.1).1, Option.map_some, List.append_nil]⟩
      rw [if_neg h0]
      by_cases h1 : srvTooMany (srvReqSel c w ns.length) ns.length = true
      · rw [if_pos h1]
        have hm := (found_plain (n := ns.length) (by omega)).1
        refine Or.inl ⟨6, _, (ns.map fun i => sw.name i ++ bs "\n").flatten, by omega, hm, ?_⟩
        rw [(srvErr_eq (by omega) hm.1).1, Option.bind_some,
          mapM_some (g := fun i => sw.name i ++ bs "\n") (fun i hi => by
            obtain ⟨k1, k2⟩ := hpl _ (List.mem_map_of_mem hi)
            exact nameLine_eq hl (plain_nz k1) (by omega)), Option.map_some]
      rw [if_neg h1]
      by_cases h2 : srvBusy sw (srvReqSel c w ns.length) ns ≠ []
      · rw [if_pos h2]
        have hb : (srvBusy sw (srvReqSel c w ns.length) ns).length ≤ ns.length := by
          unfold srvBusy
          split
          · simp
          · split
            · simp
            · exact List.length_filter_le ..
        have hm := (found_plain (n := (srvBusy sw (srvReqSel c w ns.length) ns).length) (by omega)).2
        have hmm := mapM_some (l := srvBusy sw (srvReqSel c w ns.length) ns) (f := fun (i : sw.Con) => sw.cons[i].writers.mapM fun w => busyLine stk sw.cons[i] w)
          (fun i hi => mapM_some fun y hy => busyLine_eq hl (hz _ (List.getElem_mem ..) y hy))
        refine Or.inl ⟨7, _, List.flatten (List.flatten ?_), by omega, hm, ?_⟩
        · exact (srvBusy sw (srvReqSel c w ns.length) ns).map fun (i : sw.Con) => sw.cons[i].writers.map fun w =>
            if (inUse sw.cons[i] w).length < 1022 then inUse sw.cons[i] w else (inUse sw.cons[i] w).take 1022 ++ bs "\n"
        · rw [(srvErr_eq (by omega) hm.1).1, Option.bind_some, hmm, Option.map_some]
      · rw [if_neg h2]; exact Or.inr ⟨h0, rfl⟩
    have e : srvAnswer sw stk (srvReqOf c w) = (srvValidate sw stk (srvReqSel c w ns.length) ns).bind fun
        | some m => some { out := m }
        | none => (rspOk maxSockLine sw.resetCmd (ns.map sw.name)).map fun
          | none => {}
          | some m => if c.cmd = .query then { out := m } else { out := m, closed := false, session := some ⟨c.cmd, (srvReqSel c w ns.length).user, (srvReqSel c w ns.length).tty, (srvReqSel c w ns.length).quiet, (srvReqSel c w ns.length).force, (srvReqSel c w ns.length).join, (srvReqSel c w ns.length).bcast, ns⟩ } := by
      unfold srvAnswer
      rw [g2, Option.bind_some]
      dsimp only
      rw [show (if ns.length = 1 then { srvReqOf c w with bcast := false } else srvReqOf c w : SrvReq) = srvReqSel c w ns.length from rfl]
      cases srvValidate sw stk (srvReqSel c w ns.length) ns with
      | none => rfl
      | some x =>
        cases x with
        | some m => rfl
        | none =>
          rw [Option.bind_some, Option.bind_some]
          dsimp only
          rw [(reqSel c w ns.length).1]
          dsimp only
          cases rspOk maxSockLine sw.resetCmd (ns.map sw.name) with
          | none => rfl
          | some y => cases y <;> rfl
    rcases hv with ⟨n, msg, lines, hn, hm, hv⟩ | ⟨h0, hv⟩
    · exact ⟨_, by rw [e, hv, Option.bind_some], answerable_error hn hm⟩
    · have hn1 : ns.map sw.name ≠ [] := by simpa using h0
      have hpn : ∀ n ∈ ns.map sw.name, Plain n := fun n hn => (hpl n hn).1
      rw [hv, Option.bind_some] at e
      dsimp only at e
      rw [rspOk_cases hpn hn1, Option.map_some] at e
      by_cases hsz : answerSize sw.resetCmd (ns.map sw.name) < maxSockLine
      · rw [if_pos hsz] at e
        dsimp only at e
        have hok := rspItems_ok (reset := sw.resetCmd) hpn
        have e' : protoStr tokOk ++ line (rspItems sw.resetCmd (ns.map sw.name)) =
            (protoStr tokOk ++ ((rspItems sw.resetCmd (ns.map sw.name)).map Item.render).flatten) ++ bs "\n" := by
          unfold line; simp
        have hlen2 := answer_size sw.resetCmd _ hn1
        have hrecv := recvRsp_ok [] (protoStr tokOk ++ line (rspItems sw.resetCmd (ns.map sw.name)) ++ [0]) sw.resetCmd _ hpn rfl
        refine ⟨_, e, ?_⟩
        have key : ∀ a : SrvOut sw, a.waiting = false → a.out = protoStr tokOk ++ line (rspItems sw.resetCmd (ns.map sw.name)) → Answerable a := by
          intro a a1 a2
          refine ⟨a1, Or.inr ⟨_, [], _, by rw [a2, e', List.append_nil], ?_, ?_, by rw [← e']; omega, by rw [← e']; exact hrecv, fun _ => rfl, fun h => by simp at h⟩⟩
          · simp only [List.mem_append, not_or]
            exact ⟨by decide, (line_clean hok).2⟩
          · simp only [List.mem_append, not_or]
            exact ⟨by decide, (line_clean hok).1⟩
        split
        · exact key _ rfl rfl
        · exact key _ rfl rfl
      · rw [if_neg hsz] at e
        exact ⟨_, e, rfl, Or.inl ⟨rfl, rfl⟩⟩

/-- The server, with what a client sends. -/
theorem serve_runs {sw : SrvWorld} {c : ClientConf} {w : CWorld} (hs : Sendable sw c w) (ha : sw.allowed = true) {q more stk : List UInt8} {a : SrvOut sw}
    (hq : request maxSockLine c.req = some (some q)) (hl : maxSockLine ≤ stk.length) (h : srvAnswer sw stk (srvReqOf c w) = some a) :
    ∃ i : SrvIn, serve sw i (helloLine w.user w.tty ++ bs "\n" ++ (q ++ more)) = some { a with out := bs "OK\n" ++ a.out } ∧ maxSockLine ≤ i.stk1.length ∧ maxSockLine ≤ i.stk2.length ∧
      maxSockLine ≤ i.stk3.length ∧ Sys.fail ∉ i.sched1 ∧ Sys.fail ∉ i.sched2 := by
  have hm := msl
  have ht' : ∀ t ∈ w.tty, Plain t := fun t h => (hs.tty t h).1
  have htk : maxSockLine ≤ (stk.take maxSockLine).length := by rw [List.length_take]; omega
  refine ⟨{ sched1 := patient ((helloLine w.user w.tty ++ bs "\n" ++ (q ++ more)).length + 1), sched2 := patient ((q ++ more).length + 1), stk1 := stk, stk2 := stk, stk3 := stk }, ?_, hl, hl, hl,
    (patient_fine _).1, (patient_fine _).1⟩
  obtain ⟨r, m, hr, hb⟩ := patient_reads (helloLine w.user w.tty ++ bs "\n" ++ (q ++ more)) (stk.take maxSockLine) htk
  obtain ⟨r2, m2, hr2, hb2⟩ := patient_reads (q ++ more) (stk.take maxSockLine) htk
  obtain ⟨msg, e1, e2⟩ := C18_greeting maxSockLine w.user w.tty (by omega) hs.user.1 ht'
  rw [greeting_eq maxSockLine w.user w.tty (by omega) hs.user.1 ht', if_pos (helloLine_len hs.user.1 ht')] at e1
  have hmsg : msg = helloLine w.user w.tty ++ bs "\n" ∧ msg.length < maxSockLine := by
    split at e1
    · rename_i hl; exact ⟨by simpa using e1.symm, hl⟩
    · simp at e1
  obtain ⟨f1, f2, f3⟩ := e2 hmsg.2 _ (q ++ more) _ r m htk (by rw [hmsg.1]; exact hr) hb
  obtain ⟨msg2, k1, k2⟩ := C18_request maxSockLine c.req (by omega) (fun p h => (hs.pats p h).1)
  rw [hq] at k1
  have hmsg2 : q = msg2 ∧ msg2.length < maxSockLine := by
    split at k1
    · rename_i hl; exact ⟨by simpa using k1, hl⟩
    · simp at k1
  obtain ⟨l1, l2, l3⟩ := k2 hmsg2.2 _ more _ r2 m2 { user := some w.user, tty := w.tty } htk (by rw [← hmsg2.1]; exact hr2) hb2 ⟨rfl, rfl, rfl, rfl, rfl, rfl⟩
  have hflt : c.req.consoles.filter (· ≠ []) = c.consoles := by
    show c.consoles.filter (· ≠ []) = c.consoles
    rw [List.filter_eq_self]
    intro p hp'
    simpa using (hs.pats p hp').2
  have htt : (if w.tty.getD [] = [] then none else w.tty) = w.tty := by
    cases hw : w.tty with
    | none => rfl
    | some t => rw [if_neg]; exact (hs.tty t hw).2
  unfold serve
  rw [if_neg (by rw [ha]; decide)]
  dsimp only
  rw [hr, Option.bind_some, hb]
  obtain ⟨m', rfl⟩ : ∃ m', m = m' + 1 := ⟨m - 1, by omega⟩
  obtain ⟨m2', rfl⟩ : ∃ m', m2 = m' + 1 := ⟨m2 - 1, by omega⟩
  dsimp only
  rw [f3, Option.bind_some, if_neg hs.user.2, htt]
  dsimp only
  rw [rspOk_hello, Option.bind_some, f2]
  dsimp only
  unfold srvRequest
  dsimp only
  rw [hr2, Option.bind_some, hb2]
  dsimp only
  rw [l3, Option.bind_some, hflt]
  have hrq : ({ { user := some w.user, tty := w.tty : SrvReq } with cmd := some c.req.cmd, quiet := c.req.quiet, regex := c.req.regex, force := c.req.force && (c.req.cmd = .connect), join := c.req.join && (c.req.cmd = .connect), bcast := c.req.bcast && (c.req.cmd = .connect), consoles := c.consoles } : SrvReq) = srvReqOf c w := rfl
  rw [hrq, h]
  rfl

end Conman
