import Verif.Props.ClientOut

/-
Exit status and messages of the client.  (C85)
-/
namespace Conman
open Spec

/-- The answer to a message is `OK`, with what else it says. -/
def Spec.AnswersOk (a : RspIn) (q : CliRsp) : Prop := ∃ s, a = .line s ∧ recvRsp (s ++ [0]) = some (q, true)

/-- The server could be reached and has accepted greeting and request; these were sent. -/
def Spec.Accepted (c : ClientConf) (w : CWorld) (names : List (List UInt8)) (sent : List UInt8) : Prop :=
  w.resolved = true ∧ w.connErr = none ∧ w.send1 = none ∧ w.send2 = none ∧ (c.cmd = .query → w.shutErr = none) ∧
  ∃ g q r1 r2, greeting maxSockLine w.user w.tty = some (some g) ∧ AnswersOk w.rsp1 r1 ∧
    request maxSockLine { c.req with consoles := c.consoles ++ r1.consoles } = some (some q) ∧ AnswersOk w.rsp2 r2 ∧ r2.consoles = names ∧ sent = g ++ q

/-- `p` is what `s` holds before the first `c`, or all of `s` if there is none. -/
def Spec.UpTo (c : UInt8) (s p : List UInt8) : Prop := c ∉ p ∧ (s = p ∨ ∃ r, s = p ++ c :: r)

theorem upTo_takeWhile (c : UInt8) : ∀ s : List UInt8, UpTo c s (s.takeWhile (· ≠ c))
  | [] => ⟨by simp, .inl rfl⟩
  | a :: s => by
    by_cases h : a = c
    · subst h; exact ⟨by simp, .inr ⟨s, by simp⟩⟩
    · obtain ⟨h1, h2⟩ := upTo_takeWhile c s
      rw [List.takeWhile_cons, if_pos (by simpa using h)]
      refine ⟨fun hm => ?_, h2.imp (fun e => by rw [← e]) (fun ⟨r, e⟩ => ⟨r, by rw [List.cons_append, ← e]⟩)⟩
      rcases List.mem_cons.1 hm with e | e
      · exact h e.symm
      · exact h1 e

/-- The text of an error. -/
def Spec.IsError (t : List UInt8) : Prop := ∃ m x, t = bs "ERROR: " ++ m ++ bs ".\n\n" ++ x

/-! ### Answers -/

theorem rspLoop_raw (n : Nat) (l : Lex) : rspLoop n l = (rspRaw n l).map (fun r => if r.2 = false ∧ r.1.errnum = 0 then ({ r.1 with errnum := 1 }, false) else r) := by
  induction n generalizing l with
  | zero => rfl
  | succ n ih =>
    unfold rspLoop rspRaw
    cases lexNext protoStrs l with
    | none => rfl
    | some r =>
      rw [Option.bind_some, Option.bind_some]
      by_cases h1 : r.2 = tokOk
      · rw [if_pos h1, if_pos h1]; cases parseRspOk (n + 1) r.1 {} <;> simp
      rw [if_neg h1, if_neg h1]
      by_cases h2 : r.2 = tokError
      · rw [if_pos h2, if_pos h2]
        cases parseRspErr (n + 1) r.1 0 [] {} with
        | none => rfl
        | some q =>
          by_cases h : q.errnum = 0
          · simp [h]
          · simp [h]
      rw [if_neg h2, if_neg h2]
      by_cases h3 : r.2 = lexEof ∨ r.2 = lexEol
      · rw [if_pos h3, if_pos h3]; simp
      rw [if_neg h3, if_neg h3]
      exact ih r.1

theorem recvRsp_raw (s : List UInt8) : recvRsp (s ++ [0]) =
    (rspRaw (s.length + 2) (lexCreate (s ++ [0]))).map (fun r => if r.2 = false ∧ r.1.errnum = 0 then ({ r.1 with errnum := 1 }, false) else r) := by
  unfold recvRsp
  have hl : (s ++ [(0 : UInt8)]).length + 1 = s.length + 2 := by simp
  rw [hl]
  exact rspLoop_raw _ _

theorem clientRsp_ok {host : List UInt8} {port : Int} {a : RspIn} {q : CliRsp} : clientRsp host port a = some (q, true) ↔ AnswersOk a q := by
  cases a with
  | err t => simp [clientRsp, AnswersOk]
  | eof => simp [clientRsp, AnswersOk]
  | line s =>
    have : AnswersOk (.line s) q ↔ recvRsp (s ++ [0]) = some (q, true) := by
      unfold AnswersOk
      constructor
      · rintro ⟨t, h1, h2⟩; cases h1; exact h2
      · intro h; exact ⟨s, rfl, h⟩
    rw [this, recvRsp_raw]
    unfold clientRsp
    dsimp only
    cases rspRaw (s.length + 2) (lexCreate (s ++ [0])) with
    | none => simp
    | some r =>
      rw [Option.map_some, Option.map_some]
      by_cases h : r.2 = false ∧ r.1.errnum = 0
      · rw [if_pos h, if_pos h]; simp
      · rw [if_neg h, if_neg h]

theorem clientRsp_err {host : List UInt8} {port : Int} {s : List UInt8} {q : CliRsp} (h : recvRsp (s ++ [0]) = some (q, false)) (hn : q.errnum ≠ 1) :
    clientRsp host port (.line s) = some (q, false) := by
  rw [recvRsp_raw] at h
  unfold clientRsp
  dsimp only
  cases hr : rspRaw (s.length + 2) (lexCreate (s ++ [0])) with
  | none => rw [hr] at h; simp at h
  | some r =>
    rw [hr, Option.map_some] at h
    rw [Option.map_some]
    by_cases hz : r.2 = false ∧ r.1.errnum = 0
    · rw [if_pos hz] at h
      cases h
      simp at hn
    · rw [if_neg hz] at h ⊢; exact h

theorem answersOk_unique {a : RspIn} {q r : CliRsp} (h : AnswersOk a q) (g : AnswersOk a r) : q = r := by
  obtain ⟨s, h1, h2⟩ := h
  obtain ⟨t, g1, g2⟩ := g
  rw [h1] at g1; cases g1
  rw [h2] at g2; cases g2; rfl

/-! ### Classes of outcomes -/

/-- What is left when something fails before the request is accepted. -/
def Failed (o : COutcome) : Prop := (o.exit = some 2 ∨ o.exit = some 1) ∧ o.out = [] ∧ IsError o.err

theorem failed_error (c : ClientConf) (w : CWorld) (log : Option (List UInt8)) (sent : List UInt8) (sd : Bool) (n : Int) (m : Option (List UInt8)) :
    Failed (displayError c w log sent sd n m) ∧ (displayError c w log sent sd n m).sent = sent := by
  unfold displayError Failed
  dsimp only
  by_cases h : n ≠ 1 ∧ sd = true
  · rw [if_pos h]
    by_cases h2 : w.tailErr = true
    · rw [if_pos h2]
      exact ⟨⟨Or.inr rfl, rfl, _, _, rfl⟩, rfl⟩
    · rw [if_neg h2]
      exact ⟨⟨Or.inl rfl, rfl, argS (m.getD (bs "Unspecified")), w.tail.flatten ++ errHint c n, by simp only [List.append_assoc]⟩, rfl⟩
  · rw [if_neg h]
    exact ⟨⟨Or.inl rfl, rfl, _, _, rfl⟩, rfl⟩

theorem end_noerr {c : ClientConf} {w : CWorld} {log : Option (List UInt8)} {sent host : List UInt8} {consoles : List (List UInt8)} {reset : Bool}
    {o : COutcome} (h : clientEnd c w log sent host consoles reset = some o) : o.err = [] ∧ o.exit ≠ some 2 := by
  unfold clientEnd at h
  by_cases h1 : c.cmd = .query
  · rw [if_pos h1] at h
    obtain ⟨r, -, rfl⟩ := Option.map_eq_some_iff.1 h
    dsimp only
    by_cases h2 : r.2 = true
    · rw [if_pos h2]; exact ⟨rfl, by simp⟩
    · rw [if_neg h2]; exact ⟨rfl, by simp⟩
  rw [if_neg h1] at h
  by_cases h2 : w.ttys = false
  · rw [if_pos h2] at h; cases h; exact ⟨rfl, by simp⟩
  rw [if_neg h2] at h
  obtain ⟨t, -, h⟩ := Option.bind_eq_some_iff.1 h
  obtain ⟨s, -, rfl⟩ := Option.map_eq_some_iff.1 h
  cases s.phase <;> exact ⟨rfl, by simp⟩

theorem cstep_sent {stk : List UInt8} {s s' : CSess} {e : CEvent} (h : s.step stk e = some s') : s.sent <+: s'.sent := by
  have chk : ∀ {a b : CSess}, a.check stk = some b → b.sent = a.sent := by
    intro a b h
    unfold CSess.check at h
    split at h
    · split at h
      · cases h; rfl
      · obtain ⟨t, -, rfl⟩ := Option.map_eq_some_iff.1 h; rfl
    · cases h; rfl
  unfold CSess.step at h
  split at h
  · split at h
    · obtain ⟨s1, h1, h2⟩ := Option.bind_eq_some_iff.1 h
      rw [chk h2]
      have hd : ∀ (a : CSess) d, (a.onData d).sent = a.sent := by
        intro a d; rcases d with _ | _ | d <;> rfl
      rw [hd]
      unfold CSess.onKey at h1
      split at h1
      · cases h1; exact List.prefix_rfl
      · cases h1; exact List.prefix_rfl
      · obtain ⟨ns, -, rfl⟩ := Option.map_eq_some_iff.1 h1
        exact List.prefix_append _ _
    · rw [chk h]; exact List.prefix_rfl
    · cases h; exact List.prefix_rfl
  · cases h; exact List.prefix_rfl

theorem run_sent {stk : List UInt8} {s s' : CSess} {es : List CEvent} (h : s.run stk es = some s') : s.sent <+: s'.sent := by
  induction es generalizing s with
  | nil => cases h; exact List.prefix_rfl
  | cons e es ih =>
    unfold CSess.run at h
    obtain ⟨s1, h1, h2⟩ := Option.bind_eq_some_iff.1 h
    exact (cstep_sent h1).trans (ih h2)

theorem end_sent {c : ClientConf} {w : CWorld} {log : Option (List UInt8)} {sent host : List UInt8} {consoles : List (List UInt8)} {reset : Bool}
    {o : COutcome} (h : clientEnd c w log sent host consoles reset = some o) : sent <+: o.sent := by
  unfold clientEnd at h
  by_cases h1 : c.cmd = .query
  · rw [if_pos h1] at h
    obtain ⟨r, -, rfl⟩ := Option.map_eq_some_iff.1 h
    dsimp only
    split <;> exact List.prefix_rfl
  rw [if_neg h1] at h
  by_cases h2 : w.ttys = false
  · rw [if_pos h2] at h; cases h; exact List.prefix_rfl
  rw [if_neg h2] at h
  obtain ⟨t, -, h⟩ := Option.bind_eq_some_iff.1 h
  obtain ⟨s, hs, rfl⟩ := Option.map_eq_some_iff.1 h
  have := run_sent hs
  cases s.phase <;> exact this

/-- Everything the client does up to the answer to its request. -/
theorem connect_cases {c : ClientConf} {w : CWorld} {log : Option (List UInt8)} {o : COutcome} (h : clientConnect c w log = some o) :
    (Failed o ∧ ∀ names sent, ¬ Accepted c w names sent) ∨
    ∃ names sent host reset, Accepted c w names sent ∧ clientEnd c w log sent host names reset = some o := by
  unfold clientConnect at h
  by_cases h1 : w.resolved = false
  · rw [if_pos h1] at h; cases h
    exact Or.inl ⟨(failed_error _ _ _ _ _ _ _).1, fun n s g => by rw [g.1] at h1; simp at h1⟩
  rw [if_neg h1] at h
  cases hce : w.connErr with
  | some t =>
    rw [hce] at h; cases h
    exact Or.inl ⟨(failed_error _ _ _ _ _ _ _).1, fun n s g => by rw [g.2.1] at hce; simp at hce⟩
  | none =>
  rw [hce] at h
  dsimp only at h
  generalize clientHost c w = host at h
  unfold clientGreet at h
  obtain ⟨g, hg, h⟩ := Option.bind_eq_some_iff.1 h
  cases g with
  | none =>
    cases h
    refine Or.inl ⟨(failed_error _ _ _ _ _ _ _).1, fun n s a => ?_⟩
    obtain ⟨-, -, -, -, -, g', q, r1, r2, a1, -⟩ := a
    rw [hg] at a1; simp at a1
  | some g =>
  cases hs1 : w.send1 with
  | some t =>
    rw [hs1] at h; cases h
    exact Or.inl ⟨(failed_error _ _ _ _ _ _ _).1, fun n s a => by rw [a.2.2.1] at hs1; simp at hs1⟩
  | none =>
  rw [hs1] at h
  dsimp only at h
  obtain ⟨⟨r1, b1⟩, hr1, h⟩ := Option.bind_eq_some_iff.1 h
  dsimp only at h
  cases b1 with
  | false =>
    rw [if_pos rfl] at h; cases h
    refine Or.inl ⟨(failed_error _ _ _ _ _ _ _).1, fun n s a => ?_⟩
    obtain ⟨-, -, -, -, -, g', q, r1, r2, -, a2, -⟩ := a
    rw [← clientRsp_ok (host := host) (port := c.port), hr1] at a2
    simp at a2
  | true =>
  rw [if_neg (by decide)] at h
  have hr1' := clientRsp_ok.1 hr1
  unfold clientReq at h
  obtain ⟨q, hq, h⟩ := Option.bind_eq_some_iff.1 h
  cases q with
  | none =>
    cases h
    refine Or.inl ⟨(failed_error _ _ _ _ _ _ _).1, fun n s a => ?_⟩
    obtain ⟨-, -, -, -, -, g', q, r1', r2, -, a2, a3, -⟩ := a
    rw [← answersOk_unique hr1' a2, hq] at a3; simp at a3
  | some q =>
  cases hs2 : w.send2 with
  | some t =>
    rw [hs2] at h; cases h
    exact Or.inl ⟨(failed_error _ _ _ _ _ _ _).1, fun n s a => by rw [a.2.2.2.1] at hs2; simp at hs2⟩
  | none =>
  rw [hs2] at h
  dsimp only at h
  cases hsh : (if c.cmd = .query then w.shutErr else none) with
  | some t =>
    rw [hsh] at h; cases h
    refine Or.inl ⟨(failed_error _ _ _ _ _ _ _).1, fun n s a => ?_⟩
    by_cases hc : c.cmd = .query
    · rw [if_pos hc, a.2.2.2.2.1 hc] at hsh; simp at hsh
    · rw [if_neg hc] at hsh; simp at hsh
  | none =>
  rw [hsh] at h
  dsimp only at h
  obtain ⟨⟨r2, b2⟩, hr2, h⟩ := Option.bind_eq_some_iff.1 h
  dsimp only at h
  cases b2 with
  | false =>
    rw [if_pos rfl] at h; cases h
    refine Or.inl ⟨(failed_error _ _ _ _ _ _ _).1, fun n s a => ?_⟩
    obtain ⟨-, -, -, -, -, g', q, r1', r2', -, -, -, a4, -⟩ := a
    rw [← clientRsp_ok (host := host) (port := c.port), hr2] at a4
    simp at a4
  | true =>
    rw [if_neg (by decide)] at h
    refine Or.inr ⟨r2.consoles, g ++ q, host, _, ⟨by simpa using h1, hce, hs1, hs2, ?_, g, q, r1, r2, hg, hr1', hq, clientRsp_ok.1 hr2, rfl, rfl⟩, h⟩
    intro hc
    rw [if_pos hc] at hsh; exact hsh

theorem accepted_end {c : ClientConf} {w : CWorld} {names : List (List UInt8)} {sent : List UInt8} (ha : Accepted c w names sent) :
    ∃ host reset, ∀ log, clientConnect c w log = clientEnd c w log sent host names reset := by
  obtain ⟨a1, a2, a3, a4, a5, g, q, r1, r2, a6, a7, a8, a9, a10, a11⟩ := ha
  refine ⟨clientHost c w, r1.reset || r2.reset, fun log => ?_⟩
  unfold clientConnect
  rw [if_neg (by rw [a1]; decide), a2]
  dsimp only
  unfold clientGreet
  rw [a6, Option.bind_some, a3]
  dsimp only
  rw [clientRsp_ok.2 a7, Option.bind_some]
  rw [if_neg (by simp)]
  unfold clientReq
  rw [a8, Option.bind_some, a4]
  dsimp only
  have hsh : (if c.cmd = .query then w.shutErr else none) = none := by
    split
    · rename_i hq; exact a5 hq
    · rfl
  rw [hsh]
  dsimp only
  rw [clientRsp_ok.2 a9, Option.bind_some]
  rw [if_neg (by simp), a10, a11]

/-- C85. The exit status tells what happened: 0 only if the server has accepted the request, and then nothing is written to standard error; 2 only if it has not, and
then the reason is written to standard error and nothing to standard output.  (1 is for errors of the system, C79.) -/
theorem C85_status {c : ClientConf} {w : CWorld} {o : COutcome} (h : clientMain c w = some o) :
    (o.exit = some 0 → o.err = [] ∧ ∃ names sent, Accepted c w names sent) ∧
    (o.exit = some 2 → o.out = [] ∧ IsError o.err ∧ ∀ names sent, ¬ Accepted c w names sent) ∧
    (o.exit = none → c.cmd ≠ .query ∧ o.err = [] ∧ ∃ names sent, Accepted c w names sent) ∧
    (o.exit = none ∨ o.exit = some 0 ∨ o.exit = some 1 ∨ o.exit = some 2) ∧
    ((∀ names sent, ¬ Accepted c w names sent) → o.exit = some 1 ∨ o.exit = some 2) ∧
    (o.err ≠ [] → IsError o.err ∧ ∀ names sent, ¬ Accepted c w names sent) := by
  have main : ∀ {log}, clientConnect c w log = some o → _ := fun hc => connect_cases hc
  have fin : ∀ {log}, clientConnect c w log = some o → (o.exit = some 0 → o.err = [] ∧ ∃ names sent, Accepted c w names sent) ∧
    (o.exit = some 2 → o.out = [] ∧ IsError o.err ∧ ∀ names sent, ¬ Accepted c w names sent) ∧
    (o.exit = none → c.cmd ≠ .query ∧ o.err = [] ∧ ∃ names sent, Accepted c w names sent) ∧
    (o.exit = none ∨ o.exit = some 0 ∨ o.exit = some 1 ∨ o.exit = some 2) ∧
    ((∀ names sent, ¬ Accepted c w names sent) → o.exit = some 1 ∨ o.exit = some 2) ∧
    (o.err ≠ [] → IsError o.err ∧ ∀ names sent, ¬ Accepted c w names sent) := by
    intro log hc
    rcases main hc with ⟨⟨hx, ho, he⟩, hn⟩ | ⟨names, sent, host, reset, ha, hend⟩
    · refine ⟨fun g => ?_, fun _ => ⟨ho, he, hn⟩, fun g => ?_, ?_, fun _ => hx.symm, fun _ => ⟨he, hn⟩⟩
      · rw [g] at hx; simp at hx
      · rw [g] at hx; simp at hx
      · rcases hx with hx | hx
        · exact Or.inr (Or.inr (Or.inr hx))
        · exact Or.inr (Or.inr (Or.inl hx))
    · obtain ⟨e1, e2⟩ := end_noerr hend
      refine ⟨fun _ => ⟨e1, names, sent, ha⟩, fun g => absurd g e2, fun g => ⟨?_, e1, names, sent, ha⟩, ?_, fun g => absurd ha (g _ _), fun g => absurd e1 g⟩
      · intro hq
        unfold clientEnd at hend
        rw [if_pos hq] at hend
        obtain ⟨r, -, rfl⟩ := Option.map_eq_some_iff.1 hend
        dsimp only at g
        split at g <;> simp at g
      · unfold clientEnd at hend
        split at hend
        · obtain ⟨r, -, rfl⟩ := Option.map_eq_some_iff.1 hend
          dsimp only
          split <;> simp
        · split at hend
          · cases hend; simp
          · obtain ⟨t, -, hend⟩ := Option.bind_eq_some_iff.1 hend
            obtain ⟨s, -, rfl⟩ := Option.map_eq_some_iff.1 hend
            cases s.phase <;> simp
  unfold clientMain at h
  cases hl : c.log with
  | none => rw [hl] at h; exact fin h
  | some n =>
    rw [hl] at h
    cases hf : w.logFile with
    | none => rw [hf] at h; cases h; simp
    | some old => rw [hf] at h; exact fin h

/-! ### Queries -/

theorem displayConsoles_eq {stk : List UInt8} (h : 1024 ≤ stk.length) {names : List (List UInt8)} (hn : ∀ n ∈ names, (0 : UInt8) ∉ n ∧ n.length ≤ 1022) :
    displayConsoles stk names = some (names.map (· ++ bs "\n"), true) := by
  induction names with
  | nil => rfl
  | cons n ns ih =>
    obtain ⟨h1, h2⟩ := hn n (List.mem_cons_self ..)
    unfold displayConsoles
    have hm : maxLine = 1024 := rfl
    have hl : (n ++ bs "\n").length = n.length + 1 := by rw [List.length_append]; rfl
    rw [show argS n = n from takeWhile_nul h1, hm, snprintf_eq (by omega) (by rw [List.length_take]; omega), Option.bind_some]
    dsimp only
    rw [if_neg (by omega), ih fun x hx => hn x (List.mem_cons_of_mem _ hx), Option.map_some]
    have : (over (stk.take 1024) 0 ((n ++ bs "\n").take (1024 - 1) ++ [0])).take (n ++ bs "\n").length = n ++ bs "\n" := by
      rw [List.take_of_length_le (i := 1024 - 1) (by omega)]
      unfold over
      rw [show stk.take 1024 = [] ++ stk.take 1024 from rfl]
      simp only [List.take_zero, List.nil_append, List.append_assoc]
      rw [← List.append_assoc, List.take_left']
      rfl
    rw [this]; rfl

/-- C85 in part, for queries: the names that the server answers with are written to standard output, one per line and in order, and the exit status is 0.
Missing: names of 1023 bytes (`C85_long_name`). -/
theorem C85_query_partial {c : ClientConf} {w : CWorld} (hs : 1024 ≤ w.stk.length) (hq : c.cmd = .query) {names : List (List UInt8)} {sent : List UInt8} (ha : Accepted c w names sent)
    (hn : ∀ n ∈ names, (0 : UInt8) ∉ n ∧ n.length ≤ 1022) (hl : c.log ≠ none → w.logFile ≠ none) :
    ∃ o, clientMain c w = some o ∧ o.exit = some 0 ∧ o.out = names.map (fun n => .data (n ++ bs "\n")) ∧ o.err = [] ∧ o.sent = sent := by
  obtain ⟨host, reset, he⟩ := accepted_end ha
  have key : ∀ log, ∃ o, clientConnect c w log = some o ∧ o.exit = some 0 ∧ o.out = names.map (fun n => .data (n ++ bs "\n")) ∧ o.err = [] ∧ o.sent = sent := by
    intro log
    rw [he]
    unfold clientEnd
    rw [if_pos hq, displayConsoles_eq hs hn, Option.map_some]
    refine ⟨_, rfl, ?_, ?_, ?_, ?_⟩
    all_goals simp
  unfold clientMain
  cases hc : c.log with
  | none => exact key none
  | some n =>
    cases hf : w.logFile with
    | none => exact absurd hf (hl (by rw [hc]; simp))
    | some old => exact key _

/-- What a server (C18) answers to a query is what the user sees. -/
theorem C85_query_end_to_end {c : ClientConf} {w : CWorld} (hs : 1024 ≤ w.stk.length) (hq : c.cmd = .query) {names : List (List UInt8)} {g q t1 t2 : List UInt8} {r1 : CliRsp}
    (h1 : w.resolved = true ∧ w.connErr = none ∧ w.send1 = none ∧ w.send2 = none ∧ w.shutErr = none) (hg : greeting maxSockLine w.user w.tty = some (some g))
    (ha : w.rsp1 = .line t1 ∧ recvRsp (t1 ++ [0]) = some (r1, true)) (hr : request maxSockLine { c.req with consoles := c.consoles ++ r1.consoles } = some (some q))
    (hn : ∀ n ∈ names, Plain n ∧ n.length ≤ 1022) {reset : Bool} (hok : rspOk maxSockLine reset names = some (some t2)) (h2 : w.rsp2 = .line t2) (hl : c.log = none) :
    ∃ o, clientMain c w = some o ∧ o.exit = some 0 ∧ o.out = names.map (fun n => .data (n ++ bs "\n")) ∧ o.err = [] ∧ o.sent = g ++ q := by
  have ht : t2 = protoStr tokOk ++ line (rspItems reset names) := by
    rw [rspOk_eq maxSockLine reset names (by decide) (fun n hn' => (hn n hn').1)] at hok
    split at hok
    · simpa using hok.symm
    · simp at hok
  have hrecv : recvRsp (t2 ++ [0]) = some ({ consoles := names, reset := reset && decide (names ≠ []) }, true) :=
    recvRsp_ok [] _ reset names (fun n hn' => (hn n hn').1) (by rw [ht])
  refine C85_query_partial hs hq (names := names) (sent := g ++ q) ⟨h1.1, h1.2.1, h1.2.2.1, h1.2.2.2.1, fun _ => h1.2.2.2.2, g, q, r1, _, hg, ⟨t1, ha⟩, hr, ⟨t2, h2, hrecv⟩, rfl, rfl⟩
    (fun n hn' => ⟨fun g => absurd ((hn n hn').1.1 0 g).1 (by decide), (hn n hn').2⟩) (fun g => absurd hl g)

/-- What is missing: a name of 1023 bytes can be configured and is answered, but the client does not list it, nor those after it, and ends with status 1. -/
theorem C85_long_name {stk : List UInt8} (h : 1024 ≤ stk.length) {n : List UInt8} (h1 : (0 : UInt8) ∉ n) (h2 : n.length = 1023) (ns : List (List UInt8)) :
    displayConsoles stk (n :: ns) = some ([], false) := by
  unfold displayConsoles
  have hm : maxLine = 1024 := rfl
  have hl : (n ++ bs "\n").length = n.length + 1 := by rw [List.length_append]; rfl
  rw [show argS n = n from takeWhile_nul h1, hm, snprintf_eq (by omega) (by rw [List.length_take]; omega), Option.bind_some]
  dsimp only
  rw [if_pos (by omega)]

/-- A query from greeting to exit. -/
example : clientMain { host := bs "h", port := 7890, esc := 0x26, cmd := .query, consoles := [bs "n*"] }
      { stk := List.replicate 1024 0, user := bs "me", rsp1 := .line (bs "OK\n"), rsp2 := .line (bs "OK CONSOLE='n1' CONSOLE='n2'\n") } =
    some { exit := some 0, out := [.data (bs "n1\n"), .data (bs "n2\n")], sent := bs "HELLO USER='me'\nQUERY CONSOLE='n*'\n" } := by decide +kernel

/-- C85. When the server (C18) refuses the request, its message and what it sends after it come out on standard error, with advice if there is any, and the status is 2. -/
theorem C85_refused {c : ClientConf} {w : CWorld} {g q t1 t2 msg : List UInt8} {r1 : CliRsp} {errnum : Nat}
    (h1 : w.resolved = true ∧ w.connErr = none ∧ w.send1 = none ∧ w.send2 = none ∧ w.shutErr = none ∧ w.tailErr = false) (hg : greeting maxSockLine w.user w.tty = some (some g))
    (ha : w.rsp1 = .line t1 ∧ recvRsp (t1 ++ [0]) = some (r1, true)) (hr : request maxSockLine { c.req with consoles := c.consoles ++ r1.consoles } = some (some q))
    (hm : Plain msg) (hne : msg ≠ []) (he : 1 < errnum ∧ errnum ≤ 2147483647) (herr : rspErr maxSockLine errnum (some msg) = some (some t2)) (h2 : w.rsp2 = .line t2) (hl : c.log = none) :
    clientMain c w = some {
      exit := some 2
      err := bs "ERROR: " ++ msg ++ bs ".\n\n" ++ w.tail.flatten ++
        (if errnum = 6 ∧ c.bcast = false then bs "\nDo you want to broadcast (-b) to multiple consoles?\n\n"
         else if errnum = 7 ∧ c.force = false ∧ c.join = false then bs "\nDo you want to force (-f) or join (-j) the connection?\n\n" else [])
      sent := g ++ q } := by
  have ht : t2 = errLine errnum msg ++ bs "\n" := by
    rw [rspErr_eq maxSockLine errnum (some msg) (by decide) hm] at herr
    split at herr
    · simpa using herr.symm
    · simp at herr
  have hrecv : recvRsp (t2 ++ [0]) = some ({ errnum := errnum, errmsg := some msg }, false) := by
    have := recvRsp_err [] (t2 ++ [0]) errnum msg hm he.2 (by rw [ht])
    rw [if_neg (by omega), if_neg hne] at this
    exact this
  have hz : (0 : UInt8) ∉ msg := fun x => absurd (hm.1 0 x).1 (by decide)
  have h1' : ((errnum : Nat) : Int) ≠ 1 := by omega
  unfold clientMain
  rw [hl]
  dsimp only
  unfold clientConnect
  rw [if_neg (by rw [h1.1]; decide), h1.2.1]
  dsimp only
  unfold clientGreet
  rw [hg, Option.bind_some, h1.2.2.1]
  dsimp only
  rw [clientRsp_ok.2 ⟨t1, ha⟩, Option.bind_some]
  rw [if_neg (by simp)]
  unfold clientReq
  rw [hr, Option.bind_some, h1.2.2.2.1, h1.2.2.2.2.1]
  dsimp only
  have hsh : (if c.cmd = .query then (none : Option (List UInt8)) else none) = none := by split <;> rfl
  rw [hsh]
  dsimp only
  rw [h2, clientRsp_err hrecv h1', Option.bind_some]
  rw [if_pos rfl]
  unfold displayError
  dsimp only
  rw [if_pos ⟨h1', rfl⟩, if_neg (by rw [h1.2.2.2.2.2]; decide), Option.getD_some, show argS msg = msg from takeWhile_nul hz]
  have hh : errHint c errnum = (if errnum = 6 ∧ c.bcast = false then bs "\nDo you want to broadcast (-b) to multiple consoles?\n\n"
         else if errnum = 7 ∧ c.force = false ∧ c.join = false then bs "\nDo you want to force (-f) or join (-j) the connection?\n\n" else []) := by
    unfold errHint
    by_cases e6 : errnum = 6
    · subst e6; simp
    · by_cases e7 : errnum = 7
      · subst e7; simp
      · have e6' : ((errnum : Nat) : Int) ≠ 6 := by omega
        have e7' : ((errnum : Nat) : Int) ≠ 7 := by omega
        simp [e6, e7, e6', e7']
  rw [hh]
  rfl

/-- A refused request: with the names of consoles that are in use after the message. -/
example : clientMain { host := bs "h", port := 7890, esc := 0x26, consoles := [bs "n1"] }
      { stk := [], user := bs "me", rsp1 := .line (bs "OK\n"), rsp2 := .line (bs "ERROR CODE=7 MESSAGE='Found 1 console already in use'\n"), tail := [bs "Console [n1] open R/W by <u@h>\n"] } =
    some { exit := some 2, err := bs "ERROR: Found 1 console already in use.\n\nConsole [n1] open R/W by <u@h>\n\nDo you want to force (-f) or join (-j) the connection?\n\n",
           sent := bs "HELLO USER='me'\nCONNECT CONSOLE='n1'\n" } := by decide +kernel

/-- C85. When the server cannot be reached, what failed and the reason are on standard error, and the status is 2; the host is named as the user gave it if it cannot be
resolved, else by its full name if it has one; where a connection was made, by that up to the first dot.  Nothing is sent. -/
theorem C85_unreachable {c : ClientConf} {w : CWorld} (hl : c.log = none) (hh : (0 : UInt8) ∉ c.host) (hn : ∀ n ∈ w.cname, (0 : UInt8) ∉ n) {t : List UInt8} (ht : (0 : UInt8) ∉ t) :
    (w.resolved = false → clientMain c w = some { exit := some 2, err := bs "ERROR: Unable to resolve host <" ++ c.host ++ bs ">.\n\n" }) ∧
    (w.resolved = true → w.connErr = some t → clientMain c w = some { exit := some 2, err := bs "ERROR: Unable to connect to <" ++ w.cname.getD c.host ++ bs ":" ++ decInt c.port ++ bs ">: " ++ t ++ bs ".\n\n" }) ∧
    (w.resolved = true → w.connErr = none → w.send1 = some t → ∀ {g : List UInt8}, greeting maxSockLine w.user w.tty = some (some g) →
      ∃ host, (w.cname = none → host = c.host) ∧ (∀ n, w.cname = some n → UpTo 0x2E n host) ∧ clientMain c w = some { exit := some 2, err := bs "ERROR: Unable to send greeting to <" ++ host ++ bs ":" ++ decInt c.port ++ bs ">: " ++ t ++ bs ".\n\n" }) := by
  have hd : (0 : UInt8) ∉ decInt c.port := by
    unfold decInt
    split
    · exact fun hm => (List.mem_cons.1 hm).elim (by decide) (dec_nz _)
    · exact dec_nz _
  have err1 : ∀ (sd : Bool) (m : List UInt8), (0 : UInt8) ∉ m → displayError c w none [] sd 1 (some m) = { exit := some 2, err := bs "ERROR: " ++ m ++ bs ".\n\n" } := by
    intro sd m hm
    unfold displayError
    rw [if_neg (by simp)]
    have he : errHint c 1 = [] := by unfold errHint; rw [if_neg (by simp), if_neg (by simp)]
    rw [he, Option.getD_some, show argS m = m from takeWhile_nul hm, List.append_nil]; rfl
  have pre : ∀ a x : List UInt8, bs "ERROR: " ++ (a ++ x) = (bs "ERROR: " ++ a) ++ x := fun a x => (List.append_assoc _ _ _).symm
  have nz : ∀ (a : List UInt8), (0 : UInt8) ∉ a → ∀ b : List UInt8, (0 : UInt8) ∉ b → (0 : UInt8) ∉ a ++ b := by
    intro a ha b hb hm
    rcases List.mem_append.1 hm with h | h
    · exact ha h
    · exact hb h
  have hc : (0 : UInt8) ∉ w.cname.getD c.host := by
    cases hw : w.cname with
    | none => exact hh
    | some n => exact hn n hw
  have hp : ∀ host : List UInt8, (0 : UInt8) ∉ host → (0 : UInt8) ∉ peerText host c.port := fun host h =>
    nz _ (nz _ (nz _ (nz _ (by decide) _ h) _ (by decide)) _ hd) _ (by decide)
  unfold clientMain
  rw [hl]
  dsimp only
  unfold clientConnect
  refine ⟨fun h => ?_, fun h h1 => ?_, fun h h1 h2 g hg => ?_⟩
  · rw [if_pos h, err1 _ _ (nz _ (nz _ (by decide) _ hh) _ (by decide))]
    have e : bs "ERROR: Unable to resolve host <" = bs "ERROR: " ++ bs "Unable to resolve host <" := by decide
    have e2 : bs ">.\n\n" = bs ">" ++ bs ".\n\n" := by decide
    rw [e, e2]; simp only [List.append_assoc]
  · rw [if_neg (by simp [h]), h1]
    dsimp only
    rw [err1 _ _ (nz _ (nz _ (nz _ (by decide) _ (hp _ hc)) _ (by decide)) _ ht)]
    have e : bs "ERROR: Unable to connect to <" = bs "ERROR: " ++ bs "Unable to connect to " ++ bs "<" := by decide
    have e2 : bs ">: " = bs ">" ++ bs ": " := by decide
    rw [e, e2]; unfold peerText; simp only [List.append_assoc]
  · rw [if_neg (by simp [h]), h1]
    dsimp only
    have hz : (0 : UInt8) ∉ clientHost c w := by
      unfold clientHost
      cases hw : w.cname with
      | none => exact hh
      | some n => exact fun hm => hn n hw (List.takeWhile_subset _ hm)
    refine ⟨clientHost c w, fun hw => ?_, fun n hw => ?_, ?_⟩
    · unfold clientHost; rw [hw]
    · unfold clientHost; rw [hw]; exact upTo_takeWhile _ _
    · unfold clientGreet
      rw [hg, Option.bind_some, h2]
      dsimp only
      rw [err1 _ _ (nz _ (nz _ (nz _ (by decide) _ (hp _ hz)) _ (by decide)) _ ht)]
      have e : bs "ERROR: Unable to send greeting to <" = bs "ERROR: " ++ bs "Unable to send greeting to " ++ bs "<" := by decide
      have e2 : bs ">: " = bs ">" ++ bs ": " := by decide
      rw [e, e2]; unfold peerText; simp only [List.append_assoc]

example : clientMain { clientConf0 with host := bs "n1", cmd := .query, consoles := [] }
      { stk := List.replicate 1024 0, user := bs "me", cname := some (bs "node1.site.org"), send1 := some (bs "Broken pipe"), rsp1 := .eof, rsp2 := .eof } =
    some { exit := some 2, err := bs "ERROR: Unable to send greeting to <node1:7890>: Broken pipe.\n\n" } := by decide +kernel

/-- The client asks for the console, and can so take it from another user, before it finds that it has no terminal. -/
theorem C85_no_terminal {c : ClientConf} {w : CWorld} {names : List (List UInt8)} {sent : List UInt8} (ha : Accepted c w names sent) (hq : c.cmd ≠ .query) (ht : w.ttys = false)
    (hl : c.log = none) : clientMain c w = some { exit := some 1, sent := sent } := by
  obtain ⟨host, reset, he⟩ := accepted_end ha
  unfold clientMain
  rw [hl]
  dsimp only
  rw [he]
  unfold clientEnd
  rw [if_neg hq, if_pos ht]

/-- C85. Nothing but the greeting is sent unless the greeting was accepted. -/
theorem C85_greeting_first {c : ClientConf} {w : CWorld} {o : COutcome} (h : clientMain c w = some o) :
    o.sent = [] ∨ ∃ g, greeting maxSockLine w.user w.tty = some (some g) ∧ g <+: o.sent ∧ (o.sent = g ∨ ∃ r, AnswersOk w.rsp1 r) := by
  have fin : ∀ {log}, clientConnect c w log = some o → o.sent = [] ∨ ∃ g, greeting maxSockLine w.user w.tty = some (some g) ∧ g <+: o.sent ∧ (o.sent = g ∨ ∃ r, AnswersOk w.rsp1 r) := by
    intro log h
    unfold clientConnect at h
    split at h
    · cases h; exact Or.inl (failed_error _ _ _ _ _ _ _).2
    split at h
    · cases h; exact Or.inl (failed_error _ _ _ _ _ _ _).2
    unfold clientGreet at h
    obtain ⟨g, hg, h⟩ := Option.bind_eq_some_iff.1 h
    split at h
    · cases h; exact Or.inl (failed_error _ _ _ _ _ _ _).2
    · cases h; exact Or.inl (failed_error _ _ _ _ _ _ _).2
    rename_i g _
    obtain ⟨⟨r1, b1⟩, hr1, h⟩ := Option.bind_eq_some_iff.1 h
    refine Or.inr ⟨g, hg, ?_⟩
    cases b1 with
    | false =>
      rw [if_pos rfl] at h; cases h
      rw [(failed_error _ _ _ _ _ _ _).2]
      exact ⟨List.prefix_rfl, Or.inl rfl⟩
    | true =>
      rw [if_neg (by simp)] at h
      refine ⟨?_, Or.inr ⟨r1, clientRsp_ok.1 hr1⟩⟩
      unfold clientReq at h
      obtain ⟨q, -, h⟩ := Option.bind_eq_some_iff.1 h
      split at h
      · cases h; rw [(failed_error _ _ _ _ _ _ _).2]; exact List.prefix_rfl
      · cases h; rw [(failed_error _ _ _ _ _ _ _).2]; exact List.prefix_rfl
      split at h
      · cases h; rw [(failed_error _ _ _ _ _ _ _).2]; exact List.prefix_append _ _
      obtain ⟨⟨r2, b2⟩, hr2, h⟩ := Option.bind_eq_some_iff.1 h
      cases b2 with
      | false => rw [if_pos rfl] at h; cases h; rw [(failed_error _ _ _ _ _ _ _).2]; exact List.prefix_append _ _
      | true =>
        rw [if_neg (by simp)] at h
        exact (List.prefix_append _ _).trans (end_sent h)
  unfold clientMain at h
  cases hl : c.log with
  | none => rw [hl] at h; exact fin h
  | some n =>
    rw [hl] at h
    cases hf : w.logFile with
    | none => rw [hf] at h; cases h; exact Or.inl rfl
    | some old => rw [hf] at h; exact fin h

theorem displayConsoles_total {stk : List UInt8} (h : 1024 ≤ stk.length) (names : List (List UInt8)) : ∃ r, displayConsoles stk names = some r := by
  induction names with
  | nil => exact ⟨_, rfl⟩
  | cons n ns ih =>
    obtain ⟨r, ih⟩ := ih
    unfold displayConsoles
    have hm : maxLine = 1024 := rfl
    rw [hm, snprintf_eq (by omega) (by rw [List.length_take]; omega), Option.bind_some]
    dsimp only
    split
    · exact ⟨_, rfl⟩
    · rw [ih]; exact ⟨_, rfl⟩

theorem clientEnd_total (c : ClientConf) (w : CWorld) (hs : 1024 ≤ w.stk.length) (log : Option (List UInt8)) (sent host : List UInt8) (names : List (List UInt8)) (reset : Bool) :
    ∃ o, clientEnd c w log sent host names reset = some o := by
  unfold clientEnd
  split
  · obtain ⟨r, hr⟩ := displayConsoles_total hs names
    rw [hr]; exact ⟨_, rfl⟩
  · split
    · exact ⟨_, rfl⟩
    · obtain ⟨t, e1, -⟩ := statusMsg_msg hs names (msg := bs "opened") (by decide)
      rw [e1, Option.bind_some]
      generalize hs0 : ({
        cs := { esc := c.esc, cmd := if c.cmd = .monitor then .monitor else .connect, bcast := c.bcast && names.length ≠ 1, force := c.force, join := c.join, quiet := c.quiet, reset := reset },
        consoles := names, host := host, port := c.port, out := [.note t], log := log, sent := sent } : CSess) = s0
      obtain ⟨s', n, a1, -⟩ := C83_session hs s0 (by rw [← hs0]) (by rw [← hs0]) (by rw [← hs0]) w.events
      rw [a1, Option.map_some]
      exact ⟨_, rfl⟩

/-- C85 in part: the client never reaches undefined behaviour between opening its log and its end.  Missing: answers with a number that does not fit an `int`
(`C67_client_overflow`), and names that the protocol does not carry (`Plain`, C18). -/
theorem C85_total_partial (c : ClientConf) (w : CWorld) (hs : 1024 ≤ w.stk.length) (hu : Plain w.user) (ht : ∀ t ∈ w.tty, Plain t) (hc : ∀ n ∈ c.consoles, Plain n)
    (h1 : ∀ s, w.rsp1 = .line s → ¬ HugeNumber (s ++ [0])) (h2 : ∀ s, w.rsp2 = .line s → ¬ HugeNumber (s ++ [0])) (hr : ∀ r, AnswersOk w.rsp1 r → ∀ n ∈ r.consoles, Plain n) :
    ∃ o, clientMain c w = some o := by
  have rsp : ∀ {a : RspIn} (host : List UInt8), (∀ s, a = .line s → ¬ HugeNumber (s ++ [0])) → ∃ r, clientRsp host c.port a = some r := by
    intro a host ha
    cases a with
    | err t => exact ⟨_, rfl⟩
    | eof => exact ⟨_, rfl⟩
    | line s =>
      obtain ⟨r, hr⟩ := C67_client_total_partial (s ++ [0]) (by simp) (ha s rfl)
      rw [recvRsp_raw] at hr
      unfold clientRsp
      dsimp only
      cases hq : rspRaw (s.length + 2) (lexCreate (s ++ [0])) with
      | none => rw [hq] at hr; simp at hr
      | some q => exact ⟨_, rfl⟩
  have ends := clientEnd_total c w hs
  have conn : ∀ log, ∃ o, clientConnect c w log = some o := by
    intro log
    unfold clientConnect
    split
    · exact ⟨_, rfl⟩
    split
    · exact ⟨_, rfl⟩
    unfold clientGreet
    rw [greeting_eq maxSockLine w.user w.tty (by decide) hu ht, Option.bind_some]
    split
    · exact ⟨_, rfl⟩
    · exact ⟨_, rfl⟩
    obtain ⟨⟨r1, b1⟩, e1⟩ := rsp (clientHost c w) h1
    rw [e1, Option.bind_some]
    cases b1 with
    | false => exact ⟨_, rfl⟩
    | true =>
      rw [if_neg (by simp)]
      unfold clientReq
      rw [request_eq maxSockLine _ (by decide) (fun n hn => by
        rcases List.mem_append.1 hn with hn | hn
        · exact hc n hn
        · exact hr r1 (clientRsp_ok.1 e1) n hn), Option.bind_some]
      split
      · exact ⟨_, rfl⟩
      · exact ⟨_, rfl⟩
      split
      · exact ⟨_, rfl⟩
      obtain ⟨⟨r2, b2⟩, e2⟩ := rsp (clientHost c w) h2
      rw [e2, Option.bind_some]
      cases b2 with
      | false => exact ⟨_, rfl⟩
      | true =>
        rw [if_neg (by simp)]
        exact ends _ _ _ _ _
  unfold clientMain
  split
  · exact conn _
  · split
    · exact ⟨_, rfl⟩
    · exact conn _

/-- The hypotheses of `C85_no_terminal`: the server is asked for a console that is stolen with it (`-f`), and the client then ends. -/
example : Accepted { host := bs "h", port := 7890, esc := 0x26, force := true, consoles := [bs "n1"] }
      { stk := [], user := bs "me", rsp1 := .line (bs "OK\n"), rsp2 := .line (bs "OK CONSOLE='n1'\n"), ttys := false } [bs "n1"]
      (bs "HELLO USER='me'\nCONNECT OPTION=FORCE CONSOLE='n1'\n") :=
  ⟨rfl, rfl, rfl, rfl, (by intro h; cases h), bs "HELLO USER='me'\n", bs "CONNECT OPTION=FORCE CONSOLE='n1'\n", {}, { consoles := [bs "n1"] }, by decide +kernel,
    ⟨bs "OK\n", rfl, by decide +kernel⟩, by decide +kernel, ⟨bs "OK CONSOLE='n1'\n", rfl, by decide +kernel⟩, rfl, by decide⟩

example : clientMain { host := bs "h", port := 7890, esc := 0x26, force := true, consoles := [bs "n1"] }
      { stk := [], user := bs "me", rsp1 := .line (bs "OK\n"), rsp2 := .line (bs "OK CONSOLE='n1'\n"), ttys := false } =
    some { exit := some 1, sent := bs "HELLO USER='me'\nCONNECT OPTION=FORCE CONSOLE='n1'\n" } := by decide +kernel

/-- `C85_greeting_first`: a server that refuses the greeting gets nothing else. -/
example : clientMain { host := bs "h", port := 7890, esc := 0x26, consoles := [bs "n1"] }
      { stk := [], user := bs "me", rsp1 := .line (bs "ERROR CODE=3 MESSAGE='No'\n"), rsp2 := .line (bs "OK\n") } =
    some { exit := some 2, err := bs "ERROR: No.\n\n", sent := bs "HELLO USER='me'\n" } := by decide +kernel

/-- The hypotheses of `C85_total_partial`. -/
example : ∃ o, clientMain { host := bs "h", port := 7890, esc := 0x26, consoles := [bs "n1", bs "n[2-3]"] }
    { stk := List.replicate 1024 0, user := bs "me", tty := some (bs "pts/1"), rsp1 := .line (bs "OK\n"), rsp2 := .line (bs "OK OPTION='RESET'\n") } = some o := by
  have nh : ∀ s : List UInt8, (∀ c ∈ s, ¬ digit c) → ¬ HugeNumber s := by
    rintro s hs ⟨a, d, b, rfl, hd, hn⟩
    cases d with
    | nil => exact absurd hn (by decide)
    | cons c d => exact hs c (by simp) (hd c (by simp))
  refine C85_total_partial _ _ (Nat.le_of_eq List.length_replicate.symm) (by decide) (by decide) (by decide) ?_ ?_ ?_
  · intro s hs; cases hs; exact nh _ (by decide)
  · intro s hs; cases hs; exact nh _ (by decide)
  · rintro r ⟨s, hs, hr⟩
    cases hs
    have e : recvRsp (bs "OK\n" ++ [0]) = some ({}, true) := by decide +kernel
    rw [e] at hr; cases hr
    intro n hn; cases hn

end Conman
