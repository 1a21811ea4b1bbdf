import Verif.Lemma.ClientOut
import Verif.Props.Proto
import Verif.Lemma.ClientArgs

/-
What the client shows, logs and reports.  (C83, C84, C85)
-/
namespace Conman
open Spec

/-! ### Sessions -/

theorem key_esc (s : CState) (c : UInt8) : (s.key c).1.esc = s.esc := by
  have put : ∀ (s : CState) o, (s.put o).1.esc = s.esc := by
    intro s o; unfold CState.put CState.send; split
    · split <;> rfl
    · rfl
  unfold CState.key
  by_cases hd : s.done = true
  · rw [if_pos hd]
  · rw [if_neg hd]
    dsimp only
    by_cases h1 : ¬ s.inEsc = true ∧ c = s.esc ∧ s.esc < 0x80
    · rw [if_pos h1]
    · rw [if_neg h1]
      by_cases h2 : s.inEsc = true
      · rw [if_pos h2]
        cases he : ({ s with inEsc := false } : CState).escape c with
        | none =>
          dsimp only
          split
          · exact put { s with inEsc := false } _
          · exact put { s with inEsc := false } _
        | some r =>
          have hm : c ∈ cmdLetters := by
            apply Decidable.byContradiction
            intro h
            rw [(escape_none_iff _ c).2 h] at he; simp at he
          obtain ⟨esc, inEsc, cmd, bcast, force, join, quiet, reset, echo, wrClosed, done⟩ := s
          simp only [cmdLetters, List.mem_cons, List.not_mem_nil, or_false] at hm
          rcases hm with rfl | rfl | rfl | rfl | rfl | rfl | rfl | rfl | rfl | rfl | rfl | rfl | rfl <;>
            cases cmd <;> cases wrClosed <;> cases bcast <;> cases reset <;>
            simp [CState.escape, CState.sendEsc, CState.send] at he <;> subst he <;> simp
      · rw [if_neg h2, put]

theorem keyNotes_ok {stk : List UInt8} (h : 1024 ≤ stk.length) (s : CSess) (c : UInt8) : ∃ ns, s.keyNotes stk c = some ns ∧ ∀ t ∈ ns, IsNote s.cs.esc t := by
  have st : ∀ {m : List UInt8}, (0 : UInt8) ∉ m → ∃ t, statusMsg stk s.consoles m = some t ∧ IsMsg t := by
    intro m hm
    obtain ⟨t, h1, h2, -⟩ := statusMsg_msg h s.consoles hm
    exact ⟨t, h1, h2⟩
  unfold CSess.keyNotes
  by_cases h0 : s.cs.done = true ∨ s.cs.inEsc = false
  · rw [if_pos h0]; exact ⟨[], rfl, by simp⟩
  rw [if_neg h0]
  by_cases h1 : c = 0x2E
  · subst h1
    obtain ⟨t, e1, e2⟩ := st (m := bs "closed") (by decide)
    rw [if_pos rfl, echoEsc_eq s.cs.esc 0x2E (by omega) (by decide), Option.bind_some, e1, Option.map_some]
    refine ⟨_, rfl, ?_⟩
    intro x hx
    simp only [List.mem_cons, List.not_mem_nil, or_false] at hx
    rcases hx with rfl | rfl
    · exact Or.inr (Or.inl (by congr 1))
    · exact Or.inl e2
  rw [if_neg h1]
  by_cases h2 : c = 0x3F
  · rw [if_pos h2, helpMsg_eq h, Option.map_some]
    refine ⟨_, rfl, ?_⟩
    intro x hx
    rw [List.mem_singleton.1 hx]
    exact Or.inr (Or.inr (Or.inr ⟨_, rfl⟩))
  rw [if_neg h2]
  by_cases h3 : c = 0x49
  · rw [if_pos h3]
    refine ⟨_, rfl, ?_⟩
    intro x hx
    rw [List.mem_singleton.1 hx]
    exact Or.inl (infoMsg_msg _ _ _ _)
  rw [if_neg h3]
  by_cases h4 : c = 0x5A
  · subst h4
    rw [if_pos rfl, echoEsc_eq s.cs.esc 0x5A (by omega) (by decide), Option.bind_some]
    by_cases h5 : s.cs.wrClosed = true
    · rw [if_pos h5]
      refine ⟨_, rfl, ?_⟩
      intro x hx
      rw [List.mem_singleton.1 hx]
      exact Or.inr (Or.inr (Or.inl (by congr 1)))
    · rw [if_neg h5]
      obtain ⟨a, a1, a2⟩ := st (m := bs "suspended") (by decide)
      obtain ⟨b, b1, b2⟩ := st (m := bs "resumed") (by decide)
      rw [a1, Option.bind_some, b1, Option.map_some]
      refine ⟨_, rfl, ?_⟩
      intro x hx
      simp only [List.mem_cons, List.not_mem_nil, or_false] at hx
      rcases hx with rfl | rfl | rfl
      · exact Or.inr (Or.inr (Or.inl (by congr 1)))
      · exact Or.inl a2
      · exact Or.inl b2
  rw [if_neg h4]
  exact ⟨[], rfl, by simp⟩

theorem dataOf_append (a b : List OutPiece) : dataOf (a ++ b) = dataOf a ++ dataOf b := by
  unfold dataOf; rw [List.map_append, List.flatten_append]

theorem notesOf_append (a b : List OutPiece) : notesOf (a ++ b) = notesOf a ++ notesOf b := by
  unfold notesOf; rw [List.filterMap_append]

theorem dataOf_notes (ns : List (List UInt8)) : dataOf (ns.map .note) = [] := by
  unfold dataOf
  induction ns with
  | nil => rfl
  | cons n ns ih => simpa using ih

theorem notesOf_notes (ns : List (List UInt8)) : notesOf (ns.map .note) = ns := by
  unfold notesOf
  induction ns with
  | nil => rfl
  | cons n ns ih => simpa using ih

theorem received_append (a b : List CEvent) : received (a ++ b) = received a ++ received b := by
  unfold received; rw [List.map_append, List.flatten_append]

/-- The key part of a turn. -/
theorem onKey_ok {stk : List UInt8} (h : 1024 ≤ stk.length) (s : CSess) (k : Option (Option UInt8)) (hd : s.cs.done = false) (hc : s.closed = s.cs.wrClosed) :
    ∃ s1, s.onKey stk k = some s1 ∧ dataOf s1.out = dataOf s.out ∧ s1.log = s.log ∧ s1.phase = s.phase ∧ s1.closed = s1.cs.wrClosed ∧ s1.cs.esc = s.cs.esc ∧
      s1.consoles = s.consoles ∧ (∀ t ∈ notesOf s1.out, t ∈ notesOf s.out ∨ IsNote s.cs.esc t) ∧
      (s1.cs.done = true → k = some none ∨ (s1.closed = true ∧ ∃ c, k = some (some c))) := by
  unfold CSess.onKey
  rcases k with _ | _ | c
  · exact ⟨s, rfl, rfl, rfl, rfl, hc, rfl, rfl, fun t ht => Or.inl ht, fun g => absurd g (by simp [hd])⟩
  · exact ⟨_, rfl, rfl, rfl, rfl, hc, rfl, rfl, fun t ht => Or.inl ht, fun _ => Or.inl rfl⟩
  · obtain ⟨ns, e1, e2⟩ := keyNotes_ok h s c
    dsimp only
    rw [e1, Option.map_some]
    refine ⟨_, rfl, ?_, rfl, rfl, ?_, key_esc _ _, rfl, ?_, ?_⟩
    · dsimp only
      rw [dataOf_append, dataOf_notes, List.append_nil]
    · dsimp only
      rw [key_closed, hc]
    · dsimp only
      intro t ht
      rw [notesOf_append, notesOf_notes] at ht
      rcases List.mem_append.1 ht with ht | ht
      · exact Or.inl ht
      · exact Or.inr (e2 t ht)
    · dsimp only
      intro g
      rcases key_done _ _ g with g | g
      · rw [hd] at g; simp at g
      · refine Or.inr ⟨?_, c, rfl⟩
        rw [hc, g]; rfl

/-- The data part. -/
theorem onData_ok (s : CSess) (d : Option (List UInt8)) :
    dataOf (s.onData d).out = dataOf s.out ++ d.getD [] ∧ (s.onData d).log = s.log.map (· ++ d.getD []) ∧ (s.onData d).phase = s.phase ∧
    (s.onData d).closed = s.closed ∧ (s.onData d).cs.wrClosed = s.cs.wrClosed ∧ (s.onData d).cs.esc = s.cs.esc ∧ (s.onData d).consoles = s.consoles ∧
    notesOf (s.onData d).out = notesOf s.out ∧ ((s.onData d).cs.done = true ↔ s.cs.done = true ∨ d = some []) := by
  rcases d with _ | _ | ⟨x, d⟩
  · simp [CSess.onData]
  · simp [CSess.onData]
  · simp only [CSess.onData]
    simp [dataOf_append, notesOf_append, dataOf, notesOf]

/-- The end of a turn. -/
theorem check_ok {stk : List UInt8} (h : 1024 ≤ stk.length) (s : CSess) :
    ∃ s1, s.check stk = some s1 ∧ dataOf s1.out = dataOf s.out ∧ s1.log = s.log ∧ s1.cs = s.cs ∧ s1.closed = s.closed ∧ s1.consoles = s.consoles ∧
      (∀ t ∈ notesOf s1.out, t ∈ notesOf s.out ∨ IsNote s.cs.esc t) ∧ s1.phase = (if s.cs.done then .ended else s.phase) := by
  unfold CSess.check
  by_cases hd : s.cs.done = true
  · rw [if_pos hd, if_pos hd]
    by_cases hc : s.closed = true
    · rw [if_pos hc]; exact ⟨_, rfl, rfl, rfl, rfl, rfl, rfl, fun t ht => Or.inl ht, rfl⟩
    · rw [if_neg hc]
      obtain ⟨t, h1, h2, -⟩ := statusMsg_msg h s.consoles (msg := bs "terminated by server") (by decide)
      rw [h1, Option.map_some]
      refine ⟨_, rfl, ?_, rfl, rfl, rfl, rfl, ?_, rfl⟩
      · dsimp only; rw [dataOf_append]; simp [dataOf]
      · dsimp only
        intro x hx
        rw [notesOf_append] at hx
        rcases List.mem_append.1 hx with hx | hx
        · exact Or.inl hx
        · simp [notesOf] at hx
          rw [hx]; exact Or.inr (Or.inl h2)
  · rw [if_neg hd, if_neg hd]; exact ⟨s, rfl, rfl, rfl, rfl, rfl, rfl, fun t ht => Or.inl ht, rfl⟩

theorem run_stuck (stk : List UInt8) (s : CSess) (h : s.phase ≠ .running) (es : List CEvent) : s.run stk es = some s := by
  induction es with
  | nil => rfl
  | cons e es ih =>
    unfold CSess.run CSess.step
    rw [if_neg h, Option.bind_some, ih]

/-- One turn. -/
theorem step_ok {stk : List UInt8} (h : 1024 ≤ stk.length) (s : CSess) (e : CEvent) (hp : s.phase = .running) (hd : s.cs.done = false) (hc : s.closed = s.cs.wrClosed) :
    ∃ s1, s.step stk e = some s1 ∧ dataOf s1.out = dataOf s.out ++ received [e] ∧ s1.log = s.log.map (· ++ received [e]) ∧ s1.closed = s1.cs.wrClosed ∧
      s1.cs.esc = s.cs.esc ∧ s1.consoles = s.consoles ∧ (∀ t ∈ notesOf s1.out, t ∈ notesOf s.out ∨ IsNote s.cs.esc t) ∧
      (s1.phase = .running ∧ s1.cs.done = false ∧ e ≠ .fail ∨ s1.phase = .died ∧ e = .fail ∨ s1.phase = .ended ∧ Ends s1.closed e) := by
  have hlog : ∀ (l : Option (List UInt8)), l.map (· ++ []) = l := by intro l; cases l <;> simp
  unfold CSess.step
  rw [if_pos hp]
  cases e with
  | fail =>
    refine ⟨_, rfl, by simp [received], by simp [received], hc, rfl, rfl, fun t ht => Or.inl ht, Or.inr (Or.inl ⟨rfl, rfl⟩)⟩
  | term =>
    obtain ⟨s1, e1, e2, e3, e4, e5, e6, e7, e8⟩ := check_ok h ({ s with cs := { s.cs with done := true } } : CSess)
    dsimp only at e2 e3 e4 e5 e6 e7 e8 ⊢
    refine ⟨s1, e1, by simp [received, e2], by rw [e3]; simp [received, hlog], by rw [e4, e5]; exact hc, by rw [e4], e6, e7, Or.inr (Or.inr ⟨?_, trivial⟩)⟩
    rw [e8]; rfl
  | round k d =>
    obtain ⟨s1, a1, a2, a3, a4, a5, a6, a7, a8, a9⟩ := onKey_ok h s k hd hc
    obtain ⟨b1, b2, b3, b4, b5, b6, b7, b8, b9⟩ := onData_ok s1 d
    obtain ⟨s2, e1, e2, e3, e4, e5, e6, e7, e8⟩ := check_ok h (s1.onData d)
    dsimp only
    rw [a1, Option.bind_some]
    have hr : received [.round k d] = d.getD [] := by cases d <;> simp [received]
    refine ⟨s2, e1, by rw [e2, b1, a2, hr], by rw [e3, b2, a3, hr], by rw [e4, e5, b4, b5, a5], by rw [e4, b6, a6], by rw [e6, b7, a7], ?_, ?_⟩
    · intro t ht
      rcases e7 t ht with g | g
      · rw [b8] at g; exact a8 t g
      · rw [b6, a6] at g; exact Or.inr g
    · by_cases hdone : (s1.onData d).cs.done = true
      · rw [if_pos hdone] at e8
        refine Or.inr (Or.inr ⟨e8, ?_⟩)
        rcases b9.1 hdone with g | g
        · rcases a9 g with g | ⟨g1, g2⟩
          · exact Or.inr (Or.inl g)
          · exact Or.inr (Or.inr ⟨by rw [e5, b4, g1], g2⟩)
        · exact Or.inl g
      · rw [if_neg hdone] at e8
        refine Or.inl ⟨by rw [e8, b3, a4, hp], by rw [e4]; simpa using hdone, by simp⟩

/-- C83. Everything that is received in a session is written to the terminal, and to the log if there is one, once and in order; texts of the client come between, never
in the log, and can be told: they are messages of one line that begin with `<ConMan>` (C84), the command that was typed, or the help.
The session goes on until an event ends it; nothing read before it, or with it, is lost. -/
theorem C83_session {stk : List UInt8} (h : 1024 ≤ stk.length) (s : CSess) (hp : s.phase = .running) (hd : s.cs.done = false) (hc : s.closed = s.cs.wrClosed)
    (es : List CEvent) :
    ∃ s' n, s.run stk es = some s' ∧ n ≤ es.length ∧
      dataOf s'.out = dataOf s.out ++ received (es.take n) ∧ s'.log = s.log.map (· ++ received (es.take n)) ∧
      (∀ t ∈ notesOf s'.out, t ∈ notesOf s.out ∨ IsNote s.cs.esc t) ∧
      (s'.phase = .running ∧ n = es.length ∨ s'.phase = .died ∧ 0 < n ∧ es[n - 1]? = some .fail ∨
        s'.phase = .ended ∧ 0 < n ∧ ∃ e, es[n - 1]? = some e ∧ Ends s'.closed e) := by
  induction es generalizing s with
  | nil => exact ⟨s, 0, rfl, Nat.le_refl _, by simp [received], by cases s.log <;> simp [received], fun t ht => Or.inl ht, Or.inl ⟨hp, rfl⟩⟩
  | cons e es ih =>
    obtain ⟨s1, a1, a2, a3, a4, a5, a6, a7, a8⟩ := step_ok h s e hp hd hc
    rcases a8 with ⟨p1, p2, -⟩ | ⟨p1, p2⟩ | ⟨p1, p2⟩
    · obtain ⟨s', n, b1, b2, b3, b4, b5, b6⟩ := ih s1 p1 p2 a4
      refine ⟨s', n + 1, by unfold CSess.run; rw [a1]; exact b1, by simp; omega, ?_, ?_, ?_, ?_⟩
      · rw [b3, a2, List.take_succ_cons, ← List.singleton_append (l := es.take n), received_append, List.append_assoc]
      · rw [b4, a3, List.take_succ_cons, ← List.singleton_append (l := es.take n), received_append]
        cases s.log <;> simp
      · intro t ht
        rcases b5 t ht with g | g
        · exact a7 t g
        · rw [a5] at g; exact Or.inr g
      · rcases b6 with ⟨q1, q2⟩ | ⟨q1, q2, q3⟩ | ⟨q1, q2, x, q3, q4⟩
        · exact Or.inl ⟨q1, by simp [q2]⟩
        · refine Or.inr (Or.inl ⟨q1, by omega, ?_⟩)
          obtain ⟨m, rfl⟩ : ∃ m, n = m + 1 := ⟨n - 1, by omega⟩
          simpa using q3
        · refine Or.inr (Or.inr ⟨q1, by omega, x, ?_, q4⟩)
          obtain ⟨m, rfl⟩ : ∃ m, n = m + 1 := ⟨n - 1, by omega⟩
          simpa using q3
    · refine ⟨s1, 1, by unfold CSess.run; rw [a1]; exact run_stuck _ _ (by simp [p1]) _, by simp, by simpa using a2, by simpa using a3, a7, Or.inr (Or.inl ⟨p1, by omega, by simp [p2]⟩)⟩
    · refine ⟨s1, 1, by unfold CSess.run; rw [a1]; exact run_stuck _ _ (by simp [p1]) _, by simp, by simpa using a2, by simpa using a3, a7, Or.inr (Or.inr ⟨p1, by omega, e, by simp, p2⟩)⟩

/-- A session of a client with a log: data, a command, data and the end. -/
example : (CSess.run (List.replicate 1024 0) { cs := { esc := 0x26 }, consoles := [bs "n"], log := some [] }
      [.round none (some (bs "ab")), .round (some (some 0x26)) none, .round (some (some 0x49)) (some (bs "c")), .round none (some [])]).map (fun s => (s.out.map OutPiece.bytes, s.log, s.phase)) =
    some ([bs "ab", bs "\r\n<ConMan> Connected R/W to console [n] on <:0>.\r\n", bs "c", bs "\r\n<ConMan> Connection to console [n] terminated by server.\r\n"], some (bs "abc"), .ended) := by
  decide +kernel

/-! ### The log -/

/-- What a log file contains at the end. -/
def LogIs (start finish : Option (List UInt8)) (end1 : List UInt8) (o : COutcome) : Prop :=
  finish = start.map fun l => l ++ dataOf o.out ++ o.err ++ (if o.exit = some 0 then end1 else [])

theorem logIs_error (c : ClientConf) (w : CWorld) (log : Option (List UInt8)) (sent : List UInt8) (sd : Bool) (n : Int) (m : Option (List UInt8)) (x : List UInt8) :
    LogIs log (displayError c w log sent sd n m).log x (displayError c w log sent sd n m) := by
  unfold LogIs displayError
  dsimp only
  by_cases h : n ≠ 1 ∧ sd = true
  · rw [if_pos h]
    by_cases h2 : w.tailErr = true
    · rw [if_pos h2]; cases log <;> simp [dataOf]
    · rw [if_neg h2]; cases log <;> simp [dataOf]
  · rw [if_neg h]; cases log <;> simp [dataOf]

theorem dataOf_data (l : List (List UInt8)) : dataOf (l.map .data) = l.flatten := by
  induction l with
  | nil => rfl
  | cons a l ih => simpa [dataOf] using ih

theorem logIs_end {c : ClientConf} {w : CWorld} (hs : 1024 ≤ w.stk.length) {log : Option (List UInt8)} {sent host : List UInt8} {consoles : List (List UInt8)} {reset : Bool}
    {o : COutcome} (h : clientEnd c w log sent host consoles reset = some o) : LogIs log o.log (logMark (bs "finished") w.now2) o := by
  unfold clientEnd at h
  by_cases h1 : c.cmd = .query
  · rw [if_pos h1] at h
    obtain ⟨r, -, rfl⟩ := Option.map_eq_some_iff.1 h
    dsimp only
    unfold LogIs
    by_cases h2 : r.2 = true
    · rw [if_pos h2]; cases log <;> simp [dataOf_data]
    · rw [if_neg h2]; cases log <;> simp [dataOf_data]
  rw [if_neg h1] at h
  by_cases h2 : w.ttys = false
  · rw [if_pos h2] at h
    cases h
    unfold LogIs; cases log <;> simp [dataOf]
  rw [if_neg h2] at h
  obtain ⟨t, -, h⟩ := Option.bind_eq_some_iff.1 h
  obtain ⟨s, e1, e2⟩ := Option.map_eq_some_iff.1 h
  generalize hs0 : ({
        cs := { esc := c.esc, cmd := if c.cmd = .monitor then .monitor else .connect, bcast := c.bcast && consoles.length ≠ 1, force := c.force, join := c.join, quiet := c.quiet, reset := reset },
        consoles := consoles, host := host, port := c.port, out := [.note t], log := log, sent := sent } : CSess) = s0 at e1
  have g1 : s0.phase = .running := by rw [← hs0]
  have g2 : s0.cs.done = false := by rw [← hs0]
  have g3 : s0.closed = s0.cs.wrClosed := by rw [← hs0]
  have g4 : dataOf s0.out = [] := by rw [← hs0]; rfl
  have g5 : s0.log = log := by rw [← hs0]
  obtain ⟨s', n, a1, -, a3, a4, -, -⟩ := C83_session hs s0 g1 g2 g3 w.events
  rw [a1] at e1; cases e1
  rw [g4, List.nil_append] at a3
  rw [g5] at a4
  subst e2
  unfold LogIs
  split
  all_goals (dsimp only; rw [a4, a3]; cases log <;> simp)

theorem logIs_connect {c : ClientConf} {w : CWorld} (hs : 1024 ≤ w.stk.length) {log : Option (List UInt8)} {o : COutcome} (h : clientConnect c w log = some o) :
    LogIs log o.log (logMark (bs "finished") w.now2) o := by
  unfold clientConnect at h
  by_cases h1 : w.resolved = false
  · rw [if_pos h1] at h; cases h; exact logIs_error _ _ _ _ _ _ _ _
  rw [if_neg h1] at h
  split at h
  · cases h; exact logIs_error _ _ _ _ _ _ _ _
  generalize clientHost c w = host at h
  unfold clientGreet at h
  obtain ⟨g, -, h⟩ := Option.bind_eq_some_iff.1 h
  split at h
  · cases h; exact logIs_error _ _ _ _ _ _ _ _
  · cases h; exact logIs_error _ _ _ _ _ _ _ _
  obtain ⟨r1, -, h⟩ := Option.bind_eq_some_iff.1 h
  by_cases h2 : r1.2 = false
  · rw [if_pos h2] at h; cases h; exact logIs_error _ _ _ _ _ _ _ _
  rw [if_neg h2] at h
  unfold clientReq at h
  obtain ⟨q, -, h⟩ := Option.bind_eq_some_iff.1 h
  split at h
  · cases h; exact logIs_error _ _ _ _ _ _ _ _
  · cases h; exact logIs_error _ _ _ _ _ _ _ _
  split at h
  · cases h; exact logIs_error _ _ _ _ _ _ _ _
  obtain ⟨r2, -, h⟩ := Option.bind_eq_some_iff.1 h
  by_cases h3 : r2.2 = false
  · rw [if_pos h3] at h; cases h; exact logIs_error _ _ _ _ _ _ _ _
  rw [if_neg h3] at h
  exact logIs_end hs h

/-- C83. The log of the client: to what the file contained a line with the time is added, then everything that the server sent, or the text of the error, and, when the
client ends with status 0, a line with the time again. -/
theorem C83_log {c : ClientConf} {w : CWorld} (hs : 1024 ≤ w.stk.length) {name old : List UInt8} (hc : c.log = some name) (hf : w.logFile = some old) {o : COutcome}
    (h : clientMain c w = some o) :
    o.log = some (old ++ (bs "\r\n<ConMan> Log started at " ++ w.now1 ++ bs ".\r\n") ++ dataOf o.out ++ o.err ++
      (if o.exit = some 0 then bs "\r\n<ConMan> Log finished at " ++ w.now2 ++ bs ".\r\n" else [])) := by
  unfold clientMain at h
  rw [hc, hf] at h
  have g := logIs_connect hs h
  unfold LogIs at g
  rw [g]
  have e1 : msgPrefix ++ bs "Log " ++ bs "started" ++ bs " at " = bs "\r\n<ConMan> Log started at " := by decide
  have e2 : msgPrefix ++ bs "Log " ++ bs "finished" ++ bs " at " = bs "\r\n<ConMan> Log finished at " := by decide
  have e3 : msgSuffix = bs ".\r\n" := rfl
  unfold logMark
  rw [e1, e2, e3]
  simp

/-- Without `-l` nothing is logged; if the file cannot be opened the client ends at once, nothing is sent. -/
theorem C83_no_log {c : ClientConf} {w : CWorld} (hs : 1024 ≤ w.stk.length) {o : COutcome} (h : clientMain c w = some o) :
    (c.log = none → o.log = none) ∧ (c.log ≠ none → w.logFile = none → o = { exit := some 1 }) := by
  unfold clientMain at h
  refine ⟨fun g => ?_, fun g1 g2 => ?_⟩
  · rw [g] at h
    have := logIs_connect hs h
    unfold LogIs at this
    rw [this]; rfl
  · cases hc : c.log with
    | none => exact absurd hc g1
    | some n => rw [hc, g2] at h; cases h; rfl

/-- Who ended a session is not told: the client says the server did when it was told to terminate, or when its own input ended. -/
theorem C83_blames_server {stk : List UInt8} (h : 1024 ≤ stk.length) (s : CSess) (hp : s.phase = .running) (hc : s.closed = false) {name : List UInt8} (hn : s.consoles = [name])
    (hz : (0 : UInt8) ∉ name) (hl : name.length ≤ 900) {e : CEvent} (he : e = .term ∨ e = .round (some none) none) :
    ∃ s', s.step stk e = some s' ∧ s'.phase = .ended ∧
      s'.out = s.out ++ [.note (bs "\r\n<ConMan> Connection to console [" ++ name ++ bs "] terminated by server.\r\n")] := by
  have ha : argS name = name := takeWhile_nul hz
  have hm : statusMsg stk s.consoles (bs "terminated by server") = some (bs "\r\n<ConMan> Connection to console [" ++ name ++ bs "] terminated by server.\r\n") := by
    rw [statusMsg_eq h _ (by decide)]
    have ht : statusText s.consoles (bs "terminated by server") = bs "\r\n<ConMan> Connection to console [" ++ name ++ bs "] terminated by server.\r\n" := by
      have e1 : bs "\r\n<ConMan> Connection to console [" = bs "\r\n<ConMan> " ++ bs "Connection to console [" := by decide
      have e2 : bs "] terminated by server.\r\n" = bs "] " ++ bs "terminated by server" ++ bs ".\r\n" := by decide
      unfold statusText
      rw [hn, e1, e2]
      unfold statusWho
      dsimp only
      rw [ha]
      simp only [List.append_assoc]
    rw [ht, if_pos]
    have l1 : (bs "\r\n<ConMan> Connection to console [").length = 34 := by decide
    have l2 : (bs "] terminated by server.\r\n").length = 25 := by decide
    rw [List.length_append, List.length_append, l1, l2]; omega
  have key : (({ s with cs := { s.cs with done := true } } : CSess).check stk) = some { s with
      cs := { s.cs with done := true },
      out := s.out ++ [.note (bs "\r\n<ConMan> Connection to console [" ++ name ++ bs "] terminated by server.\r\n")], phase := .ended } := by
    unfold CSess.check
    dsimp only
    rw [if_pos rfl, if_neg (by rw [hc]; decide), hm, Option.map_some]
  unfold CSess.step
  rw [if_pos hp]
  rcases he with rfl | rfl
  · dsimp only
    exact ⟨_, key, rfl, rfl⟩
  · dsimp only [CSess.onKey, CSess.onData, Option.bind_some]
    exact ⟨_, key, rfl, rfl⟩

/-- A query and a session with a log that exists, and a refused request: what the file has at the end. -/
example : (clientMain { host := bs "h", port := 7890, esc := 0x26, cmd := .query, consoles := [bs "n*"], log := some (bs "f") }
      { stk := List.replicate 1024 0, user := bs "me", rsp1 := .line (bs "OK\n"), rsp2 := .line (bs "OK CONSOLE='n1'\n"), logFile := some (bs "old"), now1 := bs "T1", now2 := bs "T2" }).map (fun o => (o.exit, o.log)) =
    some (some 0, some (bs "old\r\n<ConMan> Log started at T1.\r\nn1\n\r\n<ConMan> Log finished at T2.\r\n")) ∧
    (clientMain { host := bs "h", port := 7890, esc := 0x26, consoles := [bs "n1"], log := some (bs "f") }
      { stk := List.replicate 1024 0, user := bs "me", rsp1 := .line (bs "OK\n"), rsp2 := .line (bs "OK CONSOLE='n1'\n"), logFile := some (bs "old"), now1 := bs "T1", now2 := bs "T2",
        events := [.round none (some (bs "ab")), .round none (some (bs "c")), .round none (some [])] }).map (fun o => (o.exit, o.log)) =
    some (some 0, some (bs "old\r\n<ConMan> Log started at T1.\r\nabc\r\n<ConMan> Log finished at T2.\r\n")) ∧
    (clientMain { host := bs "h", port := 7890, esc := 0x26, consoles := [bs "n1"], log := some (bs "f") }
      { stk := List.replicate 1024 0, user := bs "me", rsp1 := .line (bs "ERROR CODE=3 MESSAGE='No'\n"), rsp2 := .line (bs "OK\n"), logFile := some [], now1 := bs "T1", now2 := bs "T2" }).map (fun o => (o.exit, o.log)) =
    some (some 2, some (bs "\r\n<ConMan> Log started at T1.\r\nERROR: No.\n\n")) := by decide +kernel

/-- `C83_no_log`: the file cannot be opened. -/
example : clientMain { host := bs "h", port := 7890, esc := 0x26, consoles := [bs "n1"], log := some (bs "f") }
      { stk := List.replicate 1024 0, user := bs "me", rsp1 := .line (bs "OK\n"), rsp2 := .line (bs "OK\n"), logFile := none } = some { exit := some 1 } := by decide +kernel

/-- `C83_blames_server`: the input ends. -/
example : (CSess.step (List.replicate 1024 0) { cs := { esc := 0x26 }, consoles := [bs "n"] } (.round (some none) none)).map (fun s => (s.phase, s.out.map OutPiece.bytes)) =
    some (.ended, [bs "\r\n<ConMan> Connection to console [n] terminated by server.\r\n"]) := by decide +kernel

end Conman
