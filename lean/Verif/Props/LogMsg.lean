import Verif.Lemma.LogMsg
import Verif.Lemma.LogForge

/-
C79: messages of the daemon.
-/
namespace Conman
open Spec

/-- C79. Whatever the message, its length, and the contents of the array, no byte outside of it is touched; the file gets the line of the message if it is important enough for it
and the write does not fail, with or without the time of day; syslog gets the line without time and priority; and after a failed write the file is not written to. -/
theorem C79_line (s : LogState) (buf : List UInt8) (c : LogCall) (failed : Bool) (hb : buf.length = 1024) (hc : c.ok) :
    ∃ s' o, logAux s buf c failed = some (s', o) ∧ s'.syslog = s.syslog ∧
      (∀ level stamps, s.file = some (level, stamps) → c.prio ≤ level → failed = false →
        s'.file = s.file ∧ o.file = if stamps then c.line else c.line.drop c.stamp.length) ∧
      (∀ level stamps, s.file = some (level, stamps) → c.prio ≤ level → failed = true → s'.file = none ∧ o.file = []) ∧
      (∀ level stamps, s.file = some (level, stamps) → level < c.prio → s'.file = s.file ∧ o.file = []) ∧
      (s.file = none → s'.file = none ∧ o.file = []) ∧
      (s.syslog = true → o.syslog.head? = some (c.line.drop (c.stamp.length + 11))) ∧
      o.msg = c.line.drop (c.stamp.length + 11) := by
  obtain ⟨r, e, hz⟩ := logFill_eq hb hc
  have hlen : c.stamp.length + 11 ≤ c.line.length := by
    obtain ⟨h1, h2⟩ := logHead_facts c.prio
    obtain ⟨c1, c2, c3, c4, c5⟩ := hc
    unfold LogCall.line LogCall.full
    simp only [List.length_append, List.length_take, h1]
    omega
  have hlen2 : c.line.length ≤ 1023 := by
    unfold LogCall.line
    rw [List.length_append, List.length_take]
    split <;> simp <;> omega
  have dz : ∀ n, (0 : UInt8) ∉ c.line.drop n := fun n hm => hz (List.mem_of_mem_drop hm)
  have d1 : cstr ((c.line ++ 0 :: r).drop c.stamp.length) = some (c.line.drop c.stamp.length) := by
    rw [List.drop_append_of_le_length (by omega)]; exact cstr_app (dz _)
  have d2 : cstr ((c.line ++ 0 :: r).drop (c.stamp.length + 11)) = some (c.line.drop (c.stamp.length + 11)) := by
    rw [List.drop_append_of_le_length (by omega)]; exact cstr_app (dz _)
  have d3 : (c.line.drop (c.stamp.length + 11)).take (maxLine - 1) = c.line.drop (c.stamp.length + 11) :=
    List.take_of_length_le (by rw [List.length_drop]; unfold maxLine; omega)
  have hs : s.syslog = true → ∀ x : List (List UInt8), ((if s.syslog then [c.line.drop (c.stamp.length + 11)] else []) ++ x).head? = some (c.line.drop (c.stamp.length + 11)) := by
    intro g x; rw [if_pos g]; rfl
  have hs0 : s.syslog = true → (if s.syslog then [c.line.drop (c.stamp.length + 11)] else []).head? = some (c.line.drop (c.stamp.length + 11)) := by
    intro g; rw [if_pos g]; rfl
  unfold logAux
  rw [e, Option.bind_some]
  dsimp only
  rw [cstr_app hz, Option.bind_some, d1, Option.bind_some, d2, Option.bind_some, d3]
  cases hf : s.file with
  | none =>
    dsimp only
    exact ⟨_, _, rfl, rfl, by simp, by simp, by simp, fun _ => ⟨hf, rfl⟩, hs0, rfl⟩
  | some f =>
    obtain ⟨level, stamps⟩ := f
    dsimp only
    by_cases hp : c.prio ≤ level
    · rw [if_pos hp]
      cases failed with
      | true =>
        rw [if_pos rfl]
        refine ⟨_, _, rfl, rfl, by simp, fun _ _ _ _ _ => ⟨rfl, rfl⟩, ?_, by simp, fun g => hs g _, rfl⟩
        intro l st g h
        simp only [Option.some.injEq, Prod.mk.injEq] at g
        omega
      | false =>
        rw [if_neg (by decide)]
        refine ⟨_, _, rfl, rfl, ?_, by simp, ?_, by simp, hs0, rfl⟩
        · intro l st g _ _
          simp only [Option.some.injEq, Prod.mk.injEq] at g
          obtain ⟨rfl, rfl⟩ := g
          exact ⟨hf, rfl⟩
        · intro l st g h
          simp only [Option.some.injEq, Prod.mk.injEq] at g
          omega
    · rw [if_neg hp]
      refine ⟨_, _, rfl, rfl, ?_, ?_, fun _ _ _ _ => ⟨hf, rfl⟩, by simp, hs0, rfl⟩
      · intro l st g h
        simp only [Option.some.injEq, Prod.mk.injEq] at g
        omega
      · intro l st g h
        simp only [Option.some.injEq, Prod.mk.injEq] at g
        omega

/-- C79, for histories: the file has the lines of the messages that are important enough, all of them and in order, up to the first that cannot be written. -/
theorem C79_history (level : Int) (stamps : Bool) : ∀ (h : List (List UInt8 × LogCall × Bool)) (s : LogState), s.file = some (level, stamps) →
    (∀ x ∈ h, x.1.length = 1024 ∧ x.2.1.ok) →
    ∃ s' os, logRun s h = some (s', os) ∧ (os.map LogOut.file).flatten = logFile level stamps (h.map (·.2)) := by
  have closed : ∀ (h : List (List UInt8 × LogCall × Bool)) (s : LogState), s.file = none → (∀ x ∈ h, x.1.length = 1024 ∧ x.2.1.ok) →
      ∃ s' os, logRun s h = some (s', os) ∧ (os.map LogOut.file).flatten = [] := by
    intro h
    induction h with
    | nil => intro s _ _; exact ⟨s, [], rfl, rfl⟩
    | cons x h ih =>
      intro s hs hx
      obtain ⟨buf, c, failed⟩ := x
      obtain ⟨hb, hc⟩ := hx _ (List.mem_cons_self)
      obtain ⟨s1, o, e, _, _, _, _, h4, _, _⟩ := C79_line s buf c failed hb hc
      obtain ⟨k1, k2⟩ := h4 hs
      obtain ⟨s2, os, e2, he⟩ := ih s1 k1 (fun x h => hx x (List.mem_cons_of_mem _ h))
      refine ⟨s2, o :: os, ?_, ?_⟩
      · rw [logRun, e, Option.bind_some, e2]; rfl
      · rw [List.map_cons, List.flatten_cons, k2, he]; rfl
  intro h
  induction h with
  | nil => intro s _ _; exact ⟨s, [], rfl, rfl⟩
  | cons x h ih =>
    intro s hs hx
    obtain ⟨buf, c, failed⟩ := x
    obtain ⟨hb, hc⟩ := hx _ (List.mem_cons_self)
    have hx' := fun x h => hx x (List.mem_cons_of_mem _ h)
    obtain ⟨s1, o, e, _, h1, h2, h3, _, _, _⟩ := C79_line s buf c failed hb hc
    rw [logRun, e, Option.bind_some, List.map_cons]
    by_cases hp : c.prio ≤ level
    · cases failed with
      | true =>
        obtain ⟨k1, k2⟩ := h2 _ _ hs hp rfl
        obtain ⟨s2, os, e2, he⟩ := closed h s1 k1 hx'
        refine ⟨s2, o :: os, by dsimp only; rw [e2]; rfl, ?_⟩
        rw [List.map_cons, List.flatten_cons, k2, he, logFile, if_pos hp, if_pos rfl]; rfl
      | false =>
        obtain ⟨k1, k2⟩ := h1 _ _ hs hp rfl
        obtain ⟨s2, os, e2, he⟩ := ih s1 (k1.trans hs) hx'
        refine ⟨s2, o :: os, by dsimp only; rw [e2]; rfl, ?_⟩
        rw [List.map_cons, List.flatten_cons, k2, he, logFile, if_pos hp, if_neg (show ¬ false = true by decide)]
    · obtain ⟨k1, k2⟩ := h3 _ _ hs (by omega)
      obtain ⟨s2, os, e2, he⟩ := ih s1 (k1.trans hs) hx'
      refine ⟨s2, o :: os, by dsimp only; rw [e2]; rfl, ?_⟩
      rw [List.map_cons, List.flatten_cons, k2, he, logFile, if_neg hp]; rfl

/-- C79: a line has at most 1023 bytes, starts with time and priority, and ends with its newline; nothing is lost of a message that fits. -/
theorem C79_shape (c : LogCall) (hc : c.ok) (hn : c.nl = false) :
    c.line.length ≤ 1023 ∧ c.line.getLast? = some 0x0A ∧ c.stamp ++ logHead c.prio <+: c.line ∧ (c.full.length ≤ 1022 → c.line = c.full ++ [0x0A]) := by
  have e : c.line = c.full.take 1022 ++ [0x0A] := by unfold LogCall.line; simp [hn]
  obtain ⟨h1, h2⟩ := logHead_facts c.prio
  refine ⟨by rw [e]; simp; omega, by rw [e]; simp, ?_, fun h => by rw [e, List.take_of_length_le h]⟩
  rw [e]
  obtain ⟨c1, c2, c3, c4, c5⟩ := hc
  unfold LogCall.full
  rw [List.append_assoc _ c.text, List.take_append, List.take_of_length_le (by rw [List.length_append, h1]; omega), List.append_assoc]
  exact List.prefix_append _ _

/-- C79 (partial): a message is one line, if its text and the text of the error have no newline.  Missing: texts with newlines, see `C79_forged`. -/
theorem C79_one_partial (c : LogCall) (hc : c.ok) (hn : c.nl = false) (h1 : (0x0A : UInt8) ∉ c.stamp) (h2 : (0x0A : UInt8) ∉ c.text) (h3 : ∀ e ∈ c.err, (0x0A : UInt8) ∉ e) :
    c.line.count 0x0A = 1 ∧ ∀ n ≤ c.stamp.length, ∃ l, c.line.drop n = l ++ [0x0A] ∧ (0x0A : UInt8) ∉ l := by
  have e : c.line = c.full.take 1022 ++ [0x0A] := by unfold LogCall.line; simp [hn]
  have hf : (0x0A : UInt8) ∉ c.full := by
    unfold LogCall.full
    have hh : (0x0A : UInt8) ∉ logHead c.prio := by unfold logHead; split <;> decide
    simp only [List.mem_append, not_or, hn]
    refine ⟨⟨⟨h1, hh⟩, h2⟩, ?_⟩
    unfold LogCall.errText
    cases he : c.err with
    | none => simp
    | some x =>
      simp only [Bool.false_eq_true, if_false, List.mem_append, not_or]
      exact ⟨by decide, h3 x (by rw [he]; rfl)⟩
  have ht : (0x0A : UInt8) ∉ c.full.take 1022 := fun hm => hf (List.mem_of_mem_take hm)
  refine ⟨by rw [e, List.count_append, List.count_eq_zero_of_not_mem ht]; rfl, ?_⟩
  intro n hnl
  have g : n ≤ (c.full.take 1022).length := by
    obtain ⟨c1, c2, c3, c4, c5⟩ := hc
    unfold LogCall.full
    simp only [List.length_take, List.length_append]
    omega
  exact ⟨(c.full.take 1022).drop n, by rw [e, List.drop_append_of_le_length g], fun hm => ht (List.mem_of_mem_drop hm)⟩

/-- A message of the daemon when a client asks for the consoles, src/server-sock.c:814-815. -/
def queryText (user host port : List UInt8) : List UInt8 := bs "Client <" ++ user ++ bs "@" ++ host ++ bs ":" ++ port ++ bs "> issued query"

/-- C79 is false of the names of users, which are written as they are received: whoever can connect to the daemon can add any line (7-bit, up to 900 bytes) to its log. -/
theorem C79_forged (l : List UInt8) (h1 : ∀ c ∈ l, 0 < c ∧ c < 128 ∧ c ≠ 0x0A) (h2 : l.length ≤ 900) : ∃ x : List UInt8,
    (∀ junk, recvGreeting (bs "HELLO USER='" ++ x ++ bs "'\n" ++ 0 :: junk) = some { user := some (0x0A :: l ++ [0x0A]) }) ∧
    ∀ (buf stamp host port : List UInt8) (level : Int) (stamps sys : Bool), buf.length = 1024 → stamp ≠ [] → stamp.length ≤ 30 → (0 : UInt8) ∉ stamp ++ host ++ port → 6 ≤ level →
      ∃ s' o, logAux { file := some (level, stamps), syslog := sys } buf { stamp := stamp, prio := 6, text := queryText (0x0A :: l ++ [0x0A]) host port } false = some (s', o) ∧
        IsLine o.file l := by
  have hu : ∀ c ∈ 0x0A :: l ++ [0x0A], (0 : UInt8) < c ∧ c < 128 := by
    intro c hc
    simp only [List.cons_append, List.mem_cons, List.mem_append, List.not_mem_nil, or_false] at hc
    rcases hc with rfl | hc | rfl
    · decide
    · exact ⟨(h1 c hc).1, (h1 c hc).2.1⟩
    · decide
  obtain ⟨d1, d2⟩ := high_decode _ hu
  refine ⟨(0x0A :: l ++ [0x0A]).map (· ||| 0x80), ?_, ?_⟩
  · intro junk
    rw [greeting_high _ junk d2 (by simp; omega) (by simp), d1]
  · intro buf stamp host port level stamps sys hb hs0 hs1 hz hl
    simp only [List.mem_append, not_or] at hz
    have zl : (0 : UInt8) ∉ l := fun hm => absurd (h1 0 hm).1 (by decide)
    have nl : (0x0A : UInt8) ∉ l := fun hm => (h1 _ hm).2.2 rfl
    have hc : LogCall.ok { stamp := stamp, prio := 6, text := queryText (0x0A :: l ++ [0x0A]) host port } := by
      refine ⟨hs0, by dsimp only; omega, hz.1.1, ?_, by simp⟩
      unfold queryText
      simp only [List.mem_append, List.mem_cons, not_or]
      exact ⟨⟨⟨⟨⟨⟨by decide, ⟨by decide, zl⟩, by decide, by decide⟩, by decide⟩, hz.1.2⟩, by decide⟩, hz.2⟩, by decide⟩
    obtain ⟨s', o, e, _, k, _⟩ := C79_line { file := some (level, stamps), syslog := sys } buf _ false hb hc
    refine ⟨s', o, e, ?_⟩
    rw [(k level stamps rfl hl rfl).2]
    obtain ⟨t, ht⟩ : ∃ t, (LogCall.line { stamp := stamp, prio := 6, text := queryText (0x0A :: l ++ [0x0A]) host port }) =
        stamp ++ ((bs "INFO:      Client <" ++ [0x0A]) ++ l ++ 0x0A :: t) := by
      have e1 : logHead 6 = bs "INFO:      " := rfl
      have e2 : bs "INFO:      Client <" = bs "INFO:      " ++ bs "Client <" := by decide
      have l1 : (bs "INFO:      Client <").length = 19 := by decide
      unfold LogCall.line LogCall.full queryText
      dsimp only
      rw [if_neg (by decide), if_neg (by decide), e1]
      unfold LogCall.errText
      dsimp only
      rw [List.append_nil]
      have : stamp ++ bs "INFO:      " ++ (bs "Client <" ++ (0x0A :: l ++ [0x0A]) ++ bs "@" ++ host ++ bs ":" ++ port ++ bs "> issued query") =
          (stamp ++ ((bs "INFO:      Client <" ++ [0x0A]) ++ l ++ [0x0A])) ++ (bs "@" ++ host ++ bs ":" ++ port ++ bs "> issued query") := by
        rw [e2]; simp only [List.append_assoc, List.cons_append, List.nil_append]
      rw [this, List.take_append, List.take_of_length_le (by simp only [List.length_append, List.length_singleton, l1]; omega)]
      exact ⟨_, by simp only [List.append_assoc, List.cons_append, List.nil_append]; rfl⟩
    rw [ht]
    refine ⟨nl, ?_⟩
    cases stamps with
    | true => exact ⟨stamp ++ (bs "INFO:      Client <" ++ [0x0A]), t, by simp only [List.append_assoc, if_true], Or.inr (by simp)⟩
    | false =>
      refine ⟨bs "INFO:      Client <" ++ [0x0A], t, ?_, Or.inr (by simp)⟩
      rw [if_neg (by decide)]
      exact List.drop_left' rfl

/-- C79: what a user sees of a start of the daemon. -/
example : (logAux { file := some (6, true) } (List.replicate 1024 7) { stamp := bs "2026-01-02 03:04:05 ", prio := 5, text := bs "Starting ConMan daemon 0.3.1 (pid 77)" } false).map (·.2.file) =
    some (bs "2026-01-02 03:04:05 NOTICE:    Starting ConMan daemon 0.3.1 (pid 77)\n") := by
  decide +kernel

/-- The hypotheses of `C79_line`, `C79_history`, `C79_shape` and `C79_one_partial` are met. -/
example : LogCall.ok { stamp := bs "2026-01-02 03:04:05 ", prio := 3, text := bs "Unable to bind to port 7890", err := some (bs "Address already in use") } := by
  unfold LogCall.ok; decide

example : (LogCall.mk (bs "2026-01-02 03:04:05 ") 3 (bs "Unable to bind to port 7890") (some (bs "Address already in use")) false).line =
    bs "2026-01-02 03:04:05 ERROR:     Unable to bind to port 7890: Address already in use\n" := by decide

/-- A log after a full disk: the rest is missing. -/
example : logFile 6 false [(⟨bs "T ", 5, bs "one", none, false⟩, false), (⟨bs "T ", 7, bs "two", none, false⟩, false), (⟨bs "T ", 6, bs "three", none, false⟩, true), (⟨bs "T ", 6, bs "four", none, false⟩, false)] =
    bs "NOTICE:    one\n" := by decide

/-- The hypotheses of `C79_forged` are met by a line that says that someone else connected. -/
example : (∀ c ∈ bs "2026-01-02 03:04:05 INFO:      Client <root@localhost:1023> connected to [db1]", (0 : UInt8) < c ∧ c < 128 ∧ c ≠ 0x0A) := by decide

end Conman
