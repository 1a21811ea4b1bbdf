import Verif.Lemma.NoticeText
import Verif.Lemma.NoticeUser
import Verif.Props.Disk

/-
C101: what the notices of the daemon say.
-/
namespace Conman
open Spec

variable {f : Facts}

/-- C101. A notice is its sentence between `<ConMan> ` and a full stop, on a line of its own, if the sentence has at most 1006 characters. -/
theorem C101_text (h : f.All (· ≠ 0)) (n : Note) (hf : (sentence f n).length ≤ 1006) :
    noticeText f n = bs "\r\n<ConMan> " ++ sentence f n ++ bs ".\r\n" := by
  have hz := body_nz h n
  unfold noticeText
  rw [body_sentence] at hz ⊢
  show _ = msgPrefix ++ sentence f n ++ msgSuffix
  cases n.buf with
  | link => rw [link_text hz, if_pos (by omega)]
  | notify => rw [notify_text hz, if_pos (by omega)]
  | fmt => rw [fmt_text hz, List.take_of_length_le (by rw [whole_length]; omega)]

/-- C101. Whatever the names are: a notice begins with `<ConMan> ` on a new line, is a C string, and has less than 1024 characters. -/
theorem C101_bounds (h : f.All (· ≠ 0)) (n : Note) :
    (bs "\r\n<ConMan> " <+: noticeText f n) ∧ (noticeText f n).length ≤ 1023 ∧ (0 : UInt8) ∉ noticeText f n := by
  have hz := body_nz h n
  have hw := whole_nz hz
  have hl := whole_length (noticeBody f n)
  show (msgPrefix <+: _) ∧ _
  unfold noticeText
  generalize noticeBody f n = m at hz hw hl
  have pre : ∀ k, 11 ≤ k → ∀ x, msgPrefix <+: (msgPrefix ++ x).take k := by
    intro k hk x
    rw [List.take_append, List.take_of_length_le (by rw [prefix_length]; exact hk)]
    exact List.prefix_append _ _
  cases n.buf with
  | link =>
    rw [link_text hz]
    split
    · rw [List.append_assoc]; exact ⟨List.prefix_append _ _, by rw [← List.append_assoc]; omega, by rw [← List.append_assoc]; exact hw⟩
    · refine ⟨?_, by simp only [List.length_append, List.length_take, List.length_cons, List.length_nil]; omega, ?_⟩
      · rw [List.append_assoc msgPrefix]
        exact (pre 1021 (by omega) _).trans (List.prefix_append _ _)
      · rw [List.mem_append, not_or]
        exact ⟨fun g => hw (List.mem_of_mem_take g), by decide⟩
  | notify =>
    rw [notify_text hz]
    split
    · rw [List.append_assoc]; exact ⟨List.prefix_append _ _, by rw [← List.append_assoc]; omega, by rw [← List.append_assoc]; exact hw⟩
    · refine ⟨(pre 1020 (by omega) _).trans (List.prefix_append _ _), by simp only [List.length_append, List.length_take, suffix_length]; omega, ?_⟩
      rw [List.mem_append, not_or]
      refine ⟨fun g => hw ?_, by decide⟩
      exact List.mem_append_left _ (List.mem_of_mem_take g)
  | fmt =>
    rw [fmt_text hz]
    refine ⟨?_, by rw [List.length_take]; omega, fun g => hw (List.mem_of_mem_take g)⟩
    rw [List.append_assoc msgPrefix]
    exact pre 1023 (by omega) _

theorem fmt_short (n : Note) (hb : n.buf = .fmt) (hn : ∀ l, n ≠ .logOpened l) : (sentence f n).length ≤ 1006 := by
  cases n <;> first | (exact absurd rfl (hn _)) | (simp only [Note.buf] at hb; cases hb; done) | skip
  · show (bs "Quiet-mode enabled -- info msgs will be suppressed").length ≤ 1006
    decide
  · show (bs "Quiet-mode disabled -- info msgs will be displayed").length ≤ 1006
    decide

/-- C101. Whatever the names are: every notice ends its line.  (Not the one at the opening of a log, `C101_opened_cut`.) -/
theorem C101_ends (h : f.All (· ≠ 0)) (n : Note) (hn : ∀ l, n ≠ .logOpened l) : bs "\r\n" <:+ noticeText f n := by
  have hz := body_nz h n
  have e1 : bs "\r\n" = [0x0D, 0x0A] := by decide
  have e2 : bs "\r\n" <:+ msgSuffix := by decide
  cases hb : n.buf with
  | fmt =>
    rw [C101_text h n (fmt_short n hb hn)]
    exact e2.trans (List.suffix_append _ _)
  | link =>
    unfold noticeText
    rw [hb, link_text hz]
    split
    · exact e2.trans (List.suffix_append _ _)
    · rw [e1]; exact List.suffix_append _ _
  | notify =>
    unfold noticeText
    rw [hb, notify_text hz]
    split <;> exact e2.trans (List.suffix_append _ _)

/-- C101. A notice is a single line if no name contains a line end, provided its sentence does not have one of two lengths (`C101_two_lines`)
and the sentence at the opening of a log is not longer than 1006 characters (`C101_opened_cut`). -/
theorem C101_one_line_partial (h : f.All (· ≠ 0)) (hc : f.All (fun b => b ≠ 0x0D ∧ b ≠ 0x0A)) (n : Note)
    (hl : (sentence f n).length ≤ 1006 ∨ ((sentence f n).length ≥ 1009 ∧ ∀ l, n ≠ .logOpened l)) : OneLine (noticeText f n) := by
  have hs := sentence_all hc (fun _ => print_nonl) n
  have hz := body_nz h n
  rw [body_sentence] at hz
  have e0 : msgPrefix = bs "\r\n" ++ bs "<ConMan> " := by decide
  have e1 : msgSuffix = bs "." ++ bs "\r\n" := by decide
  have l0 : ∀ b ∈ bs "<ConMan> ", b ≠ 0x0D ∧ b ≠ 0x0A := by decide
  have l1 : ∀ b ∈ bs ".", b ≠ 0x0D ∧ b ≠ 0x0A := by decide
  have ln : (bs "<ConMan> ").length = 9 := by decide
  have lr : (bs "\r\n").length = 2 := by decide
  have ld : (bs ".").length = 1 := by decide
  have good : ∀ x y : List UInt8, (∀ b ∈ x, b ≠ 0x0D ∧ b ≠ 0x0A) → (∀ b ∈ y, b ≠ 0x0D ∧ b ≠ 0x0A) → ∀ b ∈ x ++ y, b ≠ 0x0D ∧ b ≠ 0x0A := by
    intro x y hx hy b hb
    rcases List.mem_append.1 hb with g | g
    · exact hx b g
    · exact hy b g
  rcases hl with hl | ⟨hl, hn⟩
  · rw [C101_text h n hl]
    exact ⟨bs "<ConMan> " ++ sentence f n ++ bs ".", by rw [show bs "\r\n<ConMan> " = msgPrefix from rfl, e0, show bs ".\r\n" = msgSuffix from rfl, e1]; simp only [List.append_assoc],
      good _ _ (good _ _ l0 hs) l1⟩
  · unfold noticeText
    rw [body_sentence]
    cases hb : n.buf with
    | fmt => have := fmt_short (f := f) n hb hn; omega
    | link =>
      rw [link_text hz, if_neg (by omega), e0, e1]
      refine ⟨(bs "<ConMan> " ++ (sentence f n ++ bs ".")).take 1019, ?_, fun b hb => ?_⟩
      · rw [show ([0x0D, 0x0A] : List UInt8) = bs "\r\n" from by decide]
        have : bs "\r\n" ++ bs "<ConMan> " ++ sentence f n ++ (bs "." ++ bs "\r\n") = bs "\r\n" ++ ((bs "<ConMan> " ++ (sentence f n ++ bs ".")) ++ bs "\r\n") := by
          simp only [List.append_assoc]
        rw [this, List.take_append, List.take_of_length_le (l := bs "\r\n") (by omega), lr,
          List.take_append_of_le_length (by simp only [List.length_append, ln, ld]; omega)]
      · exact good _ _ l0 (good _ _ hs l1) b (List.mem_of_mem_take hb)
    | notify =>
      rw [notify_text hz]
      split
      · rw [e0, e1]
        exact ⟨bs "<ConMan> " ++ sentence f n ++ bs ".", by simp only [List.append_assoc], good _ _ (good _ _ l0 hs) l1⟩
      · rw [e0, e1]
        refine ⟨(bs "<ConMan> " ++ sentence f n).take 1018 ++ bs ".", ?_, ?_⟩
        · have : bs "\r\n" ++ bs "<ConMan> " ++ sentence f n = bs "\r\n" ++ (bs "<ConMan> " ++ sentence f n) := by simp only [List.append_assoc]
          rw [this, List.take_append, List.take_of_length_le (l := bs "\r\n") (by omega), lr]
          simp only [List.append_assoc]
        · exact good _ _ (fun b hb => good _ _ l0 hs b (List.mem_of_mem_take hb)) l1

/-- C101. If the names are printable, all of a notice but its line ends is. -/
theorem C101_printable (h : f.All (fun b => isPrint b = true)) (n : Note) : ∀ b ∈ noticeText f n, isPrint b = true ∨ b = 0x0D ∨ b = 0x0A := by
  have h0 : f.All (· ≠ 0) := h.imp fun _ => print_ne0
  have hs := sentence_all h (fun _ g => g) n
  have hz := body_nz h0 n
  rw [body_sentence] at hz
  have all : ∀ b ∈ msgPrefix ++ sentence f n ++ msgSuffix, isPrint b = true ∨ b = 0x0D ∨ b = 0x0A := by
    intro b hb
    simp only [List.mem_append] at hb
    rcases hb with (g | g) | g
    · revert b; decide
    · exact Or.inl (hs b g)
    · revert b; decide
  unfold noticeText
  rw [body_sentence]
  have nl : ∀ b ∈ ([0x0D, 0x0A] : List UInt8), isPrint b = true ∨ b = 0x0D ∨ b = 0x0A := by decide
  have sf : ∀ b ∈ msgSuffix, isPrint b = true ∨ b = 0x0D ∨ b = 0x0A := by decide
  intro b hb
  cases hn : n.buf with
  | link =>
    rw [hn, link_text hz] at hb
    split at hb
    · exact all b hb
    · rcases List.mem_append.1 hb with g | g
      · exact all b (List.mem_of_mem_take g)
      · exact nl b g
  | notify =>
    rw [hn, notify_text hz] at hb
    split at hb
    · exact all b hb
    · rcases List.mem_append.1 hb with g | g
      · exact all b (List.mem_append_left _ (List.mem_of_mem_take g))
      · exact sf b g
  | fmt => rw [hn, fmt_text hz] at hb; exact all b (List.mem_of_mem_take hb)

/-- C101. The notices are as C92, C93, C94 and C100 suppose: not empty, and they fit into the buffer of an object. -/
theorem C101_env {env : Env} {facts : Nat → Facts} (h : ∀ k, (facts k).All (· ≠ 0)) (ht : env.txt = fun n k => noticeText (facts k) n) (n : Note) (k : Nat) :
    env.txt n k ≠ [] ∧ (env.txt n k).length ≤ queueCap := by
  rw [ht]
  obtain ⟨⟨x, hx⟩, h2, -⟩ := C101_bounds (h k) n
  refine ⟨?_, Nat.le_trans h2 (by unfold queueCap; omega)⟩
  dsimp only
  rw [← hx]
  exact List.append_ne_nil_of_left_ne_nil (by decide) _

/-- C101. Of the names that a client gives of itself (its user and terminal), the daemon knows that they are C strings of 7-bit characters, at most 1023 long,
whatever the client sends; -/
theorem C101_names_received (buf : List UInt8) (h0 : (0 : UInt8) ∈ buf) (q : SrvReq) (h : recvGreeting buf = some q) :
    (∀ u, q.user = some u → NameOk u) ∧ ∀ t, q.tty = some t → NameOk t :=
  greetingLoop_names _ (lexCreate buf) {} h0 ⟨(fun _ g => nomatch g), (fun _ g => nomatch g)⟩ q h

/-- C101. and no more than that: every such string is accepted for a user name. -/
theorem C101_any_user {u : List UInt8} (hu : u ≠ []) (h : NameOk u) {size m : Nat} {sched : List Sys} {more buf : List UInt8} {res : LineRes}
    (hs : (rawHello (high u)).length < size) (hb : size ≤ buf.length) (hr : readLine sched (rawHello (high u) ++ more) buf size = some res) (hm : res.fin = .ret m) :
    res.rest = more ∧ recvGreeting res.buf = some { user := some u } := by
  have e : rawHello (high u) = (bs "HELLO USER='" ++ high u ++ bs "'") ++ bs "\n" := by
    unfold rawHello
    rw [List.append_assoc _ (bs "'")]
    congr 1
  have hnl : (0x0A : UInt8) ∉ bs "HELLO USER='" ++ high u ++ bs "'" := by
    simp only [List.mem_append, not_or]
    exact ⟨⟨by decide, fun g => (high_safe u _ g).2.1 (Or.inr rfl)⟩, by decide⟩
  rw [e] at hs hr
  obtain ⟨-, g2, junk, g3⟩ := readLine_msg hnl hs hb hr hm
  refine ⟨g2, ?_⟩
  rw [← e] at g3
  have hl3 := congrArg List.length g3
  have hlen : (rawHello (high u)).length ≥ 3 := by
    unfold rawHello
    have : (bs "HELLO USER='").length = 12 := by decide
    simp only [List.length_append, this]; omega
  simp only [List.length_append, List.length_cons] at hl3
  obtain ⟨n, hn⟩ : ∃ n, res.buf.length + 1 = n + 3 := ⟨res.buf.length - 2, by omega⟩
  unfold recvGreeting
  rw [hn, raw_greeting junk (high u) n (lexCreate res.buf) {} (high_safe u) (by unfold high; rw [List.length_map]; exact h.1) (by
    unfold high; simpa using hu) g3, high_names h.2]

/-- C101: that names contain no line ends cannot be relied on.  Any line `l` can be given to everybody at a console, and to its log, as a line of its own that
begins with `<ConMan> ` and ends with a full stop: a client only has to call itself by a name that contains it. -/
theorem C101_forged (s d : Nat) (h : f.All (· ≠ 0)) (l : List UInt8) (hl : NameOk l) (hu : (f.who s).user = bs "\r\n<ConMan> " ++ l ++ bs ".\r\n")
    (hf : (sentence f (.joinedBy s d)).length ≤ 1006) :
    NameOk (f.who s).user ∧ ∃ a b, noticeText f (.joinedBy s d) = a ++ (bs "\r\n<ConMan> " ++ l ++ bs ".\r\n") ++ b := by
  constructor
  · constructor
    · have : (f.who s).user.length ≤ (sentence f (.joinedBy s d)).length := by
        simp only [sentence, clientText, List.length_append]; omega
      omega
    · rw [hu]
      intro x hx
      simp only [List.mem_append] at hx
      rcases hx with (g | g) | g
      · revert x; decide
      · exact hl.2 x g
      · revert x; decide
  · rw [C101_text h _ hf, ← hu]
    simp only [sentence, clientText]
    refine ⟨bs "\r\n<ConMan> " ++ theCon f d ++ bs " joined" ++ (if (f.who s).bcast then bs " for B/C" else []) ++ bs " by " ++ bs "<",
      bs "@" ++ (f.who s).host ++ bs ">" ++ (match (f.who s).tty with | some t => bs " on " ++ t | none => []) ++ bs " at " ++ f.short ++ bs ".\r\n", ?_⟩
    simp only [List.append_assoc]
    rfl

/-- C101. From the configuration to the disk: if the names in the configuration and those of the clients are printable, all that is added to a sanitised log
file is printable, CR or LF, whatever the console says (C100). -/
theorem C101_sanitized_file_partial {c : SConf} {pid : Nat} {env : Env} {fs : LDir} {held : Nat → Bool} {es : List DiskEv} {d : Disk} {facts : Nat → Facts}
    (hfacts : ∀ k, (c.facts (facts k)).All (fun b => isPrint b = true)) (ht : env.txt = fun n k => noticeText (c.facts (facts k)) n)
    (hclk : ∀ l k, (env.clk l k).length = 20 ∧ ∀ b ∈ env.clk l k, isPrint b = true) (hf : fs.Ok) {n : Nat} {k : Console} {ln : List UInt8} {o : LogOpt}
    (hn : c.consoles[n]? = some k) (hl : k.log = some (ln, o)) (hp : o.sanitize = true) {nm : List UInt8} (hu : oneName fs nm)
    (hr : (Disk.boot c fs held false).run c pid env es = some d) (ha : leftAlone c pid env nm (Disk.boot c fs held false) es = true)
    (ho : onlyLog c pid nm (some (2 * n + 1)) es) (hlen : ∀ i up x wr, .step (.poll i up (some (.data x)) wr) ∈ es → x.length ≤ 8191) :
    ∃ new, fileAt d.fs nm = fileAt fs nm ++ new ∧ ∀ b ∈ new, isPrint b = true ∨ b = 0x0D ∨ b = 0x0A := by
  have h0 : ∀ k, (c.facts (facts k)).All (· ≠ 0) := fun k => (hfacts k).imp fun _ => print_ne0
  refine C100_sanitized ⟨C101_env h0 ht, fun l k => (hclk l k).1⟩ hf hn hl hp hu hr ha ho hlen ?_ (fun l k => (hclk l k).2)
  intro m k b hb
  rw [ht] at hb
  exact C101_printable (hfacts k) m b hb

/-! ### Examples -/

/-- Facts for examples. -/
def Spec.someFacts (name user : List UInt8) : Facts where
  name _ := name
  dev _ := .telnet (bs "srv") 23
  who _ := { user := user, host := bs "pc", tty := some (bs "/dev/pts/1") }
  short := bs "11-17 05:20"
  long := bs "2026-11-17 05:20:00 UTC"
  up := bs "5s"
  pid _ := 12
  err := bs "No such file or directory"
  why := .stat

theorem someFacts_all {name user : List UInt8} {p : UInt8 → Prop} (hp : ∀ b, isPrint b = true → p b) (hn : ∀ b ∈ name, p b) (hu : ∀ b ∈ user, p b) :
    (someFacts name user).All p := by
  have lit : ∀ s : List UInt8, s.all isPrint = true → ∀ b ∈ s, p b := fun s hs b hb => hp b (List.all_eq_true.1 hs b hb)
  refine ⟨fun _ => hn, fun _ s hs => ?_, fun _ => hu, fun _ => lit (bs "pc") (by decide), fun _ t ht => ?_, lit (bs "11-17 05:20") (by decide), lit (bs "2026-11-17 05:20:00 UTC") (by decide),
    lit (bs "5s") (by decide), lit (bs "No such file or directory") (by decide)⟩
  · rcases List.mem_singleton.1 hs with rfl; exact lit _ (by decide)
  · cases ht; exact lit (bs "/dev/pts/1") (by decide)

example : noticeText (someFacts (bs "p") (bs "joe")) (.joinedBy 10 0) = bs "\r\n<ConMan> Console [p] joined by <joe@pc> on /dev/pts/1 at 11-17 05:20.\r\n" ∧
    noticeText (someFacts (bs "p") (bs "joe")) (.disconnected 0) = bs "\r\n<ConMan> Console [p] disconnected from <srv:23>.\r\n" ∧
    noticeText (someFacts (bs "p") (bs "joe")) (.resetBy 10 0) = bs "\r\n<ConMan> Console [p] reset by <joe@pc> (pid 12).\r\n" := by decide +kernel

/-- The hypotheses of the theorems hold for this. -/
example : (someFacts (bs "p") (bs "joe")).All (· ≠ 0) ∧ (someFacts (bs "p") (bs "joe")).All (fun b => b ≠ 0x0D ∧ b ≠ 0x0A) ∧ (someFacts (bs "p") (bs "joe")).All (fun b => isPrint b = true) ∧
    ∀ i j, (sentence (someFacts (bs "p") (bs "joe")) (.joinedBy i j)).length ≤ 1006 :=
  ⟨someFacts_all (fun _ => print_ne0) (by decide) (by decide), someFacts_all (fun _ => print_nonl) (by decide) (by decide),
    someFacts_all (fun _ g => g) (by decide) (by decide), fun _ _ => by
      show (sentence (someFacts (bs "p") (bs "joe")) (.joinedBy 0 0)).length ≤ 1006
      decide +kernel⟩

/-- A user who calls themselves by a name with line ends: everybody reads that the console was reset by `root`. -/
example : let u := bs "x@y> at 05:20.\r\n<ConMan> Console [p] reset by <root@pc> (pid 9).\r\n<"
    recvGreeting (rawHello (high u) ++ [0]) = some { user := some u } ∧
    noticeText (someFacts (bs "p") u) (.joinedBy 10 0) = bs "\r\n<ConMan> Console [p] joined by <x@y> at 05:20.\r\n" ++
      bs "<ConMan> Console [p] reset by <root@pc> (pid 9).\r\n" ++ bs "<@pc> on /dev/pts/1 at 11-17 05:20.\r\n" := by decide +kernel

/-- The hypotheses of `C101_forged`. -/
example : let l := bs "Console [p] reset by <root@pc> (pid 9)"
    let f := someFacts (bs "p") (bs "\r\n<ConMan> " ++ l ++ bs ".\r\n")
    f.All (· ≠ 0) ∧ NameOk l ∧ (f.who 10).user = bs "\r\n<ConMan> " ++ l ++ bs ".\r\n" ∧ (sentence f (.joinedBy 10 0)).length ≤ 1006 :=
  ⟨someFacts_all (fun _ => print_ne0) (by decide) (by decide), by unfold NameOk; decide +kernel, rfl, by decide +kernel⟩

/-- The user name of the next example: a sequence that erases the screen, in front of a name. -/
def Spec.escUser : List UInt8 := [0x1B] ++ bs "[2Jjoe"

/-- What the notices say. -/
def Spec.escEnv : Env := { Demo.env with txt := fun n _ => noticeText (telConf.facts (someFacts [] escUser)) n }

/-- Console `p` comes up, the user joins and leaves, and the log is written. -/
def Spec.escEvs : List DiskEv := [.openLog 1 true tmDemo, .step (.connUp 0), .step (.check ⟨.connect, [0], false, false, false, false⟩), .step (.grant 10 0),
  .step (.poll 10 true (some .eof) none), .step (.poll 1 true none (some (.accept 2000)))]

/-- C101: the option `sanitize` does not cover the notices.  A user by this name is accepted, and then the bytes of that name, ESC among them, are in the sanitised log
file of the console that they joined. -/
theorem C101_sanitized_escape :
    recvGreeting (rawHello (high escUser) ++ [0]) = some { user := some escUser } ∧
    (∃ k o, telConf.consoles[0]? = some k ∧ k.log = some o ∧ o.2.sanitize = true) ∧
    ((Disk.boot telConf diskDir (fun _ => false) false).run telConf 7 escEnv escEvs).map (fun d => fileAt d.fs (bs "/tmp/p.log") ==
      bs "old\n\r\n<ConMan> Console [p] log opened at 2026-11-17 05:20:00 UTC.\r\n\r\n<ConMan> Console [p] connected to <host:7001>.\r\n\r\n<ConMan> Console [p] joined by <" ++
      [0x1B] ++ bs "[2Jjoe@pc> on /dev/pts/1 at 11-17 05:20.\r\n\r\n<ConMan> Console [p] departed by <" ++ [0x1B] ++
      bs "[2Jjoe@pc> on /dev/pts/1 at 11-17 05:20.\r\n") = some true := by
  refine ⟨by decide +kernel, ?_, by decide +kernel⟩
  have h : (telConf.consoles[0]?.bind (·.log)).any (·.2.sanitize) = true := by decide +kernel
  cases hk : telConf.consoles[0]? with
  | none => rw [hk] at h; cases h
  | some k =>
    rw [hk, Option.bind_some] at h
    cases hl : k.log with
    | none => rw [hl] at h; cases h
    | some o => rw [hl] at h; exact ⟨k, o, rfl, hl, h⟩

theorem facts_all {c : SConf} {g : Facts} {p : UInt8 → Bool} (h : c.consoles.all (fun k => k.name.all p && k.dev.strs.all (·.all p)) = true)
    (h0 : g.All (fun b => p b = true)) : (c.facts g).All (fun b => p b = true) := by
  refine { h0 with name := fun i b hb => ?_, dev := fun i s hs b hb => ?_ }
  · change b ∈ (c.consoles[i / 2]?.map (fun k : Console => k.name)).getD [] at hb
    cases hk : c.consoles[i / 2]? with
    | none => rw [hk] at hb; cases hb
    | some k =>
      rw [hk] at hb
      have := List.all_eq_true.1 h k (List.mem_of_getElem? hk)
      exact List.all_eq_true.1 (Bool.and_eq_true_iff.1 this).1 b hb
  · change s ∈ ((c.consoles[i / 2]?.map (fun k : Console => k.dev)).getD (g.dev i)).strs at hs
    cases hk : c.consoles[i / 2]? with
    | none => rw [hk] at hs; exact h0.dev i s hs b hb
    | some k =>
      rw [hk] at hs
      have := List.all_eq_true.1 h k (List.mem_of_getElem? hk)
      exact List.all_eq_true.1 (List.all_eq_true.1 (Bool.and_eq_true_iff.1 this).2 s hs) b hb

/-- The hypotheses of `C101_sanitized_file_partial` on the names hold for this configuration and a user with a usual name. -/
example : (telConf.facts (someFacts [] (bs "joe"))).All (fun b => isPrint b = true) :=
  facts_all (by decide +kernel) (someFacts_all (fun _ g => g) (by decide) (by decide))

/-- C101: a console with a name of 980 characters has no line end behind the notice at the opening of its log. -/
theorem C101_opened_cut : ∃ f : Facts, f.All (fun b => isPrint b = true) ∧ ¬ bs "\r\n" <:+ noticeText f (.logOpened 1) := by
  have ha : (someFacts (List.replicate 980 0x61) (bs "joe")).All (fun b => isPrint b = true) :=
    someFacts_all (fun _ g => g) (fun b hb => by rw [List.eq_of_mem_replicate hb]; decide) (by decide)
  refine ⟨_, ha, ?_⟩
  have hz := body_nz (ha.imp fun _ => print_ne0) (.logOpened 1)
  unfold noticeText
  show ¬ _ <:+ NBuf.fmt.text _
  rw [fmt_text hz, body_sentence]
  have e : msgPrefix ++ sentence (someFacts (List.replicate 980 0x61) (bs "joe")) (.logOpened 1) ++ msgSuffix =
      (bs "\r\n<ConMan> Console [" ++ List.replicate 980 0x61) ++ bs "] log opened at 2026-11-17 05:20:00 UTC.\r\n" := by
    simp only [sentence, theCon, msgPrefix, msgSuffix, someFacts, List.append_assoc, bs_append, bs_bs, String.reduceAppend]
  have el : (bs "\r\n<ConMan> Console [" ++ List.replicate 980 0x61).length = 1000 := by
    rw [List.length_append, List.length_replicate]; rfl
  rw [e, List.take_append, List.take_of_length_le (by omega), el]
  intro hsuf
  obtain ⟨t, ht⟩ := hsuf
  have hg := congrArg List.getLast? ht
  rw [List.getLast?_append, List.getLast?_append] at hg
  have e1 : (bs "\r\n").getLast? = some 0x0A := by decide
  have e2 : ((bs "] log opened at 2026-11-17 05:20:00 UTC.\r\n").take (1023 - 1000)).getLast? = some 0x31 := by decide
  rw [e1, e2, Option.some_or, Option.some_or] at hg
  exact absurd hg (by decide)

/-- C101: the notice of somebody joining has two line ends if its sentence has 1007 characters. -/
theorem C101_two_lines : ∃ f : Facts, f.All (fun b => isPrint b = true) ∧ (sentence f (.joinedBy 10 0)).length = 1007 ∧ bs ".\r\n\r\n" <:+ noticeText f (.joinedBy 10 0) := by
  have ha : (someFacts (List.replicate 949 0x61) (bs "joe")).All (fun b => isPrint b = true) :=
    someFacts_all (fun _ g => g) (fun b hb => by rw [List.eq_of_mem_replicate hb]; decide) (by decide)
  have e : sentence (someFacts (List.replicate 949 0x61) (bs "joe")) (.joinedBy 10 0) =
      bs "Console [" ++ List.replicate 949 0x61 ++ bs "] joined by <joe@pc> on /dev/pts/1 at 11-17 05:20" := by
    have hc : clientText ((someFacts (List.replicate 949 0x61) (bs "joe")).who 10) = bs "<joe@pc> on /dev/pts/1" := by decide +kernel
    simp only [sentence, hc]
    simp only [theCon, someFacts, List.append_assoc, bs_append, String.reduceAppend]
    rfl
  have el : (sentence (someFacts (List.replicate 949 0x61) (bs "joe")) (.joinedBy 10 0)).length = 1007 := by
    rw [e, List.length_append, List.length_append, List.length_replicate]; rfl
  refine ⟨_, ha, el, ?_⟩
  have hz := body_nz (ha.imp fun _ => print_ne0) (.joinedBy 10 0)
  unfold noticeText
  show _ <:+ NBuf.link.text _
  rw [link_text hz, body_sentence, if_neg (by rw [el]; decide), List.take_of_length_le (by rw [whole_length, el]; decide)]
  have : bs ".\r\n\r\n" = msgSuffix ++ [0x0D, 0x0A] := by decide
  rw [this, List.append_assoc]
  exact List.suffix_append _ _

end Conman
