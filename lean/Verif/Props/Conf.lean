import Verif.Lemma.ConfSet
import Verif.Lemma.ConfText
import Verif.Lemma.ConfFrame
import Verif.Lemma.ConfCon
import Verif.Props.Format

/-
C54: the configuration file, its lines, and SERVER directives.
-/
namespace Conman

open Spec

/-! ### An environment for examples -/

def libDemo : IpmiLib := ⟨16, 20, 20, fun _ => true, fun _ => true, fun _ => true, fun _ => true, fun _ => true, fun _ => true, 2, 3, 4, 0, fun _ => 1⟩

def envDemo : CEnv :=
  { withIpmi := true, withWrap := false,
    fs := ⟨fun s => if s = bs "/tmp/" ∨ s = bs "/" then some .directory else if s = bs "/dev/ttyS0" ∨ s = bs "/dev/ttyS1" then some .charDev else none, fun _ => false⟩,
    rw := fun _ => true, lib := libDemo, pid := 7, tm := tmDemo, sockMax := 107, erange := fun _ => false }

def confDemo : SConf := createConf (bs "/etc") ⟨[], false, [], false, [], false, 0, 0, 0⟩

/-- Reading a text with the settings as they are without a command line. -/
def readDemo (s : String) : Option SConf := processConfig envDemo (bs s) confDemo

/-! ### Lines -/

/- Full statement of C54: the lines of a file are processed one after the other; what a line does is the same irrespective of other lines, except that it sees
the settings made before.  It does not hold: for `TIMESTAMP = number` at the end of a line (C54_bare_stamp), and for a stray byte 0xFF (C54_byte_ff). -/

/-- **C54**, the part that holds.  A text is a sequence of lines (its tokens, by the lexical grammar, cut at ends of lines), and reading it is reading each line
as if it was a file of its own, with the settings the lines before it made -- unless a line ends in `TIMESTAMP = number`, or there is a byte 0xFF outside of
strings and comments. -/
theorem C54_lines_partial (env : CEnv) (s : List UInt8) (h0 : (0 : UInt8) ∉ s) (c : SConf) (ts : List (Token × List UInt8 × Nat)) (cs : List Cf)
    (hl : Lexes (serverConfStrs env.withIpmi) [] s ts) (hc : CfsOf (serverConfStrs env.withIpmi) ts cs)
    (hff : ∀ t ∈ ts, t.1 ≠ .chr 0xFF) (hb : ∀ p ∈ linesOf cs, p.2.kind = .eol → ¬ BareStamp p.1) :
    processConfig env s c = ((linesOf cs).foldlM (fun c p => runConf env { p.2 with kind := .eof } p.1 c) c).map defaultPort :=
  processConfig_lines env s h0 c ts cs hl hc hff hb

/-- Every text has such a sequence of tokens. -/
theorem C54_tokens (ipmi : Bool) (s : List UInt8) (h0 : (0 : UInt8) ∉ s) : ∃ ts cs, Lexes (serverConfStrs ipmi) [] s ts ∧ CfsOf (serverConfStrs ipmi) ts cs := by
  obtain ⟨ts, h1, _, _⟩ := C14_stream (serverConfStrs ipmi) (C17_tables.2 ipmi) s [] h0
  exact ⟨ts, cfs ipmi ts, h1, cfs_of ipmi h1 h0⟩

/-- **C54.** A text of blank lines and comments leaves what conman.conf(5) calls the defaults: no core dumps, keepalives, only local clients, no TCP wrappers, no log
file, messages of priority `info`, no periodic timestamps, no reset command, logs that are locked but neither sanitized nor timestamped, 9600 bps 8n1, port 7890. -/
theorem C54_defaults (env : CEnv) (s cwd : List UInt8) (ini : IpmiOpt) (h0 : (0 : UInt8) ∉ s) (ts : List (Token × List UInt8 × Nat)) (hl : Lexes (serverConfStrs env.withIpmi) [] s ts)
    (hb : ∀ t ∈ ts, t.1 = .eol ∨ t.1 = .eof) :
    ∃ c, processConfig env s (createConf cwd ini) = some c ∧ c.coreDump = false ∧ c.coreDumpDir = none ∧ c.execPath = none ∧ c.keepAlive = true ∧ c.loopBack = true ∧ c.tcpWrap = false ∧
      c.logDir = cwd ∧ c.logFile = none ∧ c.logLevel = 6 ∧ c.noFile = 0 ∧ c.pidFile = none ∧ c.port = 7890 ∧ c.resetCmd = none ∧ c.syslog = -1 ∧ c.stamp = 0 ∧ c.gLog = none ∧
      c.gLogOpt = ⟨true, false, false⟩ ∧ c.gSer = ⟨9600, 8, 0, 1⟩ ∧ c.gIpmi = ini ∧ c.consoles = [] ∧ c.errs = [] := by
  have hff : ∀ t ∈ ts, t.1 ≠ .chr 0xFF := by
    intro t ht e
    rcases hb t ht with h | h <;> (rw [h] at e; cases e)
  have key : ∀ ts, (∀ t ∈ ts, t.1 = .eol ∨ t.1 = .eof) → ∀ c, (∀ p ∈ linesOf (cfs env.withIpmi ts), p.1 = []) ∧
      (linesOf (cfs env.withIpmi ts)).foldlM (fun c p => runConf env { p.2 with kind := .eof } p.1 c) c = some c := by
    intro ts
    induction ts with
    | nil => intro _ c; exact ⟨(fun p hp => by cases hp), rfl⟩
    | cons t ts ih =>
      intro h c
      obtain ⟨g1, g2⟩ := ih (fun x hx => h x (List.mem_cons_of_mem _ hx)) c
      have hk : cfKind env.withIpmi t.1.code = .eol ∨ cfKind env.withIpmi t.1.code = .eof := by
        rcases h t List.mem_cons_self with e | e <;> rw [e]
        · exact Or.inl rfl
        · exact Or.inr rfl
      have : linesOf (cfs env.withIpmi (t :: ts)) = ([], ⟨cfKind env.withIpmi t.1.code, t.2.1, t.2.2⟩) :: linesOf (cfs env.withIpmi ts) := by
        unfold cfs
        rw [List.map_cons, linesOf, if_pos hk]
      rw [this]
      refine ⟨?_, ?_⟩
      · intro p hp
        rcases List.mem_cons.1 hp with rfl | hp
        · rfl
        · exact g1 p hp
      · rw [List.foldlM_cons]
        dsimp only
        rw [runConf_nil]
        exact g2
  obtain ⟨k1, k2⟩ := key ts hb (createConf cwd ini)
  refine ⟨defaultPort (createConf cwd ini), ?_, rfl, rfl, rfl, rfl, rfl, rfl, rfl, rfl, rfl, rfl, rfl, rfl, rfl, rfl, rfl, rfl, rfl, rfl, rfl, rfl, rfl⟩
  rw [C54_lines_partial env s h0 _ ts _ hl (cfs_of env.withIpmi hl h0) hff ?_, k2]
  · rfl
  · intro p hp _ hbs
    rw [k1 p hp] at hbs
    obtain ⟨_, _, _, _, h, _⟩ := hbs
    simp at h

example : (lexAll (serverConfStrs true) 40 (lexCreate (bs " # x\r\n\n # SERVER port=3" ++ [0]))).map (fun ts => ts.map (·.1)) = some [256, 256, 0] := by decide +kernel

/-- The keywords of the lexer are those of the parser, number by number. -/
theorem C54_keywords (ipmi : Bool) : serverConfStrs ipmi = (confKeys ipmi).map keyText := by cases ipmi <;> decide

/-- Three lines, the second one refused. -/
example : (readDemo "SERVER port=1234\nSERVER keepalive=maybe\nSERVER keepalive=off # comment\n").map (fun c => (c.port, c.keepAlive, c.errs)) = some (1234, false, [2]) := by decide +kernel
example : (readDemo "SERVER port=1234\n\nserver KeepAlive=Off timestamp=2h \\\n  logdir='/var/log'\nSERVER logfile=\"x,debug\"").map (fun c => (c.keepAlive, c.stamp, c.logDir, c.logFile.getD [])) =
    some (false, 120, bs "/var/log", bs "/var/log/x") := by decide +kernel

/-- C54 fails for a number of minutes without unit: looking for the unit, the parser takes the end of the line, and goes on with the next line as part of the
directive; that line is lost.  -/
theorem C54_bare_stamp : (readDemo "SERVER timestamp=5\nSERVER port=1234\nSERVER loopback=off\n").map (fun c => (c.stamp, c.port, c.loopBack, c.errs)) = some (5, 7890, false, [2]) ∧
    (readDemo "SERVER timestamp=5m\nSERVER port=1234\nSERVER loopback=off\n").map (fun c => (c.stamp, c.port, c.loopBack, c.errs)) = some (5, 1234, false, []) := by
  decide +kernel

/-- Even an empty line after it does not help if there are settings in the same line as the next directive: the end of the empty line ends the directive. -/
example : (readDemo "SERVER timestamp=5\n\nSERVER port=1234\n").map (fun c => (c.stamp, c.port, c.errs)) = some (5, 1234, []) := by decide +kernel

/-- C54 fails for a byte 0xFF: it counts as an unmatched quote, of which it is assumed that nothing follows it in the line; the rest of the line is read as a
directive. -/
theorem C54_byte_ff : ((lexAll (serverConfStrs true) 40 (lexCreate (0xFF :: bs " SERVER port=1234\n" ++ [0]))).map fun ts => ts.map (·.1)) = some [-1, 280, 277, 61, 257, 256, 0] ∧
    (processConfig envDemo (0xFF :: bs " SERVER port=1234\n") confDemo).map (fun c => (c.port, c.errs)) = some (1234, [1]) ∧
    (processConfig envDemo (bs "? SERVER port=1234\n") confDemo).map (fun c => (c.port, c.errs)) = some (7890, [1]) := by decide +kernel

/-! ### Settings -/

/-- A SERVER directive in order, alone in a file. -/
theorem server_run (env : CEnv) (e k : Cf) (l r : List Cf) (ss : List Setting) (c c' : SConf) (hk : k.kind = .key .server) (hw : Writes l ss)
    (hs : SetAll env c.pidFile.isSome (decide (c.port ≥ 0)) c ss c') :
    ∃ (t : Cf) (m : Nat), r.length < m ∧ directive env e k (l ++ r) c = (dirLoop e (serverClause env e c.pidFile.isSome (decide (c.port ≥ 0))) m ⟨t, r⟩ c').map (dirEnd e) := by
  obtain ⟨t, m, hm, h⟩ := dirLoop_settings env _ _ e l ss hw c c' hs k r ((l ++ r).length + 1) (by omega)
  refine ⟨t, m, hm, ?_⟩
  unfold directive
  rw [hk]
  dsimp only
  unfold parseServer
  dsimp only
  rw [h]

/-- **C54.** The settings of a SERVER directive in order have their effect, one after the other, and nothing is reported.  The pid file and the port are
settled by the first line that sets them, or by the command line; `Sets` says so. -/
theorem C54_server (env : CEnv) (e k : Cf) (l : List Cf) (ss : List Setting) (c c' : SConf) (he : e.kind = .eof) (hk : k.kind = .key .server) (hw : Writes l ss)
    (hs : SetAll env c.pidFile.isSome (decide (c.port ≥ 0)) c ss c') : runConf env e (k :: l) c = some c' := by
  obtain ⟨t, m, hm, h⟩ := server_run env e k l [] ss c c' hk hw hs
  rw [List.append_nil] at h
  rw [runConf_cons env e k l c (by rw [hk]; decide), h]
  cases m with
  | zero => omega
  | succ m =>
    rw [dirLoop]
    simp only [Ps.next, he]
    dsimp only [Option.map_some, Option.bind_some]
    unfold dirEnd
    rw [if_neg (by simp)]
    exact runConf_nil env e c'

/-- The tokens of `coredumpdir="/tmp/" timestamp=2h logfile="x.log,debug"`. -/
def setDemo : List Cf :=
  [⟨.key .coredumpdir, bs "coredumpdir", 1⟩, ⟨.eq, bs "=", 1⟩, ⟨.str, bs "/tmp/", 1⟩, ⟨.key .timestamp, bs "timestamp", 1⟩, ⟨.eq, bs "=", 1⟩, ⟨.int, bs "2", 1⟩, ⟨.str, bs "h", 1⟩,
    ⟨.key .logfile, bs "logfile", 1⟩, ⟨.eq, bs "=", 1⟩, ⟨.str, bs "x.log,debug", 1⟩]

theorem setDemo_writes : Writes setDemo [⟨.coredumpdir, ⟨.str, bs "/tmp/", 1⟩, none⟩, ⟨.timestamp, ⟨.int, bs "2", 1⟩, some ⟨.str, bs "h", 1⟩⟩, ⟨.logfile, ⟨.str, bs "x.log,debug", 1⟩, none⟩] :=
  Writes.set _ _ _ .coredumpdir _ _ rfl (by decide) rfl (Writes.stamp _ _ _ _ _ _ rfl rfl (Writes.set _ _ _ .logfile _ _ rfl (by decide) rfl Writes.nil))

theorem setDemo_sets (a b : Bool) : SetAll envDemo a b confDemo [⟨.coredumpdir, ⟨.str, bs "/tmp/", 1⟩, none⟩, ⟨.timestamp, ⟨.int, bs "2", 1⟩, some ⟨.str, bs "h", 1⟩⟩,
    ⟨.logfile, ⟨.str, bs "x.log,debug", 1⟩, none⟩] { confDemo with coreDumpDir := some (bs "/tmp"), stamp := 120, logFile := some (bs "/etc/x.log"), logLevel := 7 } := by
  refine SetAll.cons _ _ _ _ _ (Sets.coreDumpDir _ (bs "/tmp/") (bs "/tmp") 1 ⟨rfl, rfl⟩ ?_ rfl (Or.inl rfl) rfl (by decide) (by decide)) ?_
  · intro h; exact absurd (h 0x2F (by decide)) (by decide)
  · refine SetAll.cons _ _ _ _ _ (Sets.stamp _ _ 2 60 (bs "h") ⟨rfl, NumText.plain (bs "2") (by decide), by decide, by decide⟩ (by decide) ⟨rfl, rfl⟩ (Or.inr (Or.inl ⟨Or.inl rfl, rfl⟩)) (by decide)) ?_
    refine SetAll.cons _ _ _ _ _ (Sets.logFilePriority _ (bs "x.log,debug") (bs "/etc/x.log") (bs "debug") (bs "debug") 7 ⟨rfl, rfl⟩ ?_ (Or.inr (by decide)) rfl (by decide) (by decide) ?_ ?_) ?_
    · intro h; exact absurd (h 0x78 (by decide)) (by decide)
    · exact ⟨[], bs "debug", rfl, by simp, rfl⟩
    · exact PriorityName.debug
    · exact SetAll.nil _

example : ∃ c', runConf envDemo ⟨.eof, [], 2⟩ (⟨.key .server, bs "SERVER", 1⟩ :: setDemo) confDemo = some c' ∧ c'.stamp = 120 ∧ c'.logFile = some (bs "/etc/x.log") ∧ c'.coreDumpDir = some (bs "/tmp") :=
  ⟨_, C54_server envDemo _ _ _ _ _ _ rfl rfl setDemo_writes (setDemo_sets _ _), rfl, rfl, rfl⟩

theorem inLine_mem {e : Cf} {l : List Cf} {q : Ps} (h : InLine e l q) : q.last ∈ e :: l := by
  cases h with
  | at_ a t b h => rw [h]; simp
  | atEnd => simp

theorem inLine_skip {e : Cf} {l : List Cf} {q : Ps} (he : e.kind = .eof) (hl : ∀ t ∈ l, Cf.inLine t) (h : InLine e l q) : skipLine e q.last q.rest = ⟨e, []⟩ := by
  have main : ∀ (b : List Cf) (t : Cf), (∀ x ∈ t :: b, Cf.inLine x) → skipLine e t b = ⟨e, []⟩ := by
    intro b
    induction b with
    | nil =>
      intro t ht
      have := ht t List.mem_cons_self
      rw [skipLine, if_neg (by simp [this.1, this.2])]
    | cons x b ih =>
      intro t ht
      have := ht t List.mem_cons_self
      rw [skipLine, if_neg (by simp [this.1, this.2])]
      exact ih x fun y hy => ht y (List.mem_cons_of_mem _ hy)
  cases h with
  | at_ a t b h => exact main b t fun x hx => hl x (by rw [h]; exact List.mem_append_right _ hx)
  | atEnd => rw [skipLine, if_pos (by simp [he])]

theorem malformed_loop (env : CEnv) (a b : Bool) (e t : Cf) (l : List Cf) (c : SConf) (m : Nat) (he : e.kind = .eof) (hl : ∀ t ∈ l, Cf.inLine t) (h : Malformed env l) :
    ∃ q, dirLoop e (serverClause env e a b) (m + 1) ⟨t, l⟩ c = some ⟨q, c, true⟩ ∧ InLine e l q := by
  have viaKey : ∀ (x : Cf) (k : Key) (r : List Cf), x.kind = .key k → (∃ q, serverClause env e a b ⟨x, r⟩ c k = some ⟨q, c, true⟩ ∧ InLine e (x :: r) q) →
      ∃ q, dirLoop e (serverClause env e a b) (m + 1) ⟨t, x :: r⟩ c = some ⟨q, c, true⟩ ∧ InLine e (x :: r) q := by
    rintro x k r hk ⟨q, h1, h2⟩
    refine ⟨q, ?_, h2⟩
    rw [dirLoop]
    simp only [Ps.next, hk]
    rw [h1]
    simp
  cases h with
  | notKey x r h =>
    refine ⟨⟨x, r⟩, ?_, InLine.at_ [] x r rfl⟩
    have hx := hl x List.mem_cons_self
    rw [dirLoop]
    simp only [Ps.next]
    match hk : x.kind with
    | .eof => exact absurd hk hx.2
    | .eol => exact absurd hk hx.1
    | .key k => exact absurd hk (h k)
    | .err => rfl
    | .int => rfl
    | .str => rfl
    | .eq => rfl
    | .other => rfl
  | wrongKey x k r hk h => exact viaKey x k r hk ⟨_, wrongKey_clause env a b e _ c k h, InLine.at_ [] x r rfl⟩
  | noWrappers x r hk h =>
    refine viaKey x .tcpwrappers r hk ⟨_, ?_, InLine.at_ [] x r rfl⟩
    unfold serverClause
    dsimp only
    rw [if_pos h]
  | noEq x k r hk h =>
    refine viaKey x k r hk ?_
    obtain ⟨q, h1, h2⟩ := noEq_clause env a b e ⟨x, r⟩ c k (by
      cases r with
      | nil => simp only [Ps.next, he]; decide
      | cons y r => exact h y rfl)
    refine ⟨q, h1, ?_⟩
    rcases h2 with rfl | rfl
    · exact InLine.at_ [] x r rfl
    · cases r with
      | nil => exact InLine.atEnd
      | cons y r => exact InLine.at_ [x] y r rfl
  | noValue x y k hk hy =>
    refine viaKey x k _ hk ?_
    obtain ⟨q, h1, h2⟩ := noValue_clause env a b e x y c k hy he
    refine ⟨q, h1, ?_⟩
    rcases h2 with rfl | rfl
    · exact InLine.at_ [] x _ rfl
    · exact InLine.atEnd
  | badValue x y v k r hk hy h =>
    refine viaKey x k _ hk ?_
    obtain ⟨q, h1, h2⟩ := bad_clause env a b e x y v r c k hy h
    refine ⟨q, h1, ?_⟩
    rcases h2 with rfl | rfl
    · exact InLine.at_ [x, y] v r rfl
    · exact InLine.at_ [] x _ rfl

/-- **C54.** In a SERVER directive that is not in order, the settings before the malformed one have their effect, one error is reported, with the number of
the line, and the rest of the line is skipped. -/
theorem C54_malformed (env : CEnv) (e k : Cf) (l r : List Cf) (ss : List Setting) (c c' : SConf) (he : e.kind = .eof) (hk : k.kind = .key .server) (hw : Writes l ss)
    (hs : SetAll env c.pidFile.isSome (decide (c.port ≥ 0)) c ss c') (hr : ∀ t ∈ r, Cf.inLine t) (hm : Malformed env r) :
    ∃ x ∈ e :: r, runConf env e (k :: (l ++ r)) c = some { c' with errs := c'.errs ++ [x.line] } := by
  obtain ⟨t, m, hml, h⟩ := server_run env e k l r ss c c' hk hw hs
  cases m with
  | zero => omega
  | succ m =>
    obtain ⟨q, h1, h2⟩ := malformed_loop env c.pidFile.isSome (decide (c.port ≥ 0)) e t r c' m he hr hm
    refine ⟨q.last, inLine_mem h2, ?_⟩
    rw [runConf_cons env e k _ c (by rw [hk]; decide), h, h1]
    dsimp only [Option.map_some, Option.bind_some]
    unfold dirEnd
    rw [if_pos rfl]
    dsimp only
    rw [inLine_skip he hr h2]
    exact runConf_nil env e _

/-- After the settings above, a port that is a word. -/
example : ∃ x ∈ [(⟨.eof, [], 1⟩ : Cf), ⟨.key .port, bs "port", 1⟩, ⟨.eq, bs "=", 1⟩, ⟨.str, bs "x", 1⟩, ⟨.str, bs "y", 1⟩], ∃ c',
    runConf envDemo ⟨.eof, [], 1⟩ (⟨.key .server, bs "SERVER", 1⟩ :: (setDemo ++ [⟨.key .port, bs "port", 1⟩, ⟨.eq, bs "=", 1⟩, ⟨.str, bs "x", 1⟩, ⟨.str, bs "y", 1⟩])) confDemo = some c' ∧
      c'.errs = [x.line] ∧ c'.stamp = 120 := by
  obtain ⟨x, hx, h⟩ := C54_malformed envDemo ⟨.eof, [], 1⟩ ⟨.key .server, bs "SERVER", 1⟩ setDemo [⟨.key .port, bs "port", 1⟩, ⟨.eq, bs "=", 1⟩, ⟨.str, bs "x", 1⟩, ⟨.str, bs "y", 1⟩] _ confDemo _
    rfl rfl setDemo_writes (setDemo_sets _ _) (by unfold Cf.inLine; decide) (Malformed.badValue _ _ _ .port _ rfl rfl (BadValue.num _ _ (by decide) (by decide)))
  exact ⟨x, hx, _, h, rfl, rfl⟩

/-! ### Precedence -/

theorem processConfig_frame (env : CEnv) (s : List UInt8) (c c' : SConf) (h : processConfig env s c = some c') : ∃ c1, RunFrame c c1 ∧ c' = defaultPort c1 := by
  unfold processConfig at h
  rw [Option.bind_eq_some_iff] at h
  obtain ⟨ts, _, h⟩ := h
  dsimp only at h
  split at h
  · cases h
  · rw [Option.map_eq_some_iff] at h
    obtain ⟨c1, h1, rfl⟩ := h
    exact ⟨c1, confLoop_inv RunFrame.refl RunFrame.trans env _ (fun t ts c r h => directive_runFrame env _ t ts c h) _ _ _ _ h1, rfl⟩

/-- **C54.** The port and the pid file given on the command line are not changed by any text; the port is a number that is not negative in the end, whatever
the text; and the working directory stays. -/
theorem C54_cmdline (env : CEnv) (s : List UInt8) (c c' : SConf) (h : processConfig env s c = some c') :
    (0 ≤ c.port → c'.port = c.port) ∧ (∀ f, c.pidFile = some f → c'.pidFile = some f) ∧ 0 ≤ c'.port ∧ c'.cwd = c.cwd ∧ c.errs <+: c'.errs := by
  obtain ⟨c1, h1, rfl⟩ := processConfig_frame env s c c' h
  unfold defaultPort
  split
  · rename_i hp
    exact ⟨fun g => by have := h1.port g; omega, h1.pid, (by decide : (0 : Int) ≤ 7890), h1.cwd, h1.errs⟩
  · exact ⟨h1.port, h1.pid, by omega, h1.cwd, h1.errs⟩

example : (processConfig envDemo (bs "SERVER port=1234 pidfile='/run/x'\n") { confDemo with port := 99, pidFile := some (bs "/run/y") }).map (fun c => (c.port, c.pidFile)) =
    some (99, some (bs "/run/y")) := by decide +kernel
example : (processConfig envDemo (bs "SERVER port=1234 pidfile='run/x'\n") confDemo).map (fun c => (c.port, c.pidFile)) = some (1234, some (bs "/etc/run/x")) := by decide +kernel

/-- C54 fails for the port and the pid file: of two directives the second is taken for overridden by the command line.  In one directive the last one counts. -/
theorem C54_second_port : (readDemo "SERVER port=1\nSERVER port=2\n").map (fun c => (c.port, c.errs)) = some (1, []) ∧
    (readDemo "SERVER port=1 port=2\n").map (fun c => (c.port, c.errs)) = some (2, []) ∧
    (readDemo "SERVER pidfile=a\nSERVER pidfile=b\n").map (fun c => c.pidFile) = some (some (bs "/etc/a")) ∧
    (readDemo "SERVER logdir='/a'\nSERVER logdir='/b'\n").map (fun c => c.logDir) = some (bs "/b") := by decide +kernel

/-! ### Reports -/

/-- Reading a line is one directive. -/
theorem line_directive (env : CEnv) (e t : Cf) (l : List Cf) (c c' : SConf) (he : e.kind = .eof) (hl : Line (t :: l)) (hs : ¬ BareStamp (t :: l)) (h : runConf env e (t :: l) c = some c') :
    ∃ r, directive env e t l c = some r ∧ c' = r.2 := by
  have ht := hl.inLine t List.mem_cons_self
  rw [runConf_cons env e t l c ht.2, Option.bind_eq_some_iff] at h
  obtain ⟨r, hd, h⟩ := h
  have hrest : runConf env e r.1.rest r.2 = some r.2 := by
    by_cases hq : t.kind = .err
    · have : l = [] := hl.quote [] t l rfl hq
      subst this
      unfold directive at hd
      rw [hq] at hd
      cases hd
      exact runConf_nil env e _
    · have hE : Ends { e with kind := .eol } e := ⟨rfl, he, rfl⟩
      have := directive_both env (eof := e) (tl := []) hE ⟨hl.inLine, hs⟩ hq c
      rw [hd] at this
      generalize directive env e t _ c = r0 at this
      cases this with
      | some c1 => exact runConf_nil env e _
  rw [hrest] at h
  cases h
  exact ⟨r, hd, rfl⟩

/-- **C54.** Whatever a line contains, reading it reports one error at most, with the number of a token of the line or of its end, after those reported before. -/
theorem C54_report (env : CEnv) (e : Cf) (l : List Cf) (c c' : SConf) (he : e.kind = .eof) (hl : Line l) (hs : ¬ BareStamp l) (h : runConf env e l c = some c') :
    c'.errs = c.errs ∨ ∃ x ∈ e :: l, c'.errs = c.errs ++ [x.line] := by
  cases l with
  | nil => rw [runConf_nil] at h; cases h; exact Or.inl rfl
  | cons t l =>
    obtain ⟨r, hd, rfl⟩ := line_directive env e t l c c' he hl hs h
    obtain ⟨c1, h1, h2⟩ := directive_frame env e t l c hd
    have h3 : c1.errs = c.errs := by
      rcases h1 with h1 | h1 | ⟨k, rfl, _⟩
      · exact h1.errs
      · rw [h1.rest]
      · rfl
    rcases h2 with h2 | ⟨x, hx, h2⟩
    · rw [h2, h3]; exact Or.inl rfl
    · rw [h2, h3]; exact Or.inr ⟨x, hx, rfl⟩

example : Line [(⟨.key .global, bs "global", 4⟩ : Cf), ⟨.err, [], 4⟩] ∧ ¬ BareStamp [(⟨.key .global, bs "global", 4⟩ : Cf), ⟨.err, [], 4⟩] ∧
    (runConf envDemo ⟨.eof, [], 4⟩ [(⟨.key .global, bs "global", 4⟩ : Cf), ⟨.err, [], 4⟩] confDemo).map (·.errs) = some [4] := by
  refine ⟨⟨by unfold Cf.inLine; decide, ?_⟩, ?_, by decide +kernel⟩
  · intro a t b h ht
    rcases a with _ | ⟨x, _ | ⟨y, a⟩⟩
    · simp only [List.nil_append, List.cons.injEq] at h; rw [← h.1] at ht; cases ht
    · simp only [List.cons_append, List.nil_append, List.cons.injEq] at h; exact h.2.2.symm
    · simp at h
  · rintro ⟨a, k, q, n, h, _⟩
    have := congrArg List.length h
    simp at this

/-! ### More findings -/

/-- A priority that does not exist is reported, but the log file is changed, and a comma in the log directory cuts the name of the log file. -/
theorem C54_logfile_comma : (readDemo "SERVER logfile='x,loud'\n").map (fun c => (c.logFile, c.logLevel, c.errs)) = some (some (bs "/etc/x"), 6, [1]) ∧
    (readDemo "SERVER logdir='/a,b'\nSERVER logfile='x'\n").map (fun c => (c.logFile, c.logLevel, c.errs)) = some (some (bs "/a"), 6, [2]) := by decide +kernel

/-- A unit that does not exist is reported, but switches timestamps off. -/
theorem C54_unit_resets : (readDemo "SERVER timestamp=5m\nSERVER timestamp=6w\n").map (fun c => (c.stamp, c.errs)) = some (0, [2]) := by decide +kernel

/-- Days are multiplied without a check. -/
theorem C54_stamp_overflow : readDemo "SERVER timestamp=1491309d\n" = none ∧ (readDemo "SERVER timestamp=1491308d\n").map (·.stamp) = some 2147483520 := by decide +kernel

/-- Names relative to a directory are cut after 1023 bytes without a report. -/
theorem C54_long_name (env : CEnv) (c : SConf) (v : Cf) (s : List UInt8) (hv : Text v s) (hb : ¬ Blank s) (hr : s.head? ≠ some 0x2F) (hl : 1023 < (c.cwd ++ 0x2F :: s).length) (e k q : Cf)
    (he : e.kind = .eof) (hk : k.kind = .key .server) (hq : q.kind = .eq) (w : Cf) (hw : w.kind = .key .logdir) :
    runConf env e [k, w, q, v] c = some { c with logDir := (c.cwd ++ 0x2F :: s).take 1023 } ∧ (c.cwd ++ 0x2F :: s).take 1023 ≠ inDir c.cwd s := by
  refine ⟨?_, ?_⟩
  rotate_left
  · intro h
    unfold inDir at h
    rw [if_neg hr] at h
    have := congrArg List.length h
    rw [List.length_take] at this
    omega
  rw [runConf_cons env e k _ c (by rw [hk]; decide)]
  unfold directive
  rw [hk]
  dsimp only
  unfold parseServer
  dsimp only [List.length_cons, List.length_nil]
  rw [dirLoop]
  simp only [Ps.next, hw]
  unfold serverClause
  dsimp only
  rw [clause_val _ _ _ _ _ _ _ hq]
  unfold setLogDir
  rw [if_neg (str_pos hv), hv.2, if_neg (by simp [not_empty hb])]
  unfold relName joinFormat
  rw [if_pos hr]
  simp only [Option.map_some, Option.bind_some, Bool.not_true, Bool.false_eq_true, if_false]
  rw [dirLoop]
  simp only [Ps.next, he, Option.map_some, Option.bind_some]
  unfold dirEnd
  rw [if_neg (by simp)]
  exact runConf_nil env e _

end Conman
