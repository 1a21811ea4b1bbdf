import Verif.Lemma.Conf

/-
What directives leave unchanged.
-/
namespace Conman

/-- What a SERVER directive leaves unchanged, with the pid file (`a`) or the port (`b`) set before. -/
structure ServerFrame (a b : Bool) (c c' : SConf) : Prop where
  cwd : c'.cwd = c.cwd
  consoles : c'.consoles = c.consoles
  gLog : c'.gLog = c.gLog
  gLogOpt : c'.gLogOpt = c.gLogOpt
  gSer : c'.gSer = c.gSer
  gIpmi : c'.gIpmi = c.gIpmi
  gTest : c'.gTest = c.gTest
  errs : c'.errs = c.errs
  port : b = true → c'.port = c.port
  pid : a = true → c'.pidFile = c.pidFile

theorem ServerFrame.refl (a b : Bool) (c : SConf) : ServerFrame a b c c := ⟨rfl, rfl, rfl, rfl, rfl, rfl, rfl, rfl, fun _ => rfl, fun _ => rfl⟩

theorem ServerFrame.trans {a b : Bool} {c c' c'' : SConf} (h : ServerFrame a b c c') (h' : ServerFrame a b c' c'') : ServerFrame a b c c'' :=
  ⟨h'.cwd.trans h.cwd, h'.consoles.trans h.consoles, h'.gLog.trans h.gLog, h'.gLogOpt.trans h.gLogOpt, h'.gSer.trans h.gSer, h'.gIpmi.trans h.gIpmi, h'.gTest.trans h.gTest,
    h'.errs.trans h.errs, fun g => (h'.port g).trans (h.port g), fun g => (h'.pid g).trans (h.pid g)⟩

/-- What a GLOBAL directive leaves unchanged. -/
structure GlobalFrame (c c' : SConf) : Prop where
  rest : c' = { c with gLog := c'.gLog, gLogOpt := c'.gLogOpt, gSer := c'.gSer, gIpmi := c'.gIpmi, gTest := c'.gTest }

theorem GlobalFrame.refl (c : SConf) : GlobalFrame c c := ⟨rfl⟩

theorem GlobalFrame.trans {c c' c'' : SConf} (h : GlobalFrame c c') (h' : GlobalFrame c' c'') : GlobalFrame c c'' := by
  constructor
  rw [h'.rest, h.rest]

theorem clause_frame {R : SConf → SConf → Prop} {eof : Cf} {p : Ps} {c : SConf} {f : Cf → Option (SConf × Bool)} {o : Out} (hr : R c c)
    (hf : ∀ t q, f t = some q → R c q.1) (h : clause eof p c f = some o) : R c o.conf := by
  unfold clause at h
  split at h
  · cases h; exact hr
  · rw [Option.map_eq_some_iff] at h
    obtain ⟨q, hq, rfl⟩ := h
    exact hf _ _ hq

theorem onOff_frame {R : SConf → SConf → Prop} {c : SConf} {set : Bool → SConf} (hr : R c c) (hs : ∀ b, R c (set b)) (t : Cf) (q : SConf × Bool) (h : onOff c t set = some q) : R c q.1 := by
  unfold onOff at h
  split at h
  · cases h; exact hs _
  · split at h
    · cases h; exact hs _
    · cases h; exact hr

theorem serverClause_frame (env : CEnv) (eof : Cf) (a b : Bool) (p : Ps) (c : SConf) (k : Key) {o : Out} (h : serverClause env eof a b p c k = some o) : ServerFrame a b c o.conf := by
  have hr := ServerFrame.refl a b c
  have easy : ∀ {c' : SConf}, c'.cwd = c.cwd → c'.consoles = c.consoles → c'.gLog = c.gLog → c'.gLogOpt = c.gLogOpt → c'.gSer = c.gSer → c'.gIpmi = c.gIpmi → c'.gTest = c.gTest →
      c'.errs = c.errs → c'.port = c.port → c'.pidFile = c.pidFile → ServerFrame a b c c' := by
    intro c' h1 h2 h3 h4 h5 h6 h7 h8 h9 h10
    exact ⟨h1, h2, h3, h4, h5, h6, h7, h8, fun _ => h9, fun _ => h10⟩
  cases k with
  | coredump => unfold serverClause at h; dsimp only at h; exact clause_frame hr (fun t q hq => onOff_frame hr (fun b => by exact easy rfl rfl rfl rfl rfl rfl rfl rfl rfl rfl) t q hq) h
  | keepalive => unfold serverClause at h; dsimp only at h; exact clause_frame hr (fun t q hq => onOff_frame hr (fun b => by exact easy rfl rfl rfl rfl rfl rfl rfl rfl rfl rfl) t q hq) h
  | loopback => unfold serverClause at h; dsimp only at h; exact clause_frame hr (fun t q hq => onOff_frame hr (fun b => by exact easy rfl rfl rfl rfl rfl rfl rfl rfl rfl rfl) t q hq) h
  | tcpwrappers =>
    unfold serverClause at h; dsimp only at h
    split at h
    · cases h; exact hr
    · exact clause_frame hr (fun t q hq => onOff_frame hr (fun b => by exact easy rfl rfl rfl rfl rfl rfl rfl rfl rfl rfl) t q hq) h
  | coredumpdir =>
    unfold serverClause at h; dsimp only at h
    refine clause_frame hr (fun t q hq => ?_) h
    unfold setCoreDumpDir at hq
    split at hq
    · cases hq; exact hr
    · split at hq
      · cases hq; exact easy rfl rfl rfl rfl rfl rfl rfl rfl rfl rfl
      · split at hq
        · cases hq; exact hr
        · split at hq
          · cases hq; exact hr
          · cases hq; exact easy rfl rfl rfl rfl rfl rfl rfl rfl rfl rfl
  | execpath =>
    unfold serverClause at h; dsimp only at h
    refine clause_frame hr (fun t q hq => ?_) h
    unfold setExecPath at hq
    split at hq
    · cases hq; exact hr
    · split at hq
      · cases hq; exact hr
      · split at hq <;> (cases hq; exact easy rfl rfl rfl rfl rfl rfl rfl rfl rfl rfl)
  | logdir =>
    unfold serverClause at h; dsimp only at h
    refine clause_frame hr (fun t q hq => ?_) h
    unfold setLogDir at hq
    split at hq
    · cases hq; exact hr
    · split at hq <;> (cases hq; exact easy rfl rfl rfl rfl rfl rfl rfl rfl rfl rfl)
  | logfile =>
    unfold serverClause at h; dsimp only at h
    refine clause_frame hr (fun t q hq => ?_) h
    unfold setLogFile at hq
    split at hq
    · cases hq; exact hr
    · split at hq
      · cases hq; exact easy rfl rfl rfl rfl rfl rfl rfl rfl rfl rfl
      · split at hq <;> (cases hq; exact easy rfl rfl rfl rfl rfl rfl rfl rfl rfl rfl)
  | nofile =>
    unfold serverClause at h; dsimp only at h
    refine clause_frame hr (fun t q hq => ?_) h
    unfold setNoFile at hq
    split at hq
    · cases hq; exact hr
    · rw [Option.map_eq_some_iff] at hq
      obtain ⟨n, _, rfl⟩ := hq
      exact easy rfl rfl rfl rfl rfl rfl rfl rfl rfl rfl
  | pidfile =>
    unfold serverClause at h; dsimp only at h
    refine clause_frame hr (fun t q hq => ?_) h
    unfold setPidFile at hq
    split at hq
    · cases hq; exact hr
    · split at hq
      · rename_i ha
        cases hq
        exact ⟨rfl, rfl, rfl, rfl, rfl, rfl, rfl, rfl, fun _ => rfl, fun g => by rw [ha] at g; cases g⟩
      · cases hq; exact hr
  | port =>
    unfold serverClause at h; dsimp only at h
    refine clause_frame hr (fun t q hq => ?_) h
    unfold setPort at hq
    split at hq
    · cases hq; exact hr
    · rw [Option.map_eq_some_iff] at hq
      obtain ⟨n, _, hq⟩ := hq
      split at hq
      · cases hq; exact hr
      · split at hq
        · rename_i ha
          cases hq
          exact ⟨rfl, rfl, rfl, rfl, rfl, rfl, rfl, rfl, fun g => (by rw [ha] at g; cases g), fun _ => rfl⟩
        · cases hq; exact hr
  | resetcmd =>
    unfold serverClause at h; dsimp only at h
    refine clause_frame hr (fun t q hq => ?_) h
    unfold setResetCmd at hq
    split at hq
    · cases hq; exact hr
    · cases hq; exact easy rfl rfl rfl rfl rfl rfl rfl rfl rfl rfl
  | syslog =>
    unfold serverClause at h; dsimp only at h
    refine clause_frame hr (fun t q hq => ?_) h
    unfold setSyslog at hq
    split at hq
    · cases hq; exact hr
    · split at hq
      · cases hq; exact hr
      · cases hq; exact easy rfl rfl rfl rfl rfl rfl rfl rfl rfl rfl
  | timestamp =>
    unfold serverClause setStamp at h; dsimp only at h
    split at h
    · cases h; exact hr
    · split at h
      · cases h; exact hr
      · rw [Option.bind_eq_some_iff] at h
        obtain ⟨n, _, h⟩ := h
        split at h
        · cases h; exact hr
        · rw [Option.map_eq_some_iff] at h
          obtain ⟨m, _, h⟩ := h
          split at h <;> (cases h; exact easy rfl rfl rfl rfl rfl rfl rfl rfl rfl rfl)
  | _ => cases h; exact hr

theorem globalClause_frame (env : CEnv) (eof : Cf) (p : Ps) (c : SConf) (k : Key) {o : Out} (h : globalClause env eof p c k = some o) : GlobalFrame c o.conf := by
  have hr := GlobalFrame.refl c
  cases k with
  | log =>
    unfold globalClause at h; dsimp only at h
    refine clause_frame hr (fun t q hq => ?_) h
    unfold setGlobalLog at hq
    split at hq
    · cases hq; exact hr
    · split at hq
      · cases hq; exact ⟨rfl⟩
      · split at hq
        · cases hq; exact hr
        · cases hq; exact ⟨rfl⟩
  | logopts =>
    unfold globalClause at h; dsimp only at h
    refine clause_frame hr (fun t q hq => ?_) h
    split at hq
    · cases hq; exact hr
    · cases hq; exact ⟨rfl⟩
  | seropts =>
    unfold globalClause at h; dsimp only at h
    refine clause_frame hr (fun t q hq => ?_) h
    split at hq
    · cases hq; exact hr
    · rw [Option.map_eq_some_iff] at hq
      obtain ⟨n, _, rfl⟩ := hq
      exact ⟨rfl⟩
  | ipmiopts =>
    unfold globalClause at h; dsimp only at h
    split at h
    · cases h; exact hr
    · refine clause_frame hr (fun t q hq => ?_) h
      split at hq
      · cases hq; exact hr
      · rw [Option.map_eq_some_iff] at hq
        obtain ⟨n, _, rfl⟩ := hq
        exact ⟨rfl⟩
  | testopts =>
    unfold globalClause at h; dsimp only at h
    refine clause_frame hr (fun t q hq => ?_) h
    split at hq
    · cases hq; exact hr
    · cases hq; exact ⟨rfl⟩
  | _ => cases h; exact hr

theorem dirLoop_frame {R : SConf → SConf → Prop} (hr : ∀ c, R c c) (ht : ∀ {a b c}, R a b → R b c → R a c) (eof : Cf) (f : Ps → SConf → Key → Option Out)
    (hf : ∀ p c k o, f p c k = some o → R c o.conf) : ∀ (n : Nat) (p : Ps) (c : SConf) (o : Out), dirLoop eof f n p c = some o → R c o.conf := by
  intro n
  induction n with
  | zero => intro p c o h; rw [dirLoop] at h; cases h
  | succ n ih =>
    intro p c o h
    rw [dirLoop] at h
    split at h
    · cases h; exact hr c
    · cases h; exact hr c
    · rw [Option.bind_eq_some_iff] at h
      obtain ⟨q, hq, h⟩ := h
      have := hf _ _ _ _ hq
      split at h
      · cases h; exact this
      · exact ht this (ih _ _ _ h)
    · cases h; exact hr c

/-- Adding an error message or nothing. -/
def Reported (c c' : SConf) : Prop := ∃ es, c' = { c with errs := c.errs ++ es }

theorem dirEnd_conf (eof : Cf) (o : Out) : (dirEnd eof o).2 = if o.err then { o.conf with errs := o.conf.errs ++ [o.ps.last.line] } else o.conf := by
  unfold dirEnd; split <;> rfl

/-- Where the lexer is after a clause: at one of the tokens to come, or still at the keyword. -/
theorem next_last (eof : Cf) (p : Ps) : (p.next eof).last ∈ eof :: p.rest ∧ ∀ x ∈ (p.next eof).rest, x ∈ p.rest := by
  unfold Ps.next
  split
  · rename_i h; simp
  · rename_i h; rw [h]; exact ⟨by simp, fun x hx => List.mem_cons_of_mem _ hx⟩

/-- The position stays among the tokens of `T`. -/
def Within (T : List Cf) (p : Ps) : Prop := p.last ∈ T ∧ ∀ x ∈ p.rest, x ∈ T

theorem Within.next {T : List Cf} {eof : Cf} {p : Ps} (he : eof ∈ T) (h : Within T p) : Within T (p.next eof) := by
  obtain ⟨h1, h2⟩ := next_last eof p
  refine ⟨?_, fun x hx => h.2 x (h2 x hx)⟩
  rcases List.mem_cons.1 h1 with h1 | h1
  · rw [h1]; exact he
  · exact h.2 _ h1

theorem clause_within {T : List Cf} {eof : Cf} {p : Ps} {c : SConf} {f : Cf → Option (SConf × Bool)} {o : Out} (he : eof ∈ T) (hp : Within T p)
    (h : clause eof p c f = some o) : Within T o.ps := by
  unfold clause at h
  split at h
  · cases h; exact hp.next he
  · rw [Option.map_eq_some_iff] at h
    obtain ⟨q, hq, rfl⟩ := h
    exact (hp.next he).next he

theorem serverClause_within (env : CEnv) (a b : Bool) {T : List Cf} {eof : Cf} {p : Ps} {c : SConf} {k : Key} {o : Out} (he : eof ∈ T) (hp : Within T p)
    (h : serverClause env eof a b p c k = some o) : Within T o.ps := by
  cases k with
  | tcpwrappers =>
    unfold serverClause at h; dsimp only at h
    split at h
    · cases h; exact hp
    · exact clause_within he hp h
  | timestamp =>
    unfold serverClause setStamp at h; dsimp only at h
    split at h
    · cases h; exact hp.next he
    · split at h
      · cases h; exact (hp.next he).next he
      · rw [Option.bind_eq_some_iff] at h
        obtain ⟨n, _, h⟩ := h
        split at h
        · cases h; exact (hp.next he).next he
        · rw [Option.map_eq_some_iff] at h
          obtain ⟨m, _, h⟩ := h
          split at h <;> (cases h; exact ((hp.next he).next he).next he)
  | coredump => unfold serverClause at h; dsimp only at h; exact clause_within he hp h
  | coredumpdir => unfold serverClause at h; dsimp only at h; exact clause_within he hp h
  | execpath => unfold serverClause at h; dsimp only at h; exact clause_within he hp h
  | keepalive => unfold serverClause at h; dsimp only at h; exact clause_within he hp h
  | logdir => unfold serverClause at h; dsimp only at h; exact clause_within he hp h
  | logfile => unfold serverClause at h; dsimp only at h; exact clause_within he hp h
  | loopback => unfold serverClause at h; dsimp only at h; exact clause_within he hp h
  | nofile => unfold serverClause at h; dsimp only at h; exact clause_within he hp h
  | pidfile => unfold serverClause at h; dsimp only at h; exact clause_within he hp h
  | port => unfold serverClause at h; dsimp only at h; exact clause_within he hp h
  | resetcmd => unfold serverClause at h; dsimp only at h; exact clause_within he hp h
  | syslog => unfold serverClause at h; dsimp only at h; exact clause_within he hp h
  | _ => cases h; exact hp

theorem globalClause_within (env : CEnv) {T : List Cf} {eof : Cf} {p : Ps} {c : SConf} {k : Key} {o : Out} (he : eof ∈ T) (hp : Within T p)
    (h : globalClause env eof p c k = some o) : Within T o.ps := by
  cases k with
  | ipmiopts =>
    unfold globalClause at h; dsimp only at h
    split at h
    · cases h; exact hp
    · exact clause_within he hp h
  | log => unfold globalClause at h; dsimp only at h; exact clause_within he hp h
  | logopts => unfold globalClause at h; dsimp only at h; exact clause_within he hp h
  | seropts => unfold globalClause at h; dsimp only at h; exact clause_within he hp h
  | testopts => unfold globalClause at h; dsimp only at h; exact clause_within he hp h
  | _ => cases h; exact hp

theorem conClause_within {T : List Cf} {eof : Cf} {p : Ps} {con : ConStrs} {f : Cf → Option ConStrs} (he : eof ∈ T) (hp : Within T p) : Within T (conClause eof p con f).ps := by
  unfold conClause
  split
  · exact hp.next he
  · split <;> exact (hp.next he).next he

theorem consoleClause_within (env : CEnv) (d : List UInt8) {T : List Cf} {eof : Cf} {p : Ps} {con : ConStrs} {k : Key} (he : eof ∈ T) (hp : Within T p) :
    Within T (consoleClause env eof d p con k).ps := by
  cases k with
  | ipmiopts =>
    unfold consoleClause; dsimp only
    split
    · exact hp
    · exact conClause_within he hp
  | name => unfold consoleClause; dsimp only; exact conClause_within he hp
  | dev => unfold consoleClause; dsimp only; exact conClause_within he hp
  | log => unfold consoleClause; dsimp only; exact conClause_within he hp
  | logopts => unfold consoleClause; dsimp only; exact conClause_within he hp
  | seropts => unfold consoleClause; dsimp only; exact conClause_within he hp
  | testopts => unfold consoleClause; dsimp only; exact conClause_within he hp
  | _ => exact hp

theorem dirLoop_within {T : List Cf} {eof : Cf} (he : eof ∈ T) (f : Ps → SConf → Key → Option Out) (hf : ∀ p c k o, Within T p → f p c k = some o → Within T o.ps) :
    ∀ (n : Nat) (p : Ps) (c : SConf) (o : Out), Within T p → dirLoop eof f n p c = some o → Within T o.ps := by
  intro n
  induction n with
  | zero => intro p c o _ h; rw [dirLoop] at h; cases h
  | succ n ih =>
    intro p c o hp h
    have hn := hp.next he
    rw [dirLoop] at h
    split at h
    · cases h; exact hn
    · cases h; exact hn
    · rw [Option.bind_eq_some_iff] at h
      obtain ⟨q, hq, h⟩ := h
      have := hf _ _ _ _ hn hq
      split at h
      · cases h; exact this
      · exact ih _ _ _ this h
    · cases h; exact hn

theorem conLoop_within (env : CEnv) (d : List UInt8) {T : List Cf} {eof : Cf} (he : eof ∈ T) :
    ∀ (n : Nat) (p : Ps) (con : ConStrs) (o : ConOut), Within T p → conLoop env eof d n p con = some o → Within T o.ps := by
  intro n
  induction n with
  | zero => intro p c o _ h; rw [conLoop] at h; cases h
  | succ n ih =>
    intro p con o hp h
    have hn := hp.next he
    rw [conLoop] at h
    split at h
    · cases h; exact hn
    · cases h; exact hn
    · rename_i k _
      have := consoleClause_within env d (con := con) (k := k) he hn
      split at h
      · cases h; exact this
      · exact ih _ _ _ this h
    · cases h; exact hn

/-- The log file of a new console has been accepted. -/
def LogNew (env : CEnv) (c : SConf) (k : Console) : Prop := ∀ l, k.log = some l → ∃ q, createLog env.pid env.tm c.logs ⟨k.fobj, l.1⟩ = some (some q)

/-- A console is added or not; nothing else changes. -/
theorem processConsole_frame (env : CEnv) (c : SConf) (con : ConStrs) (line : Nat) (name dev : List UInt8) {r : SConf × Bool} (h : processConsole env c con line name dev = some r) :
    r = (c, false) ∨ ∃ k : Console, k.name = name ∧ r.1 = { c with consoles := c.consoles ++ [k] } ∧ mayCreate env c.consoles name k.dev = true ∧ LogNew env c k := by
  unfold processConsole at h
  split at h
  · cases h; exact Or.inl rfl
  · rw [Option.bind_eq_some_iff] at h
    obtain ⟨d, hd, h⟩ := h
    split at h
    · cases h; exact Or.inl rfl
    · rename_i _ d
      split at h
      · cases h; exact Or.inl rfl
      · rename_i hm
        have hm : mayCreate env c.consoles name d = true := by simpa using hm
        have hn : LogNew env c ⟨name, d, none⟩ := by intro l hl; cases hl
        split at h
        · cases h; exact Or.inr ⟨_, rfl, rfl, hm, hn⟩
        · split at h
          · cases h; exact Or.inr ⟨_, rfl, rfl, hm, hn⟩
          · rw [Option.map_eq_some_iff] at h
            obtain ⟨q, hq, h⟩ := h
            split at h
            · cases h; exact Or.inr ⟨_, rfl, rfl, hm, hn⟩
            · cases h
              refine Or.inr ⟨_, rfl, rfl, hm, ?_⟩
              intro l hl
              cases hl
              exact ⟨_, hq⟩

/-- The effect of a directive without the report of an error. -/
def DirEffect (env : CEnv) (c c1 : SConf) : Prop :=
  ServerFrame c.pidFile.isSome (decide (c.port ≥ 0)) c c1 ∨ GlobalFrame c c1 ∨
    ∃ k : Console, c1 = { c with consoles := c.consoles ++ [k] } ∧ mayCreate env c.consoles k.name k.dev = true ∧ LogNew env c k

theorem directive_frame (env : CEnv) (eof t : Cf) (ts : List Cf) (c : SConf) {r : Ps × SConf} (h : directive env eof t ts c = some r) :
    ∃ c1, DirEffect env c c1 ∧ (r.2 = c1 ∨ ∃ x ∈ eof :: t :: ts, r.2 = { c1 with errs := c1.errs ++ [x.line] }) := by
  have hT : Within (eof :: t :: ts) ⟨t, ts⟩ := ⟨by simp, fun x hx => by simp [hx]⟩
  have he : eof ∈ eof :: t :: ts := List.mem_cons_self
  have self : DirEffect env c c := Or.inr (Or.inl (GlobalFrame.refl c))
  have fin : ∀ o : Out, Within (eof :: t :: ts) o.ps → (dirEnd eof o).2 = o.conf ∨ ∃ x ∈ eof :: t :: ts, (dirEnd eof o).2 = { o.conf with errs := o.conf.errs ++ [x.line] } := by
    intro o ho
    rw [dirEnd_conf]
    split
    · exact Or.inr ⟨_, ho.1, rfl⟩
    · exact Or.inl rfl
  unfold directive at h
  split at h
  · unfold parseConsole at h
    rw [Option.bind_eq_some_iff] at h
    obtain ⟨o, ho, h⟩ := h
    have hw := conLoop_within env c.logDir he _ _ _ _ hT ho
    unfold conDone at h
    split at h
    · cases h; exact ⟨c, self, fin ⟨o.ps, c, true⟩ hw⟩
    · split at h
      · rw [Option.map_eq_some_iff] at h
        obtain ⟨q, hq, rfl⟩ := h
        rcases processConsole_frame env c _ _ _ _ hq with rfl | ⟨k, hk, hc, hm, hl⟩
        · exact ⟨c, self, fin ⟨o.ps, c, true⟩ hw⟩
        · exact ⟨q.1, Or.inr (Or.inr ⟨k, hc, by rw [hk]; exact hm, hl⟩), fin ⟨o.ps, q.1, !q.2⟩ hw⟩
      · cases h; exact ⟨c, self, fin ⟨o.ps, c, true⟩ hw⟩
  · unfold parseGlobal at h
    rw [Option.map_eq_some_iff] at h
    obtain ⟨o, ho, rfl⟩ := h
    refine ⟨o.conf, Or.inr (Or.inl ?_), fin o ?_⟩
    · exact dirLoop_frame GlobalFrame.refl GlobalFrame.trans eof _ (fun p c k o h => globalClause_frame env eof p c k h) _ _ _ _ ho
    · exact dirLoop_within he _ (fun p c k o hp h => globalClause_within env he hp h) _ _ _ _ hT ho
  · unfold parseServer at h
    rw [Option.map_eq_some_iff] at h
    obtain ⟨o, ho, rfl⟩ := h
    refine ⟨o.conf, Or.inl ?_, fin o ?_⟩
    · exact dirLoop_frame (ServerFrame.refl _ _) ServerFrame.trans eof _ (fun p c k o h => serverClause_frame env eof _ _ p c k h) _ _ _ _ ho
    · exact dirLoop_within he _ (fun p c k o hp h => serverClause_within env _ _ he hp h) _ _ _ _ hT ho
  · cases h; exact ⟨c, self, Or.inl rfl⟩
  · cases h; exact ⟨c, self, Or.inr ⟨t, by simp, rfl⟩⟩
  · cases h; exact ⟨c, self, fin ⟨⟨t, ts⟩, c, true⟩ hT⟩

theorem confLoop_inv {R : SConf → SConf → Prop} (hr : ∀ c, R c c) (ht : ∀ {a b c}, R a b → R b c → R a c) (env : CEnv) (eof : Cf)
    (hd : ∀ t ts c r, directive env eof t ts c = some r → R c r.2) : ∀ (n : Nat) (ts : List Cf) (c c' : SConf), confLoop env eof n ts c = some c' → R c c' := by
  intro n
  induction n with
  | zero => intro ts c c' h; rw [confLoop] at h; cases h
  | succ n ih =>
    intro ts c c' h
    cases ts with
    | nil => rw [confLoop] at h; cases h; exact hr c
    | cons t ts =>
      rw [confLoop] at h
      split at h
      · cases h; exact hr c
      · rw [Option.bind_eq_some_iff] at h
        obtain ⟨r, hr', h⟩ := h
        exact ht (hd _ _ _ _ hr') (ih _ _ _ h)

/-- What every text leaves as it is. -/
structure RunFrame (c c' : SConf) : Prop where
  cwd : c'.cwd = c.cwd
  port : 0 ≤ c.port → c'.port = c.port
  pid : ∀ f, c.pidFile = some f → c'.pidFile = some f
  errs : c.errs <+: c'.errs
  consoles : c.consoles <+: c'.consoles

theorem RunFrame.refl (c : SConf) : RunFrame c c := ⟨rfl, fun _ => rfl, fun _ h => h, List.prefix_refl _, List.prefix_refl _⟩

theorem RunFrame.trans {a b c : SConf} (h : RunFrame a b) (h' : RunFrame b c) : RunFrame a c :=
  ⟨h'.cwd.trans h.cwd, fun g => (h'.port (by rw [h.port g]; exact g)).trans (h.port g), fun f g => h'.pid f (h.pid f g), h.errs.trans h'.errs, h.consoles.trans h'.consoles⟩

theorem dirEffect_frame {env : CEnv} {c c1 : SConf} (h : DirEffect env c c1) : RunFrame c c1 := by
  rcases h with h | h | ⟨k, rfl, _⟩
  · exact ⟨h.cwd, fun g => h.port (by simpa using g), fun f g => by rw [h.pid (by rw [g]; rfl), g], h.errs ▸ List.prefix_refl _, h.consoles ▸ List.prefix_refl _⟩
  · rw [h.rest]; exact ⟨rfl, fun _ => rfl, fun _ h => h, List.prefix_refl _, List.prefix_refl _⟩
  · exact ⟨rfl, fun _ => rfl, fun _ h => h, List.prefix_refl _, List.prefix_append _ _⟩

theorem directive_runFrame (env : CEnv) (eof t : Cf) (ts : List Cf) (c : SConf) {r : Ps × SConf} (h : directive env eof t ts c = some r) : RunFrame c r.2 := by
  obtain ⟨c1, h1, h2⟩ := directive_frame env eof t ts c h
  have := dirEffect_frame h1
  rcases h2 with h2 | ⟨x, _, h2⟩
  · rw [h2]; exact this
  · rw [h2]; exact ⟨this.cwd, this.port, this.pid, this.errs.trans (List.prefix_append _ _), this.consoles⟩

/-- Consoles added one by one, each of them allowed. -/
inductive Built (env : CEnv) : List Console → Prop
  | nil : Built env []
  | add (l : List Console) (k : Console) (h : Built env l) (hm : mayCreate env l k.name k.dev = true)
      (hl : ∀ g, k.log = some g → ∃ q, createLog env.pid env.tm (l.filterMap fun k => k.log.map fun l => ⟨k.fobj, l.1⟩) ⟨k.fobj, g.1⟩ = some (some q)) : Built env (l ++ [k])

theorem directive_built (env : CEnv) (eof t : Cf) (ts : List Cf) (c : SConf) {r : Ps × SConf} (h : directive env eof t ts c = some r) :
    Built env c.consoles → Built env r.2.consoles := by
  intro hb
  obtain ⟨c1, h1, h2⟩ := directive_frame env eof t ts c h
  have hc : r.2.consoles = c1.consoles := by
    rcases h2 with h2 | ⟨x, _, h2⟩ <;> rw [h2]
  rw [hc]
  rcases h1 with h | h | ⟨k, rfl, hm, hl⟩
  · rw [h.consoles]; exact hb
  · rw [h.rest]; exact hb
  · exact Built.add _ _ hb hm hl

end Conman
