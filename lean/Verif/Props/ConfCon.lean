import Verif.Props.Conf

/-
C71: CONSOLE and GLOBAL directives of the configuration file.
-/
namespace Conman

open Spec

/-! ### GLOBAL directives -/

/-- A GLOBAL directive up to a point. -/
theorem global_run (env : CEnv) (e k : Cf) (l r : List Cf) (c c' : SConf) (hk : k.kind = .key .global) (hw : GWrites env l c c') :
    ∃ (t : Cf) (m : Nat), r.length < m ∧ directive env e k (l ++ r) c = (dirLoop e (globalClause env e) m ⟨t, r⟩ c').map (dirEnd e) := by
  obtain ⟨t, m, hm, h⟩ := dirLoop_gwrites env e l c c' hw k r ((l ++ r).length + 1) (by omega)
  refine ⟨t, m, hm, ?_⟩
  unfold directive
  rw [hk]
  dsimp only
  unfold parseGlobal
  dsimp only
  rw [h]

/-- **C71.** The settings of a GLOBAL directive in order have their effect, one after the other, and nothing is reported. -/
theorem C71_global (env : CEnv) (e k : Cf) (l : List Cf) (c c' : SConf) (he : e.kind = .eof) (hk : k.kind = .key .global) (hw : GWrites env l c c') :
    runConf env e (k :: l) c = some c' := by
  obtain ⟨t, m, hm, h⟩ := global_run env e k l [] c c' hk hw
  rw [List.append_nil] at h
  rw [runConf_cons env e k l c (by rw [hk]; decide), h]
  cases m with
  | zero => omega
  | succ m =>
    rw [dirLoop]
    simp only [Ps.next, he]
    dsimp only [Option.map_some, Option.bind_some]
    unfold dirEnd
    rw [if_neg (by simp)]
    exact runConf_nil env e c'

/-- **C71.** In a GLOBAL directive that is not in order, the settings before the malformed one have their effect, one error is reported, and the rest of the
line is skipped. -/
theorem C71_global_malformed (env : CEnv) (e k : Cf) (l r : List Cf) (c c' : SConf) (he : e.kind = .eof) (hk : k.kind = .key .global) (hw : GWrites env l c c')
    (hr : ∀ t ∈ r, Cf.inLine t) (hm : GMalformed env c' r) : ∃ x ∈ e :: r, runConf env e (k :: (l ++ r)) c = some { c' with errs := c'.errs ++ [x.line] } := by
  obtain ⟨t, m, hml, h⟩ := global_run env e k l r c c' hk hw
  cases m with
  | zero => omega
  | succ m =>
    obtain ⟨q, h1, h2⟩ := gmalformed_loop env e t r c' m he hr hm
    refine ⟨q.last, inLine_mem h2, ?_⟩
    rw [runConf_cons env e k _ c (by rw [hk]; decide), h, h1]
    dsimp only [Option.map_some, Option.bind_some]
    unfold dirEnd
    rw [if_pos rfl]
    dsimp only
    rw [inLine_skip he hr h2]
    exact runConf_nil env e _

/-- `log="%N.log" seropts="19200,7E1"`. -/
theorem globalDemo : GWrites envDemo
    [⟨.key .log, bs "log", 1⟩, ⟨.eq, bs "=", 1⟩, ⟨.str, bs "%N.log", 1⟩, ⟨.key .seropts, bs "seropts", 1⟩, ⟨.eq, bs "=", 1⟩, ⟨.str, bs "19200,7E1", 1⟩] confDemo
    { confDemo with gLog := some (bs "%N.log"), gSer := ⟨19200, 7, 2, 1⟩ } := by
  refine GWrites.set _ _ _ .log _ _ _ _ rfl rfl (GSets.log _ (bs "%N.log") ⟨rfl, rfl⟩ ?_ (Or.inl (by decide))) ?_
  · intro h; exact absurd (h 0x25 (by decide)) (by decide)
  · refine GWrites.set _ _ _ .seropts _ _ _ _ rfl rfl (GSets.serOpts _ (.full 19200 7 0x45 1) ⟨19200, 7, 2, 1⟩ ⟨rfl, by decide +kernel⟩ ?_ (by decide +kernel)) (GWrites.nil _)
    unfold SerForm.Small
    decide

example : runConf envDemo ⟨.eof, [], 1⟩ [⟨.key .global, bs "GLOBAL", 1⟩, ⟨.key .log, bs "log", 1⟩, ⟨.eq, bs "=", 1⟩, ⟨.str, bs "%N.log", 1⟩, ⟨.key .seropts, bs "seropts", 1⟩, ⟨.eq, bs "=", 1⟩,
    ⟨.str, bs "19200,7E1", 1⟩] confDemo = some { confDemo with gLog := some (bs "%N.log"), gSer := ⟨19200, 7, 2, 1⟩ } :=
  C71_global envDemo _ _ _ _ _ rfl rfl globalDemo

/-- A name that would be the same for all consoles is refused. -/
example : (runConf envDemo ⟨.eof, [], 1⟩ (⟨.key .global, bs "GLOBAL", 1⟩ :: ([] ++ [⟨.key .log, bs "log", 1⟩, ⟨.eq, bs "=", 1⟩, ⟨.str, bs "all.log", 1⟩])) confDemo).map (·.errs) = some [1] := by
  obtain ⟨x, hx, h⟩ := C71_global_malformed envDemo ⟨.eof, [], 1⟩ ⟨.key .global, bs "GLOBAL", 1⟩ [] [⟨.key .log, bs "log", 1⟩, ⟨.eq, bs "=", 1⟩, ⟨.str, bs "all.log", 1⟩] confDemo confDemo rfl rfl
    (GWrites.nil _) (by unfold Cf.inLine; decide) (GMalformed.noName _ _ _ _ rfl rfl (fun h => absurd (h 0x61 (by decide)) (by decide)) (by decide +kernel) (by decide +kernel))
  rw [h]
  simp only [List.mem_cons, List.not_mem_nil, or_false] at hx
  rcases hx with rfl | rfl | rfl | rfl <;> rfl

/-! ### CONSOLE directives -/

/-- **C71.** A CONSOLE directive in order, with a device as asked for by its device string, a name and a device that are free, and a log file (if any) that no other
console has, adds exactly this console, and nothing is reported. -/
theorem C71_console (env : CEnv) (e k : Cf) (l : List Cf) (con : ConStrs) (c : SConf) (name : List UInt8) (d : ConDev) (lg : Option (List UInt8 × LogOpt)) (h0 : env.fs.kind [] = none)
    (he : e.kind = .eof) (hk : k.kind = .key .console) (hw : ConWrites env.withIpmi c.logDir l {} con) (ha : Asked env c con e.line name d) (hf : Free env c.consoles name d)
    (hl : LogFor env c con name d lg) : runConf env e (k :: l) c = some { c with consoles := c.consoles ++ [⟨name, d, lg⟩] } := by
  obtain ⟨dev, h1, h2, h3⟩ := processConsole_good h0 ha hf hl
  rw [runConf_cons env e k l c (by rw [hk]; decide), console_run env e k l con c he hk hw]
  unfold conDone
  dsimp only
  rw [if_neg (by simp), h1, h2]
  dsimp only
  rw [h3]
  dsimp only [Option.map_some, Option.bind_some]
  unfold dirEnd
  rw [if_neg (by simp)]
  exact runConf_nil env e _

/-- **C71.** A CONSOLE directive that is refused changes nothing; one error is reported, with the number of the line. -/
theorem C71_refused (env : CEnv) (e k : Cf) (l : List Cf) (con : ConStrs) (c : SConf) (h0 : env.fs.kind [] = none) (he : e.kind = .eof) (hk : k.kind = .key .console)
    (hw : ConWrites env.withIpmi c.logDir l {} con) (hr : Refused env c con e.line) : runConf env e (k :: l) c = some { c with errs := c.errs ++ [e.line] } := by
  rw [runConf_cons env e k l c (by rw [hk]; decide), console_run env e k l con c he hk hw, conDone_refused h0 hr]
  dsimp only [Option.bind_some]
  unfold dirEnd
  rw [if_pos rfl]
  dsimp only
  rw [skipLine, if_pos (by simp [he])]
  exact runConf_nil env e _

/-- **C71.** So does one whose tokens are not in order. -/
theorem C71_malformed (env : CEnv) (e k : Cf) (l r : List Cf) (con : ConStrs) (c : SConf) (he : e.kind = .eof) (hk : k.kind = .key .console) (hw : ConWrites env.withIpmi c.logDir l {} con)
    (hr : ∀ t ∈ r, Cf.inLine t) (hm : ConMalformed env.withIpmi r) : ∃ x ∈ e :: r, runConf env e (k :: (l ++ r)) c = some { c with errs := c.errs ++ [x.line] } := by
  obtain ⟨t, m, hml, h⟩ := conLoop_writes env e c.logDir l {} con hw k r ((l ++ r).length + 1) (by omega)
  cases m with
  | zero => omega
  | succ m =>
    obtain ⟨q, h1, h2⟩ := conMalformed_loop env e t c.logDir r con m he hr hm
    refine ⟨q.last, inLine_mem h2, ?_⟩
    rw [runConf_cons env e k _ c (by rw [hk]; decide)]
    unfold directive
    rw [hk]
    dsimp only
    unfold parseConsole
    dsimp only
    rw [h, h1]
    dsimp only [Option.bind_some]
    unfold conDone
    dsimp only
    rw [if_pos rfl]
    dsimp only [Option.bind_some]
    unfold dirEnd
    rw [if_pos rfl]
    dsimp only
    rw [inLine_skip he hr h2]
    exact runConf_nil env e _

/-- A refused log file does not prevent the console: it is added without log, and an error is reported. -/
theorem C71_log_refused (env : CEnv) (e k : Cf) (l : List Cf) (con : ConStrs) (c : SConf) (name : List UInt8) (d : ConDev) (h0 : env.fs.kind [] = none) (he : e.kind = .eof)
    (hk : k.kind = .key .console) (hw : ConWrites env.withIpmi c.logDir l {} con) (ha : Asked env c con e.line name d) (hf : Free env c.consoles name d) (hl : LogBad env c con name d) :
    runConf env e (k :: l) c = some { c with consoles := c.consoles ++ [⟨name, d, none⟩], errs := c.errs ++ [e.line] } := by
  obtain ⟨dev, h1, h2, h3⟩ := processConsole_log h0 ha hf hl
  rw [runConf_cons env e k l c (by rw [hk]; decide), console_run env e k l con c he hk hw]
  unfold conDone
  dsimp only
  rw [if_neg (by simp), h1, h2]
  dsimp only
  rw [h3]
  dsimp only [Option.map_some, Option.bind_some]
  unfold dirEnd
  rw [if_pos (show (!false) = true from rfl)]
  dsimp only
  rw [skipLine, if_pos (by simp [he])]
  exact runConf_nil env e _

/-! ### An example -/

/-- The tokens of `name="n1" dev="/dev/ttyS0" log="x/%N" seropts="19200"`. -/
def conTokens : List Cf :=
  [⟨.key .name, bs "name", 3⟩, ⟨.eq, bs "=", 3⟩, ⟨.str, bs "n1", 3⟩, ⟨.key .dev, bs "dev", 3⟩, ⟨.eq, bs "=", 3⟩, ⟨.str, bs "/dev/ttyS0", 3⟩,
    ⟨.key .log, bs "log", 3⟩, ⟨.eq, bs "=", 3⟩, ⟨.str, bs "x/%N", 3⟩, ⟨.key .seropts, bs "seropts", 3⟩, ⟨.eq, bs "=", 3⟩, ⟨.str, bs "19200", 3⟩]

def conStrsDemo : ConStrs := { name := some (bs "n1"), dev := some (bs "/dev/ttyS0"), log := some (bs "/etc/x/%N"), sopts := some (bs "19200") }

theorem conTokens_writes : ConWrites true (bs "/etc") conTokens {} conStrsDemo := by
  refine ConWrites.name _ _ _ (bs "n1") _ _ _ rfl rfl ⟨rfl, rfl⟩ (fun h => absurd (h 0x6E (by decide)) (by decide)) ?_
  refine ConWrites.dev _ _ _ (bs "/dev/ttyS0") _ _ _ rfl rfl ⟨rfl, rfl⟩ (fun h => absurd (h 0x2F (by decide)) (by decide)) ?_
  refine ConWrites.log _ _ _ (bs "x/%N") _ _ _ rfl rfl ⟨rfl, rfl⟩ (fun h => absurd (h 0x78 (by decide)) (by decide)) (Or.inr (by decide)) ?_
  exact ConWrites.serOpts _ _ _ (bs "19200") _ _ _ rfl rfl ⟨rfl, rfl⟩ (fun h => absurd (h 0x31 (by decide)) (by decide)) (ConWrites.nil _)

theorem conDemo_means : Means envDemo.fs (bs "/etc") none (bs "/dev/ttyS0") (.serial (bs "/dev/ttyS0")) := by
  have hc : (0x3A : UInt8) ∉ bs "/dev/ttyS0" := by decide
  have pre : ∀ w rest, ¬ PrefixForm w (bs "/dev/ttyS0") rest := by
    rintro w rest ⟨_, v, _, h⟩
    exact hc (by rw [h]; simp)
  have tel : ∀ host port, ¬ TelnetForm (bs "/dev/ttyS0") host port := by
    rintro host port ⟨h, _⟩
    exact hc (by rw [h]; simp)
  refine ⟨fun host port h => absurd h (tel host port), Reading.serial (Or.inl rfl) (by decide +kernel), ?_⟩
  intro e he
  cases he with
  | unixsock rest h hf => exact absurd h (pre _ _)
  | telnet host port n hl h hn => exact absurd h (tel _ _)
  | _ => simp [rank]

theorem conDemo_asked (c : SConf) (hc : c.cwd = bs "/etc") (hp : c.execPath = none) (hs : c.gSer = ⟨9600, 8, 0, 1⟩) (n : Nat) :
    Asked envDemo c conStrsDemo n (bs "n1") (.serial (bs "/dev/ttyS0") ⟨19200, 8, 0, 1⟩) := by
  refine ⟨bs "/dev/ttyS0", [.bare (bs "/dev/ttyS0")], rfl, rfl, by decide, by decide, ?_, ?_, ?_⟩
  · exact CmdLine.last [] (by simp) (.bare (bs "/dev/ttyS0")) ⟨by decide, by decide, by decide, by decide⟩
  · intro w hw _
    rw [List.mem_singleton.1 hw]
    decide
  · refine DeviceOf.serialOpts _ (bs "/dev/ttyS0") (.bps 19200) _ ?_ rfl (by decide +kernel) (by unfold SerForm.Small; decide) (by rw [hs]; decide +kernel)
    rw [hc, hp]
    exact conDemo_means

/-- The hypotheses of C71_console hold together. -/
example : runConf envDemo ⟨.eof, [], 3⟩ (⟨.key .console, bs "CONSOLE", 3⟩ :: conTokens) confDemo =
    some { confDemo with consoles := [⟨bs "n1", .serial (bs "/dev/ttyS0") ⟨19200, 8, 0, 1⟩, some (bs "/etc/x/%N", ⟨true, false, false⟩)⟩] } := by
  refine C71_console envDemo _ _ _ conStrsDemo confDemo (bs "n1") (.serial (bs "/dev/ttyS0") ⟨19200, 8, 0, 1⟩) (some (bs "/etc/x/%N", ⟨true, false, false⟩)) (by decide) rfl rfl conTokens_writes
    (conDemo_asked confDemo rfl rfl rfl 3) ⟨(fun p h => by cases h), (fun h n h2 => by cases h2), (fun k hk => by cases hk), (fun k hk => by cases hk)⟩ ?_
  refine LogFor.some _ (bs "/etc/x/n1") _ (LogNameFor.own _ rfl (by decide) (by decide)) (LogOptsFor.global rfl) ?_ (fun k hk => by cases hk)
  exact Or.inr ⟨by decide, by decide, by decide +kernel, by decide, by decide, tmDemo_ne⟩

/-- The same directive again is refused: the name is taken. -/
example : runConf envDemo ⟨.eof, [], 3⟩ (⟨.key .console, bs "CONSOLE", 3⟩ :: conTokens) { confDemo with consoles := [⟨bs "n1", .test ⟨0, 0, 0, 0⟩, none⟩] } =
    some { confDemo with consoles := [⟨bs "n1", .test ⟨0, 0, 0, 0⟩, none⟩], errs := [3] } := by
  refine C71_refused envDemo _ _ _ conStrsDemo _ (by decide) rfl rfl conTokens_writes (Refused.notFree (bs "n1") _ (conDemo_asked _ rfl rfl rfl 3) ?_)
  intro hf
  exact hf.name _ List.mem_cons_self rfl

/-- A console whose log file is that of another one is added without log. -/
example : runConf envDemo ⟨.eof, [], 3⟩ (⟨.key .console, bs "CONSOLE", 3⟩ :: conTokens) { confDemo with consoles := [⟨bs "n2", .test ⟨0, 0, 0, 0⟩, some (bs "/etc/x/n1", ⟨true, false, false⟩)⟩] } =
    some { confDemo with consoles := [⟨bs "n2", .test ⟨0, 0, 0, 0⟩, some (bs "/etc/x/n1", ⟨true, false, false⟩)⟩, ⟨bs "n1", .serial (bs "/dev/ttyS0") ⟨19200, 8, 0, 1⟩, none⟩], errs := [3] } := by
  refine C71_log_refused envDemo _ _ _ conStrsDemo _ (bs "n1") (.serial (bs "/dev/ttyS0") ⟨19200, 8, 0, 1⟩) (by decide) rfl rfl conTokens_writes (conDemo_asked _ rfl rfl rfl 3) ?_ ?_
  · refine ⟨(fun p h => by cases h), (fun h n h2 => by cases h2), (fun k hk => ?_), (fun k hk hs => ?_)⟩
    · rw [List.mem_singleton.1 hk]; decide
    · rw [List.mem_singleton.1 hk] at hs; cases hs
  · refine LogBad.used _ (bs "/etc/x/n1") _ (LogNameFor.own _ rfl (by decide) (by decide)) (LogOptsFor.global rfl) ?_ (fun hu => hu _ List.mem_cons_self _ rfl rfl)
    exact Or.inr ⟨by decide, by decide, by decide +kernel, by decide, by decide, tmDemo_ne⟩

/-- A keyword of another directive in it. -/
example : ∃ x ∈ [(⟨.eof, [], 3⟩ : Cf), ⟨.key .port, bs "port", 3⟩, ⟨.eq, bs "=", 3⟩], runConf envDemo ⟨.eof, [], 3⟩ (⟨.key .console, bs "CONSOLE", 3⟩ :: (conTokens ++ [⟨.key .port, bs "port", 3⟩, ⟨.eq, bs "=", 3⟩])) confDemo =
    some { confDemo with errs := [x.line] } :=
  C71_malformed envDemo _ _ _ _ conStrsDemo confDemo rfl rfl conTokens_writes (by unfold Cf.inLine; decide) (ConMalformed.wrongKey _ .port _ rfl (by decide))

/-! ### Every text -/

theorem processConfig_built (env : CEnv) (s : List UInt8) (c c' : SConf) (hc : Built env c.consoles) (h : processConfig env s c = some c') : Built env c'.consoles := by
  unfold processConfig at h
  rw [Option.bind_eq_some_iff] at h
  obtain ⟨ts, _, h⟩ := h
  dsimp only at h
  split at h
  · cases h
  · rw [Option.map_eq_some_iff] at h
    obtain ⟨c1, h1, rfl⟩ := h
    have : Built env c1.consoles := confLoop_inv (R := fun a b => Built env a.consoles → Built env b.consoles) (fun _ h => h) (fun h h' g => h' (h g)) env _
      (fun t ts c r h => directive_built env _ t ts c h) _ _ _ _ h1 hc
    unfold defaultPort
    split <;> exact this

theorem built_all {env : CEnv} {ks : List Console} (h : Built env ks) :
    (ks.Pairwise fun a b => b.name ≠ a.name ∧ ¬ SameDev b.dev a.dev ∧
      ∀ la lb n, a.log = some la → b.log = some lb → StandsFor env b.name b.dev lb.1 n → n ≠ la.1) ∧
    ∀ k ∈ ks, (∀ p, k.dev = .unixsock p → p.length ≤ env.sockMax) ∧ ∀ h n, k.dev = .telnet h n → 0 < n := by
  induction h with
  | nil => exact ⟨List.Pairwise.nil, fun k hk => by cases hk⟩
  | add l k h hm hl ih =>
    have hf := (mayCreate_iff env l k.name k.dev).1 hm
    refine ⟨?_, ?_⟩
    · rw [List.pairwise_append]
      refine ⟨ih.1, List.pairwise_singleton _ _, ?_⟩
      intro a ha b hb
      rw [List.mem_singleton.1 hb]
      refine ⟨fun g => hf.name a ha g.symm, hf.dev a ha, ?_⟩
      intro la lb n h1 h2 hs
      obtain ⟨q, hq⟩ := hl lb h2
      have hp : logPname env.pid env.tm ⟨k.fobj, lb.1⟩ = some n := by
        have := logPname_of hs
        rw [fobj_eq] at this
        rw [show k.fobj = ⟨true, k.name, devName k.dev⟩ from fobj_eq k.name k.dev k.log]
        exact this
      unfold createLog at hq
      rw [hp] at hq
      simp only [Option.map_some, Option.some.injEq] at hq
      split at hq
      · cases hq
      · rename_i hany
        intro e
        apply hany
        rw [List.any_eq_true]
        exact ⟨⟨a.fobj, la.1⟩, List.mem_filterMap.2 ⟨a, ha, by rw [h1]; rfl⟩, by simp [e]⟩
    · intro x hx
      rcases List.mem_append.1 hx with hx | hx
      · exact ih.2 x hx
      · rw [List.mem_singleton.1 hx]; exact ⟨hf.path, hf.port⟩

/-- **C71.** Whatever the text of the configuration file: names of consoles are distinct, no two consoles have the same serial device, the same Unix socket or the same
BMC, paths of sockets fit an address, and ports are positive. -/
theorem C71_unique (env : CEnv) (s : List UInt8) (c c' : SConf) (hc : c.consoles = []) (h : processConfig env s c = some c') :
    (c'.consoles.Pairwise fun a b => a.name ≠ b.name ∧ ¬ SameDev a.dev b.dev) ∧
    ∀ k ∈ c'.consoles, (∀ p, k.dev = .unixsock p → p.length ≤ env.sockMax) ∧ ∀ h n, k.dev = .telnet h n → 0 < n := by
  obtain ⟨h1, h2⟩ := built_all (processConfig_built env s c c' (by rw [hc]; exact Built.nil) h)
  refine ⟨h1.imp ?_, h2⟩
  rintro a b ⟨g1, g2, _⟩
  refine ⟨fun e => g1 e.symm, fun hs => g2 ?_⟩
  generalize a.dev = x at hs ⊢
  generalize b.dev = y at hs ⊢
  cases hs <;> constructor

/- Full statement: no two consoles have the same log file.  It does not hold if the first of the two is given with conversion specifiers (C69_same_file). -/

/-- **C71.** Whatever the text of the configuration file: the log file of a console is not one that was given, without conversion specifiers, for a console before it. -/
theorem C71_logs_partial (env : CEnv) (s : List UInt8) (c c' : SConf) (hc : c.consoles = []) (h : processConfig env s c = some c') :
    c'.consoles.Pairwise fun a b => ∀ la lb n, a.log = some la → b.log = some lb → (0x25 : UInt8) ∉ la.1 → StandsFor env b.name b.dev lb.1 n → ¬ StandsFor env a.name a.dev la.1 n := by
  obtain ⟨h1, _⟩ := built_all (processConfig_built env s c c' (by rw [hc]; exact Built.nil) h)
  refine h1.imp ?_
  rintro a b ⟨_, _, g⟩ la lb n e1 e2 hp hs ha
  refine g la lb n e1 e2 hs ?_
  rcases ha with ⟨_, ha⟩ | ⟨ha, _⟩
  · exact ha
  · exact absurd ha hp

/-- Two consoles; the third has the device, the fourth the name of the first; the last has no name. -/
example : (readDemo "CONSOLE name=a dev='/dev/ttyS0'\nCONSOLE name=b dev='host:23'\nCONSOLE name=c dev='/dev/ttyS0'\nCONSOLE name=a dev='/dev/ttyS1'\nCONSOLE dev='x:1'\n").map
    (fun c => (c.consoles.map (·.name), c.errs)) = some ([bs "a", bs "b"], [3, 4, 5]) := by decide +kernel

/-- Two consoles may have the same terminal server and port. -/
theorem C71_telnet_shared : (readDemo "CONSOLE name=a dev='host:23'\nCONSOLE name=b dev='host:23'\n").map (fun c => (c.consoles.map (·.dev), c.errs)) =
    some ([.telnet (bs "host") 23, .telnet (bs "host") 23], []) := by decide +kernel

/-- **C71.** Whatever a line contains, reading it adds one console at most, and only if the line starts with CONSOLE; the console's name and device are free; nothing else
changes then, and if an error is reported the console has no log file. -/
theorem C71_one (env : CEnv) (e : Cf) (l : List Cf) (c c' : SConf) (he : e.kind = .eof) (hl : Line l) (hs : ¬ BareStamp l) (h : runConf env e l c = some c') :
    c'.consoles = c.consoles ∨
      ∃ (t : Cf) (r : List Cf) (k : Console) (es : List Nat), l = t :: r ∧ t.kind = .key .console ∧ Free env c.consoles k.name k.dev ∧
        c' = { c with consoles := c.consoles ++ [k], errs := c.errs ++ es } ∧ (es ≠ [] → k.log = none) := by
  cases l with
  | nil => rw [runConf_nil] at h; cases h; exact Or.inl rfl
  | cons t l =>
    obtain ⟨r, hd, hr⟩ := line_directive env e t l c c' he hl hs h
    cases hr
    unfold directive at hd
    split at hd
    · rename_i hk
      unfold parseConsole at hd
      rw [Option.bind_eq_some_iff] at hd
      obtain ⟨o, ho, hd⟩ := hd
      unfold conDone at hd
      split at hd
      · cases hd; left; rw [dirEnd_conf, if_pos rfl]
      · split at hd
        · rw [Option.map_eq_some_iff] at hd
          obtain ⟨q, hq, rfl⟩ := hd
          rcases processConsole_frame env c _ _ _ _ hq with rfl | ⟨k, hk1, hc, hm, hlg⟩
          · left; rw [dirEnd_conf, if_pos (show (!false) = true from rfl)]
          · right
            have hlog := processConsole_log_none hq
            refine ⟨t, l, k, if q.2 then [] else [o.ps.last.line], rfl, hk, (mayCreate_iff env c.consoles k.name k.dev).1 (by rw [hk1]; exact hm), ?_, ?_⟩
            · rw [dirEnd_conf]
              dsimp only
              cases hq2 : q.2 with
              | true => rw [if_neg (by decide), hc, if_pos rfl, List.append_nil]
              | false => rw [if_pos (by decide), hc, if_neg (by decide)]
            · intro hne
              cases hq2 : q.2 with
              | true => rw [hq2] at hne; exact absurd rfl hne
              | false => exact hlog hq2 k hc
        · cases hd; left; rw [dirEnd_conf, if_pos rfl]
    · left
      unfold parseGlobal at hd
      rw [Option.map_eq_some_iff] at hd
      obtain ⟨o, ho, rfl⟩ := hd
      have := dirLoop_frame GlobalFrame.refl GlobalFrame.trans e _ (fun p c k o h => globalClause_frame env e p c k h) _ _ _ _ ho
      rw [dirEnd_conf]
      have hcs : o.conf.consoles = c.consoles := by rw [this.rest]
      split <;> exact hcs
    · left
      unfold parseServer at hd
      rw [Option.map_eq_some_iff] at hd
      obtain ⟨o, ho, rfl⟩ := hd
      have := dirLoop_frame (ServerFrame.refl _ _) ServerFrame.trans e _ (fun p c k o h => serverClause_frame env e _ _ p c k h) _ _ _ _ ho
      rw [dirEnd_conf]
      split <;> exact this.consoles
    · cases hd; exact Or.inl rfl
    · cases hd; exact Or.inl rfl
    · cases hd; left; rw [dirEnd_conf, if_pos rfl]

end Conman
