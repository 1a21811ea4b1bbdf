import Verif.Spec.Conf
import Verif.Spec.CStr

/-
CONSOLE directives (conman.conf(5), "CONSOLE DIRECTIVES").
-/
namespace Conman.Spec

/-- The settings of a CONSOLE directive; later ones replace earlier ones. -/
inductive ConWrites (ipmi : Bool) (logDir : List UInt8) : List Cf → ConStrs → ConStrs → Prop
  | nil (con : ConStrs) : ConWrites ipmi logDir [] con con
  | name (k e v : Cf) (s : List UInt8) (r : List Cf) (con con' : ConStrs) (hk : k.kind = .key .name) (he : e.kind = .eq) (hv : Text v s) (hb : ¬ Blank s)
      (h : ConWrites ipmi logDir r { con with name := some s } con') : ConWrites ipmi logDir (k :: e :: v :: r) con con'
  | dev (k e v : Cf) (s : List UInt8) (r : List Cf) (con con' : ConStrs) (hk : k.kind = .key .dev) (he : e.kind = .eq) (hv : Text v s) (hb : ¬ Blank s)
      (h : ConWrites ipmi logDir r { con with dev := some s } con') : ConWrites ipmi logDir (k :: e :: v :: r) con con'
  | noLog (k e v : Cf) (s : List UInt8) (r : List Cf) (con con' : ConStrs) (hk : k.kind = .key .log) (he : e.kind = .eq) (hv : Text v s) (hb : Blank s)
      (h : ConWrites ipmi logDir r { con with log := some [] } con') : ConWrites ipmi logDir (k :: e :: v :: r) con con'
  | log (k e v : Cf) (s : List UInt8) (r : List Cf) (con con' : ConStrs) (hk : k.kind = .key .log) (he : e.kind = .eq) (hv : Text v s) (hb : ¬ Blank s) (hf : Fits1 logDir s)
      (h : ConWrites ipmi logDir r { con with log := some (inDir logDir s) } con') : ConWrites ipmi logDir (k :: e :: v :: r) con con'
  | logOpts (k e v : Cf) (s : List UInt8) (r : List Cf) (con con' : ConStrs) (hk : k.kind = .key .logopts) (he : e.kind = .eq) (hv : Text v s) (hb : ¬ Blank s)
      (h : ConWrites ipmi logDir r { con with lopts := some s } con') : ConWrites ipmi logDir (k :: e :: v :: r) con con'
  | serOpts (k e v : Cf) (s : List UInt8) (r : List Cf) (con con' : ConStrs) (hk : k.kind = .key .seropts) (he : e.kind = .eq) (hv : Text v s) (hb : ¬ Blank s)
      (h : ConWrites ipmi logDir r { con with sopts := some s } con') : ConWrites ipmi logDir (k :: e :: v :: r) con con'
  | ipmiOpts (k e v : Cf) (s : List UInt8) (r : List Cf) (con con' : ConStrs) (hk : k.kind = .key .ipmiopts) (he : e.kind = .eq) (hv : Text v s) (hi : ipmi = true)
      (h : ConWrites ipmi logDir r { con with iopts := some s } con') : ConWrites ipmi logDir (k :: e :: v :: r) con con'
  | testOpts (k e v : Cf) (s : List UInt8) (r : List Cf) (con con' : ConStrs) (hk : k.kind = .key .testopts) (he : e.kind = .eq) (hv : Text v s)
      (h : ConWrites ipmi logDir r { con with topts := some s } con') : ConWrites ipmi logDir (k :: e :: v :: r) con con'

/-- The meaning of a device string: the first of its readings.  Its port, if it has one, fits an `int`. -/
def Means (fs : Fs) (cwd : List UInt8) (path : Option (List UInt8)) (dev : List UInt8) (d : Dev) : Prop :=
  (∀ host port, TelnetForm dev host port → digitsVal port ≤ 2147483647) ∧ Reading fs cwd path dev d ∧ ∀ e, Reading fs cwd path dev e → rank d ≤ rank e

/-- The device of a console, from the words of its device string and the options given with it or by GLOBAL directives. -/
inductive DeviceOf (env : CEnv) (c : SConf) (con : ConStrs) (line : Nat) : List (List UInt8) → ConDev → Prop
  | process (w f : List UInt8) (ws : List (List UInt8)) (h : Means env.fs c.cwd c.execPath w (.process f)) : DeviceOf env c con line (w :: ws) (.process (f :: ws))
  | unixsock (w p : List UInt8) (h : Means env.fs c.cwd c.execPath w (.unixsock p)) : DeviceOf env c con line [w] (.unixsock p)
  | telnet (w host : List UInt8) (port : Int) (h : Means env.fs c.cwd c.execPath w (.telnet host port)) : DeviceOf env c con line [w] (.telnet host port)
  | serial (w p : List UInt8) (h : Means env.fs c.cwd c.execPath w (.serial p)) (hw : env.rw p = true) (ho : con.sopts = none) : DeviceOf env c con line [w] (.serial p c.gSer)
  | serialOpts (w p : List UInt8) (f : SerForm) (o : SerOpt) (h : Means env.fs c.cwd c.execPath w (.serial p)) (hw : env.rw p = true) (ho : con.sopts = some f.text) (hs : f.Small)
      (ha : f.apply c.gSer = some o) : DeviceOf env c con line [w] (.serial p o)
  | ipmi (w host : List UInt8) (h : Means env.fs c.cwd c.execPath w (.ipmi host)) (hi : env.withIpmi = true) (ho : con.iopts = none) : DeviceOf env c con line [w] (.ipmi host c.gIpmi)
  | ipmiOpts (w host s : List UInt8) (ts : List (List UInt8)) (o : IpmiOpt) (h : Means env.fs c.cwd c.execPath w (.ipmi host)) (hi : env.withIpmi = true) (ho : con.iopts = some s)
      (h0 : (0 : UInt8) ∉ s) (ht : Toks commaSep ts s) (hl : s.length < 1024)
      (ha : if s = [] ∨ s[1]? = some 0x3A then Steps (IpmiWord env.lib) c.gIpmi ts o else OldForm env.lib c.gIpmi ts o) : DeviceOf env c con line [w] (.ipmi host o)
  | test (w : List UInt8) (h : Means env.fs c.cwd c.execPath w .test) (ho : con.topts = none) : DeviceOf env c con line [w] (.test c.gTest)
  | testOpts (w s : List UInt8) (ts : List (List UInt8)) (l : List TestSet) (h : Means env.fs c.cwd c.execPath w .test) (ho : con.topts = some s) (ht : Toks commaSep ts s) (hl : s.length < 1024)
      (hw : TestWords ts l) (he : env.erange line = false) : DeviceOf env c con line [w] (.test (l.foldl (fun o t => t.apply o) c.gTest))

/-- Devices that only one console can have. -/
inductive SameDev : ConDev → ConDev → Prop
  | unixsock (p : List UInt8) : SameDev (.unixsock p) (.unixsock p)
  | serial (p : List UInt8) (o o' : SerOpt) : SameDev (.serial p o) (.serial p o')
  | ipmi (h : List UInt8) (o o' : IpmiOpt) : SameDev (.ipmi h o) (.ipmi h o')

/-- A name and a device that can be used for another console. -/
structure Free (env : CEnv) (have_ : List Console) (name : List UInt8) (d : ConDev) : Prop where
  path : ∀ p, d = .unixsock p → p.length ≤ env.sockMax
  port : ∀ h n, d = .telnet h n → 0 < n
  name : ∀ k ∈ have_, k.name ≠ name
  dev : ∀ k ∈ have_, ¬ SameDev d k.dev

/-- The options of the log file. -/
inductive LogOptsFor (c : SConf) (con : ConStrs) : LogOpt → Prop
  | global (h : con.lopts = none) : LogOptsFor c con c.gLogOpt
  | own (s : List UInt8) (ts : List (List UInt8)) (h : con.lopts = some s) (h0 : (0 : UInt8) ∉ s) (hn : s ≠ []) (hl : s.length < 1024) (ht : Toks logSep ts s) :
      LogOptsFor c con ⟨(lastSays (bs "lock") ts).getD c.gLogOpt.lock, (lastSays (bs "sanitize") ts).getD c.gLogOpt.sanitize, (lastSays (bs "timestamp") ts).getD c.gLogOpt.timestamp⟩

/-- The name of the log file: that of the directive, or the global one. -/
inductive LogNameFor (c : SConf) (con : ConStrs) : Option (List UInt8) → Prop
  | none (h : con.log = some [] ∨ con.log = none ∧ c.gLog = none) : LogNameFor c con none
  | own (l : List UInt8) (h : con.log = some l) (hn : l ≠ []) (hl : l.length < 1024) : LogNameFor c con (some l)
  | global (g : List UInt8) (h : con.log = none) (hg : c.gLog = some g) (hl : (inDir c.logDir g).length < 1024) : LogNameFor c con (some (inDir c.logDir g))

/-- What `%D` stands for. -/
def devName : ConDev → FDev
  | .serial p _ => .path p
  | .unixsock p => .path p
  | .telnet h n => .telnet h n
  | .process _ => .other
  | .ipmi _ _ => .other
  | .test _ => .other

/-- The name `l` of a log file stands for `n`. -/
def StandsFor (env : CEnv) (name : List UInt8) (d : ConDev) (l n : List UInt8) : Prop :=
  ((0x25 : UInt8) ∉ l ∧ n = l) ∨
    ((0x25 : UInt8) ∈ l ∧ loneEnd l = false ∧ n = expand (some ⟨true, name, devName d⟩) env.pid env.tm l ∧ n.length < 1024 ∧ (0 : UInt8) ∉ n ∧ ∀ c ∈ timeLetters, env.tm c ≠ [])

/-- No log file was given by this name. -/
def LogUnused (have_ : List Console) (n : List UInt8) : Prop := ∀ k ∈ have_, ∀ g, k.log = some g → g.1 ≠ n

/-- What a CONSOLE directive in order asks for. -/
structure Asked (env : CEnv) (c : SConf) (con : ConStrs) (line : Nat) (name : List UInt8) (d : ConDev) : Prop where
  words : ∃ dev ws, con.name = some name ∧ con.dev = some dev ∧ (0 : UInt8) ∉ name ∧ (0 : UInt8) ∉ dev ∧ CmdLine ws dev ∧
    (∀ w ∈ ws, w.subst = true → (w.arg name).length < 1024) ∧ DeviceOf env c con line (ws.map (·.arg name)) d

/-- The log file of a console: none, or one that can be used. -/
inductive LogFor (env : CEnv) (c : SConf) (con : ConStrs) (name : List UInt8) (d : ConDev) : Option (List UInt8 × LogOpt) → Prop
  | none (h : LogNameFor c con none) : LogFor env c con name d none
  | some (l n : List UInt8) (o : LogOpt) (h : LogNameFor c con (some l)) (ho : LogOptsFor c con o) (hn : StandsFor env name d l n) (hu : LogUnused c.consoles n) :
      LogFor env c con name d (some (l, o))

/-- A log file that is refused: bad options, or the name of another one. -/
inductive LogBad (env : CEnv) (c : SConf) (con : ConStrs) (name : List UInt8) (d : ConDev) : Prop
  | opts (l s : List UInt8) (h : LogNameFor c con (some l)) (ho : con.lopts = some s) (h0 : (0 : UInt8) ∉ s) (hl : 1024 ≤ s.length) : LogBad env c con name d
  | used (l n : List UInt8) (o : LogOpt) (h : LogNameFor c con (some l)) (ho : LogOptsFor c con o) (hn : StandsFor env name d l n) (hu : ¬ LogUnused c.consoles n) :
      LogBad env c con name d

/-- The device of a console is not in order, from the words of its device string. -/
inductive NoDevice (env : CEnv) (c : SConf) (con : ConStrs) : List (List UInt8) → Prop
  | noWords : NoDevice env c con []
  | unknown (w : List UInt8) (ws : List (List UInt8)) (h : Means env.fs c.cwd c.execPath w .unknown) : NoDevice env c con (w :: ws)
  | tooMany (w v : List UInt8) (ws : List (List UInt8)) (d : Dev) (h : Means env.fs c.cwd c.execPath w d) (hd : ∀ f, d ≠ .process f) : NoDevice env c con (w :: v :: ws)
  | noAccess (w p : List UInt8) (ws : List (List UInt8)) (h : Means env.fs c.cwd c.execPath w (.serial p)) (hw : env.rw p = false) : NoDevice env c con (w :: ws)
  | noIpmi (w host : List UInt8) (ws : List (List UInt8)) (h : Means env.fs c.cwd c.execPath w (.ipmi host)) (hi : env.withIpmi = false) : NoDevice env c con (w :: ws)
  | serialOpts (w p : List UInt8) (f : SerForm) (h : Means env.fs c.cwd c.execPath w (.serial p)) (ho : con.sopts = some f.text) (hs : f.Small) (ha : f.apply c.gSer = none) :
      NoDevice env c con [w]
  | ipmiOpts (w host s : List UInt8) (ts : List (List UInt8)) (h : Means env.fs c.cwd c.execPath w (.ipmi host)) (ho : con.iopts = some s) (h0 : (0 : UInt8) ∉ s)
      (ht : Toks commaSep ts s)
      (ha : ¬ (s.length < 1024 ∧ ∃ o, if s = [] ∨ s[1]? = some 0x3A then Steps (IpmiWord env.lib) c.gIpmi ts o else OldForm env.lib c.gIpmi ts o)) : NoDevice env c con [w]
  | testOpts (w s : List UInt8) (ts : List (List UInt8)) (h : Means env.fs c.cwd c.execPath w .test) (ho : con.topts = some s) (ht : Toks commaSep ts s)
      (ha : ¬ (s.length < 1024 ∧ ∃ l, TestWords ts l)) : NoDevice env c con [w]

/-- A CONSOLE directive that is refused. -/
inductive Refused (env : CEnv) (c : SConf) (con : ConStrs) (line : Nat) : Prop
  | noName (h : con.name = none) : Refused env c con line
  | noDev (h : con.dev = none) : Refused env c con line
  | quote (name dev : List UInt8) (hn : con.name = some name) (hd : con.dev = some dev) (h0 : (0 : UInt8) ∉ name) (h1 : (0 : UInt8) ∉ dev) (h : Unmatched dev) : Refused env c con line
  | long (name dev : List UInt8) (ws : List Word) (w : Word) (hn : con.name = some name) (hd : con.dev = some dev) (h0 : (0 : UInt8) ∉ name) (h1 : (0 : UInt8) ∉ dev)
      (h : CmdLine ws dev) (hw : w ∈ ws) (hs : w.subst = true) (hl : 1024 ≤ (w.arg name).length) : Refused env c con line
  | noDevice (name dev : List UInt8) (ws : List Word) (hn : con.name = some name) (hd : con.dev = some dev) (h0 : (0 : UInt8) ∉ name) (h1 : (0 : UInt8) ∉ dev)
      (h : CmdLine ws dev) (hx : NoDevice env c con (ws.map (·.arg name))) : Refused env c con line
  | notFree (name : List UInt8) (d : ConDev) (h : Asked env c con line name d) (hf : ¬ Free env c.consoles name d) : Refused env c con line

/-- The keywords of CONSOLE directives. -/
def consoleKeys : List Key := [.name, .dev, .log, .logopts, .seropts, .ipmiopts, .testopts]

/-- The rest of a line of a CONSOLE directive, at a point where a setting should begin, that is not in order. -/
inductive ConMalformed (ipmi : Bool) : List Cf → Prop
  | notKey (t : Cf) (r : List Cf) (h : ∀ k, t.kind ≠ .key k) : ConMalformed ipmi (t :: r)
  | wrongKey (t : Cf) (k : Key) (r : List Cf) (hk : t.kind = .key k) (h : k ∉ consoleKeys) : ConMalformed ipmi (t :: r)
  | noIpmi (t : Cf) (r : List Cf) (hk : t.kind = .key .ipmiopts) (h : ipmi = false) : ConMalformed ipmi (t :: r)
  | noEq (t : Cf) (k : Key) (r : List Cf) (hk : t.kind = .key k) (h : ∀ e, r.head? = some e → e.kind ≠ .eq) : ConMalformed ipmi (t :: r)
  | noValue (t e : Cf) (k : Key) (hk : t.kind = .key k) (he : e.kind = .eq) : ConMalformed ipmi [t, e]
  | notText (t e v : Cf) (k : Key) (r : List Cf) (hk : t.kind = .key k) (he : e.kind = .eq) (h : v.kind ≠ .str) : ConMalformed ipmi (t :: e :: v :: r)
  | blank (t e v : Cf) (k : Key) (r : List Cf) (hk : t.kind = .key k) (he : e.kind = .eq) (hm : k ∈ [Key.name, .dev, .logopts, .seropts]) (h : Blank v.text) :
      ConMalformed ipmi (t :: e :: v :: r)

/-- The settings of a GLOBAL directive. -/
inductive GSets (env : CEnv) (c : SConf) : Key → Cf → SConf → Prop
  | noLog (v : Cf) (s : List UInt8) (h : Text v s) (hb : Blank s) : GSets env c .log v { c with gLog := none }
  | log (v : Cf) (s : List UInt8) (h : Text v s) (hb : ¬ Blank s) (hp : bs "%N" <:+: s ∨ bs "%D" <:+: s) : GSets env c .log v { c with gLog := some s }
  | logOpts (v : Cf) (s : List UInt8) (ts : List (List UInt8)) (h : Text v s) (hb : ¬ Blank s) (h0 : (0 : UInt8) ∉ s) (hl : s.length < 1024) (ht : Toks logSep ts s) :
      GSets env c .logopts v { c with gLogOpt :=
        ⟨(lastSays (bs "lock") ts).getD c.gLogOpt.lock, (lastSays (bs "sanitize") ts).getD c.gLogOpt.sanitize, (lastSays (bs "timestamp") ts).getD c.gLogOpt.timestamp⟩ }
  | serOpts (v : Cf) (f : SerForm) (o : SerOpt) (h : Text v f.text) (hs : f.Small) (ha : f.apply c.gSer = some o) : GSets env c .seropts v { c with gSer := o }
  | ipmiOpts (v : Cf) (s : List UInt8) (ts : List (List UInt8)) (o : IpmiOpt) (hi : env.withIpmi = true) (h : Text v s) (hb : ¬ Blank s) (h0 : (0 : UInt8) ∉ s) (ht : Toks commaSep ts s)
      (hl : s.length < 1024) (ha : if s[1]? = some 0x3A then Steps (IpmiWord env.lib) c.gIpmi ts o else OldForm env.lib c.gIpmi ts o) : GSets env c .ipmiopts v { c with gIpmi := o }
  | testOpts (v : Cf) (s : List UInt8) (ts : List (List UInt8)) (l : List TestSet) (h : Text v s) (hb : ¬ Blank s) (ht : Toks commaSep ts s) (hl : s.length < 1024) (hw : TestWords ts l)
      (he : env.erange v.line = false) : GSets env c .testopts v { c with gTest := l.foldl (fun o t => t.apply o) c.gTest }

/-- One after the other. -/
inductive GWrites (env : CEnv) : List Cf → SConf → SConf → Prop
  | nil (c : SConf) : GWrites env [] c c
  | set (k e v : Cf) (key : Key) (r : List Cf) (c c' c'' : SConf) (hk : k.kind = .key key) (he : e.kind = .eq) (h : GSets env c key v c') (h' : GWrites env r c' c'') :
      GWrites env (k :: e :: v :: r) c c''

/-- The keywords of GLOBAL directives. -/
def globalKeys : List Key := [.log, .logopts, .seropts, .ipmiopts, .testopts]

/-- The rest of a line of a GLOBAL directive, at a point where a setting should begin, that is not in order. -/
inductive GMalformed (env : CEnv) (c : SConf) : List Cf → Prop
  | notKey (t : Cf) (r : List Cf) (h : ∀ k, t.kind ≠ .key k) : GMalformed env c (t :: r)
  | wrongKey (t : Cf) (k : Key) (r : List Cf) (hk : t.kind = .key k) (h : k ∉ globalKeys) : GMalformed env c (t :: r)
  | noIpmi (t : Cf) (r : List Cf) (hk : t.kind = .key .ipmiopts) (h : env.withIpmi = false) : GMalformed env c (t :: r)
  | noEq (t : Cf) (k : Key) (r : List Cf) (hk : t.kind = .key k) (h : ∀ e, r.head? = some e → e.kind ≠ .eq) : GMalformed env c (t :: r)
  | noValue (t e : Cf) (k : Key) (hk : t.kind = .key k) (he : e.kind = .eq) : GMalformed env c [t, e]
  | notText (t e v : Cf) (k : Key) (r : List Cf) (hk : t.kind = .key k) (he : e.kind = .eq) (h : v.kind ≠ .str) : GMalformed env c (t :: e :: v :: r)
  | blank (t e v : Cf) (k : Key) (r : List Cf) (hk : t.kind = .key k) (he : e.kind = .eq) (hm : k ∈ [Key.logopts, .seropts, .ipmiopts, .testopts]) (h : Blank v.text) :
      GMalformed env c (t :: e :: v :: r)
  | noName (t e v : Cf) (r : List Cf) (hk : t.kind = .key .log) (he : e.kind = .eq) (hb : ¬ Blank v.text) (hn : ¬ bs "%N" <:+: v.text) (hd : ¬ bs "%D" <:+: v.text) :
      GMalformed env c (t :: e :: v :: r)
  | logOpts (t e v : Cf) (r : List Cf) (hk : t.kind = .key .logopts) (he : e.kind = .eq) (h0 : (0 : UInt8) ∉ v.text) (hl : 1024 ≤ v.text.length) : GMalformed env c (t :: e :: v :: r)
  | serOpts (t e v : Cf) (r : List Cf) (f : SerForm) (hk : t.kind = .key .seropts) (he : e.kind = .eq) (h : Text v f.text) (hs : f.Small) (ha : f.apply c.gSer = none) :
      GMalformed env c (t :: e :: v :: r)
  | ipmiOpts (t e v : Cf) (r : List Cf) (ts : List (List UInt8)) (hk : t.kind = .key .ipmiopts) (he : e.kind = .eq) (hb : ¬ Blank v.text) (h0 : (0 : UInt8) ∉ v.text) (ht : Toks commaSep ts v.text)
      (ha : ¬ (v.text.length < 1024 ∧ ∃ o, if v.text[1]? = some 0x3A then Steps (IpmiWord env.lib) c.gIpmi ts o else OldForm env.lib c.gIpmi ts o)) : GMalformed env c (t :: e :: v :: r)
  | testOpts (t e v : Cf) (r : List Cf) (ts : List (List UInt8)) (hk : t.kind = .key .testopts) (he : e.kind = .eq) (ht : Toks commaSep ts v.text)
      (ha : ¬ (v.text.length < 1024 ∧ ∃ l, TestWords ts l)) : GMalformed env c (t :: e :: v :: r)

end Conman.Spec
