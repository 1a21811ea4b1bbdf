import Verif.Spec.Conf
import Verif.Model.Lex
import Verif.Model.Format
import Verif.Model.Ipmi
import Verif.Model.Device
import Verif.Model.Syslog

/-
Parsing of the configuration file, src/server-conf.c:384-480 and 581-1482.

* The state of the lexer does not depend on the parser, so the parser is run on the list of the tokens of the file: `Ps.last` is what `lex_prev`, `lex_text`
  and `lex_line` refer to, `Ps.rest` the tokens to come, and after them there is only end of file (`eof`), however often `lex_next` is called.
* Of an error only the line number in the message is kept.
* `none` is undefined behaviour: numbers that do not fit an `int`, and what the option parsers and `format_obj_string` may do.
* Files do not change while the file is read.  Allocations succeed.  Locks, the pid file, and -k, -q, -r are not part of this.
-/
namespace Conman

/-- The enumeration `server_conf_toks`, src/server-conf.c:53-85. -/
def confKeys (ipmi : Bool) : List Key :=
  [.console, .coredump, .coredumpdir, .dev, .execpath, .global] ++ (if ipmi then [.ipmiopts] else []) ++
    [.keepalive, .log, .logdir, .logfile, .logopts, .loopback, .name, .nofile, .off, .on, .pidfile, .port, .resetcmd, .seropts, .server, .syslog,
      .tcpwrappers, .testopts, .timestamp]

/-- The case of a `switch` a token selects: the enumerators start at `LEX_TOK_OFFSET`, src/server-conf.c:59. -/
def cfKind (ipmi : Bool) (code : Int) : CKind :=
  if code = lexEof then .eof
  else if code = lexEol then .eol
  else if code = lexErr then .err
  else if code = lexInt then .int
  else if code = lexStr then .str
  else if code = 0x3D then .eq
  else if code < lexTokOffset then .other
  else match (confKeys ipmi)[(code - lexTokOffset).toNat]? with
    | some k => .key k
    | none => .other

/-- What the parser can see of the lexer. -/
structure Ps where
  last : Cf
  rest : List Cf
deriving DecidableEq, Repr

/-- `lex_next`. -/
def Ps.next (eof : Cf) (p : Ps) : Ps :=
  match p.rest with
  | [] => ⟨eof, []⟩
  | t :: ts => ⟨t, ts⟩

/-- The outcome of a clause or directive: where the lexer is, the configuration, and whether `err` is set. -/
structure Out where
  ps : Ps
  conf : SConf
  err : Bool
deriving DecidableEq, Repr

/-- A clause `KEYWORD = VALUE`, for instance src/server-conf.c:1132-1146: `f` gets the token of the value and gives the configuration and whether
the value was in order. -/
def clause (eof : Cf) (p : Ps) (c : SConf) (f : Cf → Option (SConf × Bool)) : Option Out :=
  if (p.next eof).last.kind ≠ .eq then some ⟨p.next eof, c, true⟩
  else (f ((p.next eof).next eof).last).map fun r => ⟨(p.next eof).next eof, r.1, !r.2⟩

/-- `is_empty_string`, src/util-str.c. -/
def isEmptyString (s : List UInt8) : Bool := s.all isSpace

/-- `create_format_string ("%s/%s", dir, name)`, src/util-str.c:60-80: at most 1023 bytes. -/
def joinFormat (dir name : List UInt8) : List UInt8 := (dir ++ 0x2F :: name).take 1023

/-- A name relative to a directory, for instance src/server-conf.c:1252-1254. -/
def relName (dir name : List UInt8) : List UInt8 := if name.head? ≠ some 0x2F then joinFormat dir name else name

/-- Removal of trailing slashes, src/server-conf.c:1177-1180: the first character stays. -/
def dropSlashes (s : List UInt8) : List UInt8 :=
  match s with
  | [] => []
  | c :: t => c :: (t.reverse.dropWhile (· = 0x2F)).reverse

/-- `strrchr (s, ',')`: the parts before and after the last comma. -/
def atLastComma (s : List UInt8) : Option (List UInt8 × List UInt8) :=
  if 0x2C ∈ s then some (((s.reverse.dropWhile (· ≠ 0x2C)).drop 1).reverse, (s.reverse.takeWhile (· ≠ 0x2C)).reverse) else none

/-- ON or OFF, for instance src/server-conf.c:1137-1145. -/
def onOff (c : SConf) (t : Cf) (set : Bool → SConf) : Option (SConf × Bool) :=
  if t.kind = .key .on then some (set true, true)
  else if t.kind = .key .off then some (set false, true)
  else some (c, false)

/-- COREDUMPDIR, src/server-conf.c:1154-1181. -/
def setCoreDumpDir (env : CEnv) (c : SConf) (t : Cf) : Option (SConf × Bool) :=
  if t.kind ≠ .str then some (c, false)
  else if isEmptyString t.text then some ({ c with coreDumpDir := none }, true)
  else match env.fs.kind t.text with
    | none => some (c, false)
    | some k =>
      if k ≠ .directory then some (c, false)
      else some ({ c with coreDumpDir := some (dropSlashes (relName c.cwd t.text)) }, true)

/-- EXECPATH, src/server-conf.c:1189-1204. -/
def setExecPath (c : SConf) (t : Cf) : Option (SConf × Bool) :=
  if t.kind ≠ .str then some (c, false)
  else if t.text.length ≥ 4096 then some (c, false)
  else if isEmptyString t.text then some ({ c with execPath := none }, true)
  else some ({ c with execPath := some t.text }, true)

/-- LOGDIR, src/server-conf.c:1229-1244. -/
def setLogDir (c : SConf) (t : Cf) : Option (SConf × Bool) :=
  if t.kind ≠ .str then some (c, false)
  else if isEmptyString t.text then some ({ c with logDir := c.cwd }, true)
  else some ({ c with logDir := relName c.cwd t.text }, true)

/-- LOGFILE, src/server-conf.c:1252-1277. -/
def setLogFile (c : SConf) (t : Cf) : Option (SConf × Bool) :=
  if t.kind ≠ .str || isEmptyString t.text then some (c, false)
  else match atLastComma (relName c.logDir t.text) with
    | none => some ({ c with logFile := some (relName c.logDir t.text) }, true)
    | some (f, p) =>
      if lookupPriority p < 0 then some ({ c with logFile := some f }, false)
      else some ({ c with logFile := some f, logLevel := lookupPriority p }, true)

/-- NOFILE, src/server-conf.c:1303-1310. -/
def setNoFile (c : SConf) (t : Cf) : Option (SConf × Bool) :=
  if t.kind ≠ .int then some (c, false)
  else (atoi t.text).map fun n => ({ c with noFile := n }, true)

/-- PIDFILE, src/server-conf.c:1318-1333. -/
def setPidFile (isSet : Bool) (c : SConf) (t : Cf) : Option (SConf × Bool) :=
  if t.kind ≠ .str || isEmptyString t.text then some (c, false)
  else if isSet = false then some ({ c with pidFile := some (relName c.cwd t.text) }, true)
  else some (c, true)

/-- PORT, src/server-conf.c:1341-1351. -/
def setPort (isSet : Bool) (c : SConf) (t : Cf) : Option (SConf × Bool) :=
  if t.kind ≠ .int then some (c, false)
  else (atoi t.text).map fun n =>
    if n < 0 then (c, false)
    else if isSet = false then ({ c with port := n }, true)
    else (c, true)

/-- RESETCMD, src/server-conf.c:1359-1374 (`DO_CONF_ESCAPE_ERROR` is not defined). -/
def setResetCmd (c : SConf) (t : Cf) : Option (SConf × Bool) :=
  if t.kind ≠ .str || isEmptyString t.text then some (c, false)
  else some ({ c with resetCmd := some t.text }, true)

/-- SYSLOG, src/server-conf.c:1382-1393. -/
def setSyslog (c : SConf) (t : Cf) : Option (SConf × Bool) :=
  if t.kind ≠ .str || isEmptyString t.text then some (c, false)
  else if lookupFacility t.text < 0 then some (c, false)
  else some ({ c with syslog := lookupFacility t.text }, true)

/-- A product that must fit an `int`. -/
def intMul (a b : Int) : Option Int := if a * b < -2147483648 ∨ a * b > 2147483647 then none else some (a * b)

/-- The unit of TIMESTAMP, src/server-conf.c:1430-1454, with `t` the token after the number. -/
def stampUnit (n : Int) (t : Cf) : Option Int :=
  if t.kind = .eof || t.kind = .eol then some n
  else if t.kind = .str then
    if t.text.length > 1 then some (-1)
    else if t.text = [0x6D] || t.text = [0x4D] then some n
    else if t.text = [0x68] || t.text = [0x48] then intMul n 60
    else if t.text = [0x64] || t.text = [0x44] then intMul n 1440
    else some (-1)
  else some (-1)

/-- TIMESTAMP, src/server-conf.c:1415-1461. -/
def setStamp (eof : Cf) (p : Ps) (c : SConf) : Option Out :=
  if (p.next eof).last.kind ≠ .eq then some ⟨p.next eof, c, true⟩
  else
    let q := (p.next eof).next eof
    if q.last.kind ≠ .int then some ⟨q, c, true⟩
    else (atoi q.last.text).bind fun n =>
      if n < 0 then some ⟨q, c, true⟩
      else (stampUnit n (q.next eof).last).map fun m =>
        if m < 0 then ⟨q.next eof, { c with stamp := 0 }, true⟩ else ⟨q.next eof, { c with stamp := m }, false⟩

/-- The `switch` of `parse_server_directive` for keywords, src/server-conf.c:1129-1461. -/
def serverClause (env : CEnv) (eof : Cf) (isPid isPort : Bool) (p : Ps) (c : SConf) (k : Key) : Option Out :=
  match k with
  | .coredump => clause eof p c fun t => onOff c t fun b => { c with coreDump := b }
  | .coredumpdir => clause eof p c (setCoreDumpDir env c)
  | .execpath => clause eof p c (setExecPath c)
  | .keepalive => clause eof p c fun t => onOff c t fun b => { c with keepAlive := b }
  | .logdir => clause eof p c (setLogDir c)
  | .logfile => clause eof p c (setLogFile c)
  | .loopback => clause eof p c fun t => onOff c t fun b => { c with loopBack := b }
  | .nofile => clause eof p c (setNoFile c)
  | .pidfile => clause eof p c (setPidFile isPid c)
  | .port => clause eof p c (setPort isPort c)
  | .resetcmd => clause eof p c (setResetCmd c)
  | .syslog => clause eof p c (setSyslog c)
  | .tcpwrappers => if env.withWrap = false then some ⟨p, c, true⟩ else clause eof p c fun t => onOff c t fun b => { c with tcpWrap := b }
  | .timestamp => setStamp eof p c
  | _ => some ⟨p, c, true⟩

/-- The loop of a directive, `while (!done && !*err)`, for instance src/server-conf.c:1126-1476: `f` is the `switch` for keywords.  Each round reads a token,
so a number of rounds larger than that of the tokens suffices. -/
def dirLoop (eof : Cf) (f : Ps → SConf → Key → Option Out) : Nat → Ps → SConf → Option Out
  | 0, _, _ => none
  | n + 1, p, c =>
    match (p.next eof).last.kind with
    | .eof => some ⟨p.next eof, c, false⟩
    | .eol => some ⟨p.next eof, c, false⟩
    | .key k => (f (p.next eof) c k).bind fun o => if o.err then some o else dirLoop eof f n o.ps o.conf
    | _ => some ⟨p.next eof, c, true⟩

/-- `while (lex_prev != LEX_EOL && lex_prev != LEX_EOF) lex_next`, for instance src/server-conf.c:1478-1480. -/
def skipLine (eof : Cf) (last : Cf) : List Cf → Ps
  | [] => if last.kind = .eol || last.kind = .eof then ⟨last, []⟩ else ⟨eof, []⟩
  | t :: ts => if last.kind = .eol || last.kind = .eof then ⟨last, t :: ts⟩ else skipLine eof t ts

/-- The end of a directive, for instance src/server-conf.c:1472-1481. -/
def dirEnd (eof : Cf) (o : Out) : Ps × SConf :=
  if o.err then (skipLine eof o.ps.last o.ps.rest, { o.conf with errs := o.conf.errs ++ [o.ps.last.line] }) else (o.ps, o.conf)

/-- `parse_server_directive`, src/server-conf.c:1103-1482. -/
def parseServer (env : CEnv) (eof : Cf) (p : Ps) (c : SConf) : Option (Ps × SConf) :=
  (dirLoop eof (serverClause env eof c.pidFile.isSome (decide (c.port ≥ 0))) (p.rest.length + 1) p c).map (dirEnd eof)

/-- GLOBAL LOG, src/server-conf.c:980-1007 (`DO_CONF_ESCAPE_ERROR` is not defined). -/
def setGlobalLog (c : SConf) (t : Cf) : Option (SConf × Bool) :=
  if t.kind ≠ .str then some (c, false)
  else if isEmptyString t.text then some ({ c with gLog := none }, true)
  else if ¬ (bs "%N" <:+: t.text) ∧ ¬ (bs "%D" <:+: t.text) then some (c, false)
  else some ({ c with gLog := some t.text }, true)

/-- A non-empty string for options, for instance src/server-conf.c:1016-1024. -/
def optText (t : Cf) : Option (List UInt8) := if t.kind ≠ .str || isEmptyString t.text then none else some t.text

/-- The `switch` of `parse_global_directive` for keywords, src/server-conf.c:976-1078. -/
def globalClause (env : CEnv) (eof : Cf) (p : Ps) (c : SConf) (k : Key) : Option Out :=
  match k with
  | .log => clause eof p c (setGlobalLog c)
  | .logopts => clause eof p c fun t => match optText t with
    | none => some (c, false)
    | some s => some ({ c with gLogOpt := (parseLogOpts c.gLogOpt (some s)).1 }, decide ((parseLogOpts c.gLogOpt (some s)).2 ≥ 0))
  | .seropts => clause eof p c fun t => match optText t with
    | none => some (c, false)
    | some s => (parseSerOpts c.gSer (some s)).map fun r => ({ c with gSer := r.1 }, decide (r.2 ≥ 0))
  | .ipmiopts => if env.withIpmi = false then some ⟨p, c, true⟩ else clause eof p c fun t => match optText t with
    | none => some (c, false)
    | some s => (parseIpmiOpts env.lib c.gIpmi s).map fun r => ({ c with gIpmi := r.1 }, decide (r.2 ≥ 0))
  | .testopts => clause eof p c fun t => match optText t with
    | none => some (c, false)
    | some s => some ({ c with gTest := (parseTestOpts (env.erange t.line) c.gTest (some s)).1 },
        decide ((parseTestOpts (env.erange t.line) c.gTest (some s)).2.1 ≥ 0))
  | _ => some ⟨p, c, true⟩

/-- `parse_global_directive`, src/server-conf.c:958-1100. -/
def parseGlobal (env : CEnv) (eof : Cf) (p : Ps) (c : SConf) : Option (Ps × SConf) :=
  (dirLoop eof (globalClause env eof) (p.rest.length + 1) p c).map (dirEnd eof)

/-- The outcome of a clause of a CONSOLE directive. -/
structure ConOut where
  ps : Ps
  con : ConStrs
  err : Bool
deriving DecidableEq, Repr

/-- A clause of a CONSOLE directive, for instance src/server-conf.c:604-617; `f` is `none` if the value is refused. -/
def conClause (eof : Cf) (p : Ps) (con : ConStrs) (f : Cf → Option ConStrs) : ConOut :=
  if (p.next eof).last.kind ≠ .eq then ⟨p.next eof, con, true⟩
  else match f ((p.next eof).next eof).last with
    | none => ⟨(p.next eof).next eof, con, true⟩
    | some con => ⟨(p.next eof).next eof, con, false⟩

/-- LOG of a console, src/server-conf.c:640-661 (`DO_CONF_ESCAPE_ERROR` is not defined). -/
def conLog (logDir : List UInt8) (t : Cf) : Option (List UInt8) :=
  if t.kind ≠ .str then none
  else if isEmptyString t.text then some []
  else some (relName logDir t.text)

/-- A string, possibly empty, src/server-conf.c:698-706. -/
def anyText (t : Cf) : Option (List UInt8) := if t.kind ≠ .str then none else some t.text

/-- The `switch` of `parse_console_directive` for keywords, src/server-conf.c:602-724. -/
def consoleClause (env : CEnv) (eof : Cf) (logDir : List UInt8) (p : Ps) (con : ConStrs) (k : Key) : ConOut :=
  match k with
  | .name => conClause eof p con fun t => (optText t).map fun s => { con with name := some s }
  | .dev => conClause eof p con fun t => (optText t).map fun s => { con with dev := some s }
  | .log => conClause eof p con fun t => (conLog logDir t).map fun s => { con with log := some s }
  | .logopts => conClause eof p con fun t => (optText t).map fun s => { con with lopts := some s }
  | .seropts => conClause eof p con fun t => (optText t).map fun s => { con with sopts := some s }
  | .ipmiopts => if env.withIpmi = false then ⟨p, con, true⟩ else conClause eof p con fun t => (anyText t).map fun s => { con with iopts := some s }
  | .testopts => conClause eof p con fun t => (anyText t).map fun s => { con with topts := some s }
  | _ => ⟨p, con, true⟩

/-- The loop of `parse_console_directive`, src/server-conf.c:599-740. -/
def conLoop (env : CEnv) (eof : Cf) (logDir : List UInt8) : Nat → Ps → ConStrs → Option ConOut
  | 0, _, _ => none
  | n + 1, p, con =>
    match (p.next eof).last.kind with
    | .eof => some ⟨p.next eof, con, false⟩
    | .eol => some ⟨p.next eof, con, false⟩
    | .key k =>
      if (consoleClause env eof logDir (p.next eof) con k).err then some (consoleClause env eof logDir (p.next eof) con k)
      else conLoop env eof logDir n (consoleClause env eof logDir (p.next eof) con k).ps (consoleClause env eof logDir (p.next eof) con k).con
    | _ => some ⟨p.next eof, con, true⟩

/-- What `format_obj_string` needs of a console, src/server-obj.c:338-372. -/
def Console.fobj (k : Console) : FObj :=
  ⟨true, k.name, match k.dev with
    | .serial d _ => .path d
    | .unixsock d => .path d
    | .telnet h n => .telnet h n
    | _ => .other⟩

/-- The log files in `conf->objs`. -/
def SConf.logs (c : SConf) : List LogReq := c.consoles.filterMap fun k => k.log.map fun l => ⟨k.fobj, l.1⟩

/-- Do two consoles have a device that only one can have: src/server-unixsock.c:125-126, src/server-serial.c:349, src/server-ipmi.c:738? -/
def devClash : ConDev → ConDev → Bool
  | .unixsock a, .unixsock b => a = b
  | .serial a _, .serial b _ => a = b
  | .ipmi a _, .ipmi b _ => a = b
  | _, _ => false

/-- `create_unixsock_obj`, src/server-unixsock.c:84-155, `create_telnet_obj`, src/server-telnet.c:94-150, `create_serial_obj`, src/server-serial.c:319-371,
`create_process_obj`, src/server-process.c:148-213, `create_ipmi_obj`, src/server-ipmi.c:714-767, `create_test_obj`, src/server-test.c:184-225: whether
the console can be added. -/
def mayCreate (env : CEnv) (have_ : List Console) (name : List UInt8) (d : ConDev) : Bool :=
  (match d with
    | .unixsock path => decide (path.length ≤ env.sockMax)
    | .telnet _ port => decide (port > 0)
    | _ => true) &&
  have_.all fun k => k.name ≠ name && !devClash d k.dev

/-- The device of a console, src/server-conf.c:822-917; the inner `none` is an error. -/
def conDevice (env : CEnv) (c : SConf) (con : ConStrs) (line : Nat) (args : List (List UInt8)) : Option (Option ConDev) :=
  match args with
  | [] => some none
  | arg0 :: more =>
    (devKind env.fs c.cwd c.execPath arg0).bind fun d =>
      match d with
      | .process p => some (some (.process (p :: more)))
      | .unknown => some none
      | .ipmi h =>
        if env.withIpmi = false then some none
        else if more ≠ [] then some none
        else match con.iopts with
          | none => some (some (.ipmi h c.gIpmi))
          | some s => (parseIpmiOpts env.lib c.gIpmi s).map fun r => if r.2 < 0 then none else some (.ipmi h r.1)
      | .unixsock p => some (if more ≠ [] then none else some (.unixsock p))
      | .telnet h n => some (if more ≠ [] then none else some (.telnet h n))
      | .serial p =>
        if more ≠ [] then some none
        else if env.rw p = false then some none
        else match con.sopts with
          | none => some (some (.serial p c.gSer))
          | some s => (parseSerOpts c.gSer (some s)).map fun r => if r.2 < 0 then none else some (.serial p r.1)
      | .test =>
        if more ≠ [] then some none
        else match con.topts with
          | none => some (some (.test c.gTest))
          | some s => some (if (parseTestOpts (env.erange line) c.gTest (some s)).2.1 < 0 then none
              else some (.test (parseTestOpts (env.erange line) c.gTest (some s)).1))

/-- The name of the log file, src/server-conf.c:923-936. -/
def conLogName (c : SConf) (con : ConStrs) : Option (List UInt8) :=
  match con.log with
  | some l => if l = [] then none else some (l.take 1023)
  | none => match c.gLog with
    | none => none
    | some g => some (if g.head? ≠ some 0x2F then (c.logDir ++ 0x2F :: g).take 1023 else g.take 1023)

/-- The options of the log file, src/server-conf.c:937-941, and the result of `parse_logfile_opts` (0 if it is not called). -/
def logOptsOf (c : SConf) (con : ConStrs) : LogOpt × Int :=
  match con.lopts with
  | none => (c.gLogOpt, 0)
  | some s => parseLogOpts c.gLogOpt (some s)

/-- `process_console`, src/server-conf.c:766-956: the configuration and whether there was no error. -/
def processConsole (env : CEnv) (c : SConf) (con : ConStrs) (line : Nat) (name dev : List UInt8) : Option (SConf × Bool) :=
  match devArgs name dev with
  | none => some (c, false)
  | some args =>
    (conDevice env c con line args).bind fun d =>
      match d with
      | none => some (c, false)
      | some d =>
        if mayCreate env c.consoles name d = false then some (c, false)
        else match conLogName c con with
          | none => some ({ c with consoles := c.consoles ++ [⟨name, d, none⟩] }, true)
          | some l =>
            if (logOptsOf c con).2 < 0 then some ({ c with consoles := c.consoles ++ [⟨name, d, none⟩] }, false)
            else
              (createLog env.pid env.tm c.logs ⟨Console.fobj ⟨name, d, none⟩, l⟩).map fun q =>
                match q with
                | none => ({ c with consoles := c.consoles ++ [⟨name, d, none⟩] }, false)
                | some _ => ({ c with consoles := c.consoles ++ [⟨name, d, some (l, (logOptsOf c con).1)⟩] }, true)

/-- The end of `parse_console_directive`, src/server-conf.c:741-756. -/
def conDone (env : CEnv) (eof : Cf) (c : SConf) (o : ConOut) : Option (Ps × SConf) :=
  if o.err then some (dirEnd eof ⟨o.ps, c, true⟩)
  else match o.con.name, o.con.dev with
    | some name, some dev => (processConsole env c o.con o.ps.last.line name dev).map fun r => dirEnd eof ⟨o.ps, r.1, !r.2⟩
    | _, _ => some (dirEnd eof ⟨o.ps, c, true⟩)

/-- `parse_console_directive`, src/server-conf.c:581-763. -/
def parseConsole (env : CEnv) (eof : Cf) (p : Ps) (c : SConf) : Option (Ps × SConf) :=
  (conLoop env eof c.logDir (p.rest.length + 1) p {}).bind (conDone env eof c)

/-- The directives, src/server-conf.c:437-462; `t` is the token just read, which is not end of file. -/
def directive (env : CEnv) (eof : Cf) (t : Cf) (ts : List Cf) (c : SConf) : Option (Ps × SConf) :=
  match t.kind with
  | .key .console => parseConsole env eof ⟨t, ts⟩ c
  | .key .global => parseGlobal env eof ⟨t, ts⟩ c
  | .key .server => parseServer env eof ⟨t, ts⟩ c
  | .eol => some (⟨t, ts⟩, c)
  | .err => some (⟨t, ts⟩, { c with errs := c.errs ++ [t.line] })
  | _ => some (dirEnd eof ⟨⟨t, ts⟩, c, true⟩)

/-- The loop of `process_config`, src/server-conf.c:437-463. -/
def confLoop (env : CEnv) (eof : Cf) : Nat → List Cf → SConf → Option SConf
  | 0, _, _ => none
  | _ + 1, [], c => some c
  | n + 1, t :: ts, c => if t.kind = .eof then some c else (directive env eof t ts c).bind fun r => confLoop env eof n r.1.rest r.2

/-- All tokens of a file, followed by `eof`. -/
def runConf (env : CEnv) (eof : Cf) (ts : List Cf) (c : SConf) : Option SConf := confLoop env eof (ts.length + 1) ts c

/-- The default port, src/server-conf.c:467-469. -/
def defaultPort (c : SConf) : SConf := if c.port < 0 then { c with port := 7890 } else c

/-- The part of `process_config` that reads the file, src/server-conf.c:436-469, for a file with the contents `s` (up to the first NUL). -/
def processConfig (env : CEnv) (s : List UInt8) (c : SConf) : Option SConf :=
  (lexAll (serverConfStrs env.withIpmi) (s.length + 1) (lexCreate (s ++ [0]))).bind fun ts =>
    let cs := ts.map fun t => (⟨cfKind env.withIpmi t.1, t.2.1, t.2.2⟩ : Cf)
    match cs.getLast? with
    | none => none
    | some e => (runConf env e cs.dropLast c).map defaultPort

/-- `create_server_conf`, src/server-conf.c:199-268; `ini` is the result of `init_ipmi_opts`. -/
def createConf (cwd : List UInt8) (ini : IpmiOpt) : SConf :=
  { cwd, port := -1, pidFile := none, coreDump := false, coreDumpDir := none, execPath := none, keepAlive := true, loopBack := true, tcpWrap := false, logDir := cwd,
    logFile := none, logLevel := 6, noFile := 0, resetCmd := none, syslog := -1, stamp := 0, gLog := none, gLogOpt := ⟨true, false, false⟩, gSer := ⟨9600, 8, 0, 1⟩,
    gIpmi := ini, gTest := ⟨1024, -1, -1, 100⟩, consoles := [], errs := [] }

end Conman
