import Verif.Spec.Device
import Verif.Spec.Ipmi
import Verif.Spec.Lex
import Verif.Spec.Format
import Verif.Spec.Syslog

/-
Configuration files of the daemon (conman.conf(5)).
-/
namespace Conman

/-- The keywords of configuration files. -/
inductive Key where
  | console | coredump | coredumpdir | dev | execpath | global | ipmiopts | keepalive | log | logdir | logfile | logopts | loopback | name | nofile
  | off | on | pidfile | port | resetcmd | seropts | server | syslog | tcpwrappers | testopts | timestamp
deriving DecidableEq, Repr

/-- The kinds of tokens as far as the parser tells them apart. -/
inductive CKind where
  | eof | eol | err | int | str | eq | other
  | key (k : Key)
deriving DecidableEq, Repr

/-- A token with its text and the number of its line. -/
structure Cf where
  kind : CKind
  text : List UInt8
  line : Nat
deriving DecidableEq, Repr

/-- The device of a configured console. -/
inductive ConDev where
  | unixsock (path : List UInt8)
  | telnet (host : List UInt8) (port : Int)
  | serial (path : List UInt8) (opts : SerOpt)
  | process (args : List (List UInt8))
  | ipmi (host : List UInt8) (opts : IpmiOpt)
  | test (opts : TestOpt)
deriving DecidableEq, Repr

/-- A configured console, with the name and options of its log file. -/
structure Console where
  name : List UInt8
  dev : ConDev
  log : Option (List UInt8 × LogOpt)
deriving DecidableEq, Repr

/-- The configuration of the daemon. -/
structure SConf where
  cwd : List UInt8
  port : Int
  pidFile : Option (List UInt8)
  coreDump : Bool
  coreDumpDir : Option (List UInt8)
  execPath : Option (List UInt8)
  keepAlive : Bool
  loopBack : Bool
  tcpWrap : Bool
  logDir : List UInt8
  logFile : Option (List UInt8)
  logLevel : Int
  noFile : Int
  resetCmd : Option (List UInt8)
  syslog : Int
  stamp : Int
  gLog : Option (List UInt8)
  gLogOpt : LogOpt
  gSer : SerOpt
  gIpmi : IpmiOpt
  gTest : TestOpt
  /-- the consoles, in the order of their directives -/
  consoles : List Console
  /-- the line numbers of the errors reported -/
  errs : List Nat
deriving DecidableEq, Repr

/-- What a CONSOLE directive says (`console_strs_t`, src/server-conf.c:174-184). -/
structure ConStrs where
  name : Option (List UInt8) := none
  dev : Option (List UInt8) := none
  log : Option (List UInt8) := none
  lopts : Option (List UInt8) := none
  sopts : Option (List UInt8) := none
  iopts : Option (List UInt8) := none
  topts : Option (List UInt8) := none
deriving DecidableEq, Repr

/-- What the parser depends on besides the text: files, libraries, the process. -/
structure CEnv where
  /-- built with the IPMI library -/
  withIpmi : Bool
  /-- built with TCP wrappers -/
  withWrap : Bool
  fs : Fs
  /-- files that can be read and written -/
  rw : List UInt8 → Bool
  lib : IpmiLib
  pid : Int
  tm : UInt8 → List UInt8
  /-- the longest name of a Unix socket -/
  sockMax : Nat
  /-- whether `errno` is `ERANGE` when test options on a line are parsed -/
  erange : Nat → Bool

end Conman

namespace Conman.Spec

/-- A token that does not end a line. -/
def Cf.inLine (t : Cf) : Prop := t.kind ≠ .eol ∧ t.kind ≠ .eof

/-- A line: no end of line among the tokens, and an unmatched quote only at the end (it extends to the end of the line). -/
structure Line (l : List Cf) : Prop where
  inLine : ∀ t ∈ l, Cf.inLine t
  quote : ∀ a t b, l = a ++ t :: b → t.kind = .err → b = []

/-- A line that ends with `TIMESTAMP = number`. -/
def BareStamp (l : List Cf) : Prop := ∃ a k e n, l = a ++ [k, e, n] ∧ k.kind = .key .timestamp ∧ e.kind = .eq ∧ n.kind = .int

/-- The lines of a file: the tokens of each, and the token that ends it. -/
def linesOf : List Cf → List (List Cf × Cf)
  | [] => []
  | t :: ts =>
    if t.kind = .eol ∨ t.kind = .eof then ([], t) :: linesOf ts
    else match linesOf ts with
      | [] => [([t], t)]
      | (l, e) :: ls => (t :: l, e) :: ls

end Conman.Spec

namespace Conman.Spec

/-- How a keyword is written. -/
def keyText : Key → List UInt8
  | .console => bs "CONSOLE" | .coredump => bs "COREDUMP" | .coredumpdir => bs "COREDUMPDIR" | .dev => bs "DEV" | .execpath => bs "EXECPATH"
  | .global => bs "GLOBAL" | .ipmiopts => bs "IPMIOPTS" | .keepalive => bs "KEEPALIVE" | .log => bs "LOG" | .logdir => bs "LOGDIR" | .logfile => bs "LOGFILE"
  | .logopts => bs "LOGOPTS" | .loopback => bs "LOOPBACK" | .name => bs "NAME" | .nofile => bs "NOFILE" | .off => bs "OFF" | .on => bs "ON"
  | .pidfile => bs "PIDFILE" | .port => bs "PORT" | .resetcmd => bs "RESETCMD" | .seropts => bs "SEROPTS" | .server => bs "SERVER" | .syslog => bs "SYSLOG"
  | .tcpwrappers => bs "TCPWRAPPERS" | .testopts => bs "TESTOPTS" | .timestamp => bs "TIMESTAMP"

/-- What the parser makes of a token of the lexer: the character 0xFF counts as an unmatched quote. -/
inductive KindOf (keys : List (List UInt8)) : Token → CKind → Prop
  | eof : KindOf keys .eof .eof
  | eol : KindOf keys .eol .eol
  | err : KindOf keys .err .err
  | int : KindOf keys .int .int
  | str : KindOf keys .str .str
  | key (i : Nat) (k : Key) (h : keys[i]? = some (keyText k)) : KindOf keys (.key i) (.key k)
  | eq : KindOf keys (.chr 0x3D) .eq
  | xff : KindOf keys (.chr 0xFF) .err
  | other (c : UInt8) (h1 : c ≠ 0x3D) (h2 : c ≠ 0xFF) (h0 : c ≠ 0) : KindOf keys (.chr c) .other

/-- The tokens of the parser for those of the lexer. -/
inductive CfsOf (keys : List (List UInt8)) : List (Token × List UInt8 × Nat) → List Cf → Prop
  | nil : CfsOf keys [] []
  | cons (t : Token) (text : List UInt8) (line : Nat) (k : CKind) (ts : List (Token × List UInt8 × Nat)) (cs : List Cf) (hk : KindOf keys t k) (h : CfsOf keys ts cs) :
      CfsOf keys ((t, text, line) :: ts) (⟨k, text, line⟩ :: cs)

/-- Only blanks. -/
def Blank (s : List UInt8) : Prop := ∀ c ∈ s, blankChar c

/-- A decimal number with or without a sign. -/
inductive NumText : List UInt8 → Int → Prop
  | plain (ds : List UInt8) (h : ∀ c ∈ ds, digit c) : NumText ds (digitsVal ds)
  | plus (ds : List UInt8) (h : ∀ c ∈ ds, digit c) : NumText (0x2B :: ds) (digitsVal ds)
  | minus (ds : List UInt8) (h : ∀ c ∈ ds, digit c) : NumText (0x2D :: ds) (-digitsVal ds)

/-- A token that is a number that fits an `int`. -/
def Num (t : Cf) (z : Int) : Prop := t.kind = .int ∧ NumText t.text z ∧ -2147483648 ≤ z ∧ z ≤ 2147483647

/-- A token that is a string. -/
def Text (t : Cf) (s : List UInt8) : Prop := t.kind = .str ∧ t.text = s

/-- ON or OFF. -/
def Flag (t : Cf) (b : Bool) : Prop := t.kind = .key (if b then .on else .off)

/-- Names made by `inDir` have less than 1024 bytes. -/
def Fits1 (dir name : List UInt8) : Prop := name.head? = some 0x2F ∨ (dir ++ 0x2F :: name).length < 1024

/-- A setting in a SERVER directive; the unit is that of TIMESTAMP. -/
structure Setting where
  key : Key
  val : Cf
  unit : Option Cf

/-- The tokens of settings. -/
inductive Writes : List Cf → List Setting → Prop
  | nil : Writes [] []
  | set (k e v : Cf) (key : Key) (r : List Cf) (ss : List Setting) (hk : k.kind = .key key) (ht : key ≠ .timestamp) (he : e.kind = .eq) (h : Writes r ss) :
      Writes (k :: e :: v :: r) (⟨key, v, none⟩ :: ss)
  | stamp (k e v u : Cf) (r : List Cf) (ss : List Setting) (hk : k.kind = .key .timestamp) (he : e.kind = .eq) (h : Writes r ss) :
      Writes (k :: e :: v :: u :: r) (⟨.timestamp, v, some u⟩ :: ss)

/-- The effect of a setting (conman.conf(5), "SERVER DIRECTIVES").  `pidSet` and `portSet`: the pid file and the port have been set before this line. -/
inductive Sets (env : CEnv) (pidSet portSet : Bool) (c : SConf) : Setting → SConf → Prop
  | coreDump (v : Cf) (b : Bool) (h : Flag v b) : Sets env pidSet portSet c ⟨.coredump, v, none⟩ { c with coreDump := b }
  | keepAlive (v : Cf) (b : Bool) (h : Flag v b) : Sets env pidSet portSet c ⟨.keepalive, v, none⟩ { c with keepAlive := b }
  | loopBack (v : Cf) (b : Bool) (h : Flag v b) : Sets env pidSet portSet c ⟨.loopback, v, none⟩ { c with loopBack := b }
  | tcpWrap (v : Cf) (b : Bool) (h : Flag v b) (hw : env.withWrap = true) : Sets env pidSet portSet c ⟨.tcpwrappers, v, none⟩ { c with tcpWrap := b }
  | noCoreDumpDir (v : Cf) (s : List UInt8) (h : Text v s) (hb : Blank s) : Sets env pidSet portSet c ⟨.coredumpdir, v, none⟩ { c with coreDumpDir := none }
  | coreDumpDir (v : Cf) (s d : List UInt8) (n : Nat) (h : Text v s) (hb : ¬ Blank s) (hk : env.fs.kind s = some .directory) (hf : Fits1 c.cwd s)
      (hd : inDir c.cwd s = d ++ List.replicate n 0x2F) (h0 : d ≠ []) (h1 : d.getLast? = some 0x2F → d.length = 1) :
      Sets env pidSet portSet c ⟨.coredumpdir, v, none⟩ { c with coreDumpDir := some d }
  | noExecPath (v : Cf) (s : List UInt8) (h : Text v s) (hb : Blank s) (hl : s.length < 4096) : Sets env pidSet portSet c ⟨.execpath, v, none⟩ { c with execPath := none }
  | execPath (v : Cf) (s : List UInt8) (h : Text v s) (hb : ¬ Blank s) (hl : s.length < 4096) : Sets env pidSet portSet c ⟨.execpath, v, none⟩ { c with execPath := some s }
  | noLogDir (v : Cf) (s : List UInt8) (h : Text v s) (hb : Blank s) : Sets env pidSet portSet c ⟨.logdir, v, none⟩ { c with logDir := c.cwd }
  | logDir (v : Cf) (s : List UInt8) (h : Text v s) (hb : ¬ Blank s) (hf : Fits1 c.cwd s) : Sets env pidSet portSet c ⟨.logdir, v, none⟩ { c with logDir := inDir c.cwd s }
  | logFile (v : Cf) (s : List UInt8) (h : Text v s) (hb : ¬ Blank s) (hf : Fits1 c.logDir s) (hc : (0x2C : UInt8) ∉ inDir c.logDir s) :
      Sets env pidSet portSet c ⟨.logfile, v, none⟩ { c with logFile := some (inDir c.logDir s) }
  | logFilePriority (v : Cf) (s f p name : List UInt8) (n : Int) (h : Text v s) (hb : ¬ Blank s) (hf : Fits1 c.logDir s) (hs : inDir c.logDir s = f ++ 0x2C :: p)
      (hc : (0x2C : UInt8) ∉ p) (h0 : (0 : UInt8) ∉ p) (hw : Written p name) (hp : PriorityName name n) :
      Sets env pidSet portSet c ⟨.logfile, v, none⟩ { c with logFile := some f, logLevel := n }
  | noFile (v : Cf) (z : Int) (h : Num v z) : Sets env pidSet portSet c ⟨.nofile, v, none⟩ { c with noFile := z }
  | pidFile (v : Cf) (s : List UInt8) (h : Text v s) (hb : ¬ Blank s) (hf : Fits1 c.cwd s) (hp : pidSet = false) :
      Sets env pidSet portSet c ⟨.pidfile, v, none⟩ { c with pidFile := some (inDir c.cwd s) }
  | pidFileKept (v : Cf) (s : List UInt8) (h : Text v s) (hb : ¬ Blank s) (hp : pidSet = true) : Sets env pidSet portSet c ⟨.pidfile, v, none⟩ c
  | port (v : Cf) (z : Int) (h : Num v z) (hz : 0 ≤ z) (hp : portSet = false) : Sets env pidSet portSet c ⟨.port, v, none⟩ { c with port := z }
  | portKept (v : Cf) (z : Int) (h : Num v z) (hz : 0 ≤ z) (hp : portSet = true) : Sets env pidSet portSet c ⟨.port, v, none⟩ c
  | resetCmd (v : Cf) (s : List UInt8) (h : Text v s) (hb : ¬ Blank s) : Sets env pidSet portSet c ⟨.resetcmd, v, none⟩ { c with resetCmd := some s }
  | syslog (v : Cf) (s name : List UInt8) (n : Nat) (h : Text v s) (hb : ¬ Blank s) (h0 : (0 : UInt8) ∉ s) (hw : Written s name) (hf : FacilityName name n) :
      Sets env pidSet portSet c ⟨.syslog, v, none⟩ { c with syslog := 8 * (n : Int) }
  | stamp (v u : Cf) (z m : Int) (w : List UInt8) (h : Num v z) (hz : 0 ≤ z) (hu : Text u w)
      (hm : (w = bs "m" ∨ w = bs "M") ∧ m = 1 ∨ (w = bs "h" ∨ w = bs "H") ∧ m = 60 ∨ (w = bs "d" ∨ w = bs "D") ∧ m = 1440) (hi : z * m ≤ 2147483647) :
      Sets env pidSet portSet c ⟨.timestamp, v, some u⟩ { c with stamp := z * m }

/-- The effect of several settings. -/
inductive SetAll (env : CEnv) (pidSet portSet : Bool) : SConf → List Setting → SConf → Prop
  | nil (c : SConf) : SetAll env pidSet portSet c [] c
  | cons (c c' c'' : SConf) (s : Setting) (ss : List Setting) (h : Sets env pidSet portSet c s c') (h' : SetAll env pidSet portSet c' ss c'') :
      SetAll env pidSet portSet c (s :: ss) c''

/-- The keywords of SERVER directives. -/
def serverKeys : List Key :=
  [.coredump, .coredumpdir, .execpath, .keepalive, .logdir, .logfile, .loopback, .nofile, .pidfile, .port, .resetcmd, .syslog, .tcpwrappers, .timestamp]

/-- A value that is not in order. -/
inductive BadValue (env : CEnv) : Key → Cf → Prop
  | flag (k : Key) (v : Cf) (hk : k ∈ [Key.coredump, .keepalive, .loopback, .tcpwrappers]) (h : ∀ b, ¬ Flag v b) : BadValue env k v
  | text (k : Key) (v : Cf) (hk : k ∈ [Key.coredumpdir, .execpath, .logdir, .logfile, .pidfile, .resetcmd, .syslog]) (h : v.kind ≠ .str) : BadValue env k v
  | blank (k : Key) (v : Cf) (hk : k ∈ [Key.logfile, .pidfile, .resetcmd, .syslog]) (h : Blank v.text) : BadValue env k v
  | num (k : Key) (v : Cf) (hk : k ∈ [Key.nofile, .port, .timestamp]) (h : v.kind ≠ .int) : BadValue env k v
  | negative (k : Key) (v : Cf) (z : Int) (hk : k ∈ [Key.port, .timestamp]) (h : Num v z) (hz : z < 0) : BadValue env k v
  | directory (v : Cf) (hb : ¬ Blank v.text) (h : env.fs.kind v.text ≠ some .directory) : BadValue env .coredumpdir v
  | facility (v : Cf) (h0 : (0 : UInt8) ∉ v.text) (h : ∀ name n, Written v.text name → ¬ FacilityName name n) : BadValue env .syslog v

/-- The rest of a line, at a point where a setting should begin, that is not in order. -/
inductive Malformed (env : CEnv) : List Cf → Prop
  | notKey (t : Cf) (r : List Cf) (h : ∀ k, t.kind ≠ .key k) : Malformed env (t :: r)
  | wrongKey (t : Cf) (k : Key) (r : List Cf) (hk : t.kind = .key k) (h : k ∉ serverKeys) : Malformed env (t :: r)
  | noWrappers (t : Cf) (r : List Cf) (hk : t.kind = .key .tcpwrappers) (h : env.withWrap = false) : Malformed env (t :: r)
  | noEq (t : Cf) (k : Key) (r : List Cf) (hk : t.kind = .key k) (h : ∀ e, r.head? = some e → e.kind ≠ .eq) : Malformed env (t :: r)
  | noValue (t e : Cf) (k : Key) (hk : t.kind = .key k) (he : e.kind = .eq) : Malformed env [t, e]
  | badValue (t e v : Cf) (k : Key) (r : List Cf) (hk : t.kind = .key k) (he : e.kind = .eq) (h : BadValue env k v) : Malformed env (t :: e :: v :: r)

end Conman.Spec
