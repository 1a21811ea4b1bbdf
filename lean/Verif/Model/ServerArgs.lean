import Verif.Model.Getopt
import Verif.Model.Conf
import Verif.Model.Locks
import Verif.Spec.ServerArgs

/-
The command line of the daemon, src/server-conf.c:323-381, and what follows from it: control of a running daemon, src/server-conf.c:506-580, and the
socket it listens on, src/server.c:638-684.
-/
namespace Conman
open Spec

/-- What was chosen when the program was built or started: the name of the program, `CONMAN_CONF`, the texts of `-L` and `-V`, and the working directory. -/
structure DProg where
  prog : List UInt8
  conf : List UInt8
  license : List UInt8
  version : List UInt8
  cwd : List UInt8

/-- The parts of `server_conf_t` that the command line sets (and `-1` of `throwSignal` as `none`). -/
structure DArgs where
  conf : List UInt8
  port : Int := -1
  pidFile : Option (List UInt8) := none
  signal : Option Int := none
  foreground : Bool := false
  verbose : Bool := false
  zero : Bool := false
deriving Repr, DecidableEq

/-- How the processing of options ends: with settings, with `exit(0)` and some output, or with `log_err` (a message and `exit(1)`). -/
inductive DOut where
  | go (a : DArgs)
  | exit (out : List UInt8)
  | err (msg : List UInt8)
deriving Repr, DecidableEq

/-- `display_server_help`, src/server-conf.c:484-503; `CONMAN_PORT` is 7890. -/
def serverHelp (E : DProg) : List UInt8 :=
  bs "Usage: " ++ E.prog ++ bs " [OPTIONS]\n" ++
  bs "\n" ++
  bs "  -c FILE   Specify configuration. [" ++ E.conf ++ bs "]\n" ++
  bs "  -F        Run daemon in foreground.\n" ++
  bs "  -h        Display this help.\n" ++
  bs "  -k        Kill daemon.\n" ++
  bs "  -L        Display license information.\n" ++
  bs "  -p PORT   Specify port number. [" ++ dec 7890 ++ bs "]\n" ++
  bs "  -P FILE   Specify PID file.\n" ++
  bs "  -q        Query daemon's pid.\n" ++
  bs "  -r        Re-open log files.\n" ++
  bs "  -v        Be verbose.\n" ++
  bs "  -V        Display version information.\n" ++
  bs "  -z        Zero log files.\n" ++
  bs "\n"

/-- One option, src/server-conf.c:329-377; `none`: the port does not fit an `int`. -/
def daemonOpt (E : DProg) (a : DArgs) : COpt → Option DOut
  | .flag x =>
    if x = 0x46 then some (.go { a with foreground := true })
    else if x = 0x68 then some (.exit (serverHelp E))
    else if x = 0x6B then some (.go { a with signal := some 15 })
    else if x = 0x4C then some (.exit E.license)
    else if x = 0x71 then some (.go { a with signal := some 0 })
    else if x = 0x72 then some (.go { a with signal := some 1 })
    else if x = 0x76 then some (.go { a with verbose := true })
    else if x = 0x56 then some (.exit E.version)
    else if x = 0x7A then some (.go { a with zero := true })
    else some (.err (bs "CMDLINE: option \"" ++ [x] ++ bs "\" not implemented"))
  | .arg x v =>
    if x = 0x63 then some (.go { a with conf := v })
    else if x = 0x70 then (atoi v).map fun i => if i < 0 then .err (bs "CMDLINE: invalid port \"" ++ v ++ bs "\"") else .go { a with port := i }
    else if x = 0x50 then some (.go { a with pidFile := some (relName E.cwd v) })
    else some (.err (bs "CMDLINE: option \"" ++ [x] ++ bs "\" not implemented"))

def daemonOpts (E : DProg) : DArgs → List COpt → Option DOut
  | a, [] => some (.go a)
  | a, o :: os =>
    (daemonOpt E a o).bind fun r =>
    match r with
    | .go a => daemonOpts E a os
    | r => some r

/-- `process_cmdline`, src/server-conf.c:323-381, with the string of options of line 328; operands are not looked at. -/
def daemonArgs (E : DProg) (args : List (List UInt8)) : Option DOut :=
  (daemonOpts E { conf := E.conf } (gGetopt (bs "FhkLqrvVz") (bs "cpP") args).opts).map fun r =>
  match r with
  | .go a =>
    match (gGetopt (bs "FhkLqrvVz") (bs "cpP") args).bad with
    | some c => .err (bs "CMDLINE: invalid option \"" ++ [c] ++ bs "\"")
    | none => .go a
  | r => r

/-! ### Control -/

/-- The files and processes that are there: texts and numbers of files, locks, and what `kill` does. -/
structure DWorld where
  text : List UInt8 → Option (List UInt8)
  ino : List UInt8 → Nat
  locks : List FLock
  kill : Int → Int → KillRes
  env : CEnv
  self : Int
  pick : Nat

/-- How the daemon ends or goes on.  `sent`: a signal has been sent (`out` and `say` are written to the standard output and error), `exit(0)`; `up`: it listens on an address and
a port, and `said` is the port of the message. -/
inductive DRes where
  | exit (out : List UInt8)
  | err (msg : List UInt8)
  | sent (pid sig : Int) (out say : List UInt8)
  | up (addr : List Nat) (port : Nat) (said : Int) (a : DArgs) (c : SConf)
deriving Repr, DecidableEq

/-- The message of inactivity, src/server-conf.c:529 and 546. -/
def inactiveMsg (n : List UInt8) : List UInt8 := bs "Configuration \"" ++ n ++ bs "\" does not appear to be active"

/-- `signal_daemon`, src/server-conf.c:506-580, when the configuration file is open; a signal that was not delivered is only sent if it is 0 (a query). -/
def signalDaemon (W : DWorld) (a : DArgs) (sig : Int) : Option DRes :=
  (({ file := some (W.ino a.conf), locks := W.locks, pidfile := a.pidFile.bind W.text } : Daemons).control W.self W.pick).map fun pid =>
  if pid = 0 then .err (inactiveMsg a.conf)
  else
    let done := DRes.sent pid sig (if sig = 0 then decInt pid ++ [0x0A] else [])
      (if sig ≠ 0 ∧ a.verbose then bs "Configuration \"" ++ a.conf ++ bs "\" (pid " ++ decInt pid ++ bs ") " ++
        (if sig = 1 then bs "reconfigured on" else if sig = 15 then bs "terminated on" else bs "sent") ++ bs " signal=" ++ decInt sig ++ [0x0A] else [])
    match W.kill pid sig with
    | .ok => done
    | .perm => if sig = 0 then done else .err (bs "Configuration \"" ++ a.conf ++ bs "\" (pid " ++ decInt pid ++ bs ") cannot be sent signal=" ++ decInt sig ++ bs ": Operation not permitted")
    | .noProc => .err (inactiveMsg a.conf)
    | .other r => .err (bs "Configuration \"" ++ a.conf ++ bs "\" (pid " ++ decInt pid ++ bs ") cannot be sent signal=" ++ decInt sig ++ bs ": " ++ r)

/-! ### Listening -/

/-- `create_listen_socket`, src/server.c:638-684: address and port of `bind`, which is taken to succeed.  `htons` takes the lower 16 bits of the port.  0 is any port, of the kernel's
choice, and the port of the message is then this one. -/
def listenOn (c : SConf) : List Nat × Nat := (if c.loopBack then [127, 0, 0, 1] else [0, 0, 0, 0], (c.port % 65536).toNat)

/-- `main`, src/server.c:104-129, with `process_config`, src/server-conf.c:384-480: what the command line and the configuration file amount to.  The steps between and behind that
do not depend on the command line are those of `Startup`. -/
def daemonMain (E : DProg) (ini : IpmiOpt) (W : DWorld) (args : List (List UInt8)) : Option DRes :=
  (daemonArgs E args).bind fun r =>
  match r with
  | .exit out => some (.exit out)
  | .err m => some (.err m)
  | .go a =>
    match W.text a.conf with
    | none => some (.err (bs "Unable to open \"" ++ a.conf ++ bs "\""))
    | some s =>
      match a.signal with
      | some sig => signalDaemon W a sig
      | none =>
        match setLock W.locks W.self (W.ino a.conf) false with
        | none => some (.err (bs "Unable to lock configuration \"" ++ a.conf ++ bs "\""))
        | some t =>
          let pid := testLock t W.self (W.ino a.conf) true W.pick
          if pid > 0 then some (.err (bs "Configuration \"" ++ a.conf ++ bs "\" in use by pid " ++ decInt pid))
          else
            (processConfig W.env s { createConf E.cwd ini with port := a.port, pidFile := a.pidFile }).map fun c =>
            if c.consoles = [] then .err (bs "Configuration \"" ++ a.conf ++ bs "\" has no consoles defined")
            else .up (listenOn c).1 (listenOn c).2 c.port a c

end Conman
