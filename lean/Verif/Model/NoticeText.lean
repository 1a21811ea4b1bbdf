import Verif.Spec.NoticeText
import Verif.Model.Whole
import Verif.Model.Time

/-
The texts of the notices of the daemon (`Note` in `Model/World.lean`).
The content of an uninitialised buffer does not matter (C49) and is taken as zeros.
-/
namespace Conman

/-- How a notice is put together. -/
inductive NBuf where
  /-- `snprintf` into `char buf[MAX_LINE]`, then `strcpy (&buf[sizeof (buf) - 3], "\r\n")` -/
  | link
  /-- `write_notify_msg` -/
  | notify
  /-- `create_format_string` -/
  | fmt
deriving Repr, DecidableEq

/-- The text of a notice with the formatted message `m` (without prefix and suffix): src/server-obj.c:628-634, src/server-obj.c:535-568, src/util-str.c:63-81. -/
def NBuf.text : NBuf → List UInt8 → List UInt8
  | .link, m => ((linkBuf (List.replicate maxLine 0) (msgPrefix ++ m ++ msgSuffix)).bind cstr).getD []
  | .notify, m => ((notifyBuf (List.replicate maxLine 0) m).bind cstr).getD []
  | .fmt, m => ((snprintf (List.replicate maxLine 0) 0 maxLine (msgPrefix ++ m ++ msgSuffix)).bind fun r => cstr r.1).getD []

/-- `link_objs` and `unlink_objs` (src/server-obj.c:628-635, 643-650, 710-717), `check_console_state` (src/server-sock.c:921-968) and `timestamp_logfiles`
(src/server.c:618-622) have the first form; `toggle_quiet_mode` (src/server-esc.c:412-413) and `open_logfile_obj` (src/server-logfile.c:295-297) the last. -/
def Note.buf : Note → NBuf
  | .stolenBy _ _ | .joinedBy _ _ | .stolenFrom _ _ | .joinedWith _ _ | .departed _ _ | .isDown _ | .logStamp _ => .link
  | .quietOn | .quietOff | .logOpened _ => .fmt
  | _ => .notify

/-- `"<%s@%s>%s%s"` with `user`, `host`, `(tty ? " on " : "")`, `(tty ? tty : "")`. -/
def idArgs (w : SrvWriter) : List UInt8 :=
  bs "<" ++ w.user ++ bs "@" ++ w.host ++ bs ">" ++ (if w.tty.isSome then bs " on " else []) ++ w.tty.getD []

/-- `auxp->prog`, src/server-process.c:201-206: what follows the last slash of `argv[0]`, if there is one. -/
def progOf (args : List (List UInt8)) : List UInt8 :=
  let a := args.headD []
  if 0x2F ∈ a then (a.reverse.takeWhile (· ≠ 0x2F)).reverse else a

/-- `"\"%s\""`, `"<%s:%d>"`, `"<%s>"`: src/server-serial.c:444, src/server-unixsock.c:311, src/server-process.c:370, src/server-telnet.c:273,
src/server-ipmi.c:1029, and the places of the other notices.  Test consoles have none of these notices. -/
def devArg : ConDev → List UInt8
  | .unixsock p | .serial p _ => bs "\"" ++ p ++ bs "\""
  | .process args => bs "\"" ++ progOf args ++ bs "\""
  | .telnet h p => bs "<" ++ h ++ bs ":" ++ decInt p ++ bs ">"
  | .ipmi h _ => bs "<" ++ h ++ bs ">"
  | .test _ => []

def ConDev.isProcess : ConDev → Bool
  | .process _ => true
  | _ => false

/-- The notices of `connect_process_obj` and `check_process_prog` when a program cannot be started, src/server-process.c:318-331, 402-417. -/
def failBody (f : Facts) (con : Nat) : List UInt8 :=
  match f.why with
  | .socketpair => bs "Console [" ++ f.name con ++ bs "] connection failed: socketpair error: " ++ f.err
  | .fork => bs "Console [" ++ f.name con ++ bs "] connection failed: fork error: " ++ f.err
  | .stat => bs "Console [" ++ f.name con ++ bs "] connection failed: " ++ devArg (f.dev con) ++ bs " stat error: " ++ f.err
  | .notFile => bs "Console [" ++ f.name con ++ bs "] connection failed: " ++ devArg (f.dev con) ++ bs " not a regular file"
  | .notExec => bs "Console [" ++ f.name con ++ bs "] connection failed: " ++ devArg (f.dev con) ++ bs " not executable"

/-- The formatted message of a notice, at the places named at `Note.buf`; reset commands: src/server-esc.c:451-497; connections: at `devArg`.
`disconnect_process_obj`: src/server-process.c:285-287. -/
def noticeBody (f : Facts) : Note → List UInt8
  | .stolenBy s d => bs "Console [" ++ f.name d ++ bs "] " ++ bs "stolen" ++ (if (f.who s).bcast then bs " for B/C" else []) ++ bs " by " ++ idArgs (f.who s) ++
      bs " at " ++ f.short
  | .joinedBy s d => bs "Console [" ++ f.name d ++ bs "] " ++ bs "joined" ++ (if (f.who s).bcast then bs " for B/C" else []) ++ bs " by " ++ idArgs (f.who s) ++
      bs " at " ++ f.short
  | .stolenFrom w d => bs "Console [" ++ f.name d ++ bs "] " ++ bs "stolen from" ++ bs " " ++ idArgs (f.who w) ++ bs " at " ++ f.short
  | .joinedWith w d => bs "Console [" ++ f.name d ++ bs "] " ++ bs "joined with" ++ bs " " ++ idArgs (f.who w) ++ bs " at " ++ f.short
  | .departed s d => bs "Console [" ++ f.name d ++ bs "] departed by " ++ idArgs (f.who s) ++ bs " at " ++ f.short
  | .isDown d => bs "Console [" ++ f.name d ++ bs "] is currently disconnected from " ++ devArg (f.dev d)
  | .connected d => bs "Console [" ++ f.name d ++ bs "] connected to " ++ devArg (f.dev d) ++
      if (f.dev d).isProcess then bs " (pid " ++ dec (f.pid d) ++ bs ")" else []
  | .disconnected d => bs "Console [" ++ f.name d ++ bs "] disconnected from " ++ devArg (f.dev d) ++
      if (f.dev d).isProcess then bs " (pid " ++ dec (f.pid d) ++ bs ") after " ++ f.up else []
  | .connFailed d => failBody f d
  | .resetBusy d => bs "Ignoring reset of console [" ++ f.name d ++ bs "]: pid " ++ dec (f.pid d) ++ bs " still active"
  | .resetLong d => bs "Unable to reset console [" ++ f.name d ++ bs "]: command too long"
  | .resetFork d => bs "Unable to reset console [" ++ f.name d ++ bs "]: fork failed: " ++ f.err
  | .resetBy c d => bs "Console [" ++ f.name d ++ bs "] reset by <" ++ (f.who c).user ++ bs "@" ++ (f.who c).host ++ bs "> (pid " ++ dec (f.pid d) ++ bs ")"
  | .quietOn => bs "Quiet-mode " ++ bs "enabled" ++ bs " -- info msgs will be " ++ bs "suppressed"
  | .quietOff => bs "Quiet-mode " ++ bs "disabled" ++ bs " -- info msgs will be " ++ bs "displayed"
  | .logOpened l => bs "Console [" ++ f.name l ++ bs "] log opened at " ++ f.long
  | .logStamp l => bs "Console [" ++ f.name l ++ bs "] log at " ++ f.long

/-- The text of a notice. -/
def noticeText (f : Facts) (n : Note) : List UInt8 := n.buf.text (noticeBody f n)

/-- What the notices of a daemon with the configuration `c` speak of (objects as in `Model/Whole.lean`); `g` has the rest: clients, times, processes. -/
def SConf.facts (c : SConf) (g : Facts) : Facts :=
  { g with
    name := fun i => (c.consoles[i / 2]?.map (·.name)).getD []
    dev := fun i => (c.consoles[i / 2]?.map (·.dev)).getD (g.dev i) }

end Conman
