import Verif.Model.ServerArgs

/-
The end of the daemon by a signal that stands for an error: `setup_coredump`, src/server.c:325-350, and `coredump_handler`, src/server.c:397-416.
-/
namespace Conman
open Spec

/-- What the daemon finds: whether it was told to stay in the foreground, the directory in which it was started, the hard limit for the size of cores (`none` if there is
none), and whether it may raise it. -/
structure CoreEnv where
  fg : Bool
  cwd : List UInt8
  hard : Option Nat
  root : Bool
deriving Repr, DecidableEq

/-- `coredump`, `coredumpdir` (src/server.c:80-81), and the limit set (`none` for `RLIM_INFINITY`). -/
structure CoreSet where
  on : Bool
  dir : List UInt8
  limit : Option Nat
deriving Repr, DecidableEq

/-- `setup_coredump`, src/server.c:325-350; `PATH_MAX` is 4096. `none`: `log_err` (the daemon does not start), because the directory is not known (`getcwd` fails if its name
does not fit) or because the limit may not be raised. In the background this comes before `chdir("/")` (src/server.c:111 and 148). -/
def setupCore (E : CoreEnv) (c : SConf) : Option CoreSet :=
  if c.coreDump then
    (match c.coreDumpDir with
    | some d => some (d.take 4095)
    | none => if E.cwd.length < 4096 then some E.cwd else none).bind fun d =>
    if E.hard.isSome && !E.root then none else some ⟨true, d, none⟩
  else some ⟨false, [], some 0⟩

/-- How the daemon ends: messages passed to `log_msg`, the directory it is in, its mask for new files, its limit for the size of cores, and the signal that kills it. -/
structure CoreEnd where
  said : List (List UInt8)
  dir : List UInt8
  mask : Nat
  limit : Option Nat
  sig : Nat
deriving Repr, DecidableEq

/-- The directory in which the daemon runs: in the background, that set by `end_daemonize`, src/server.c:290-293. -/
def runDir (E : CoreEnv) : List UInt8 := if E.fg then E.cwd else bs "/"

/-- `coredump_handler`, src/server.c:397-416; `cd` is what `chdir` says: `none` if it works, else the text of the error. The signal sent to itself is blocked until the
handler ends, and has its default action then. -/
def crash (E : CoreEnv) (k : CoreSet) (cd : List UInt8 → Option (List UInt8)) (sig : Nat) : CoreEnd :=
  let use := k.on && decide (k.dir ≠ [])
  let m1 := bs "Terminating on signal=" ++ dec sig ++ (if use then bs " (check \"" ++ k.dir ++ bs "\" for core)" else [])
  match (if use then some (cd k.dir) else none) with
  | none => ⟨[m1], runDir E, 63, k.limit, sig⟩
  | some none => ⟨[m1], k.dir, 63, k.limit, sig⟩
  | some (some e) => ⟨[m1, bs "Unable to change directory to coredumpdir \"" ++ k.dir ++ bs "\": " ++ e], runDir E, 63, k.limit, sig⟩

end Conman
