import Verif.Model.ServerArgs
import Verif.Model.Whole

/-
What the daemon displays with `-v`: `display_configuration`, src/server.c:492-554, and where its messages go afterwards, `main`, src/server.c:130-140.
-/
namespace Conman
open Spec

/-- The words behind "Options:", src/server.c:513-551. -/
def optionWords (a : DArgs) (c : SConf) : List (List UInt8) :=
  let l := (if c.coreDump then [bs "CoreDump"] else []) ++ (if c.keepAlive then [bs "KeepAlive"] else []) ++ (if c.logFile.isSome then [bs "LogFile"] else []) ++
    (if c.loopBack then [bs "LoopBack"] else []) ++ (if c.resetCmd.isSome then [bs "ResetCmd"] else []) ++ (if c.syslog ≥ 0 then [bs "SysLog"] else []) ++
    (if c.tcpWrap then [bs "TCP-Wrappers"] else []) ++ (if c.stamp > 0 then [bs "TimeStamp=" ++ decInt c.stamp ++ bs "m"] else []) ++
    (if a.zero then [bs "ZeroLogs"] else [])
  if l = [] then [bs "None"] else l

/-- `display_configuration`, src/server.c:492-554. The consoles are counted among all objects (500-506); log files are no consoles. -/
def displayConf (a : DArgs) (c : SConf) : List UInt8 :=
  bs "Configuration: " ++ a.conf ++ bs "\nOptions:" ++ (optionWords a c).flatMap (fun w => bs " " ++ w) ++ bs "\nMonitoring " ++ dec c.consoles.length ++
    (if c.consoles.length = 1 then bs " console\n\n" else bs " consoles\n\n")

/-- Whether messages go to the system log and to the log file afterwards, src/server.c:130-140. -/
def logTargets (a : DArgs) (c : SConf) : Bool × Bool := (!a.foreground && decide (c.syslog > 0), !a.foreground && c.logFile.isSome)

end Conman
