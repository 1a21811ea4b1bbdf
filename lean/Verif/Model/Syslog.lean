import Verif.Spec.Syslog
import Verif.Model.Opts

/-
Syslog facilities and priorities: src/server-conf.c:124-171, 1577-1616, and their use.
-/
namespace Conman

/-- `logPriorities`, src/server-conf.c:132-147, with the values of syslog.h (Linux). -/
def logPriorities : List (List UInt8 × Int) :=
  [(bs "alert", 1), (bs "crit", 2), (bs "critical", 2), (bs "debug", 7), (bs "emerg", 0), (bs "emergency", 0), (bs "err", 3), (bs "error", 3), (bs "info", 6),
   (bs "notice", 5), (bs "panic", 0), (bs "warn", 4), (bs "warning", 4)]

/-- `logFacilities`, src/server-conf.c:149-171, with the values of syslog.h (Linux): eight times the number. -/
def logFacilities : List (List UInt8 × Int) :=
  [(bs "auth", 32), (bs "authpriv", 80), (bs "cron", 72), (bs "daemon", 24), (bs "kern", 0), (bs "lpr", 48), (bs "mail", 16), (bs "news", 56), (bs "user", 8),
   (bs "uucp", 64), (bs "local0", 128), (bs "local1", 136), (bs "local2", 144), (bs "local3", 152), (bs "local4", 160), (bs "local5", 168), (bs "local6", 176), (bs "local7", 184)]

/-- The loop over a table, src/server-conf.c:1588-1592 and 1609-1613. -/
def tagLookup (s : List UInt8) : List (List UInt8 × Int) → Int
  | [] => -1
  | t :: ts => if strcasecmp t.1 s = 0 then t.2 else tagLookup s ts

/-- `lookup_syslog_priority`, src/server-conf.c:1577-1594. -/
def lookupPriority (s : List UInt8) : Int := tagLookup (s.dropWhile isSpace) logPriorities

/-- `lookup_syslog_facility`, src/server-conf.c:1597-1615. -/
def lookupFacility (s : List UInt8) : Int := tagLookup (s.dropWhile isSpace) logFacilities

/-- Whether `main` turns on syslog for a daemon in the background, src/server.c:130-133. -/
def syslogUsed (facility : Int) : Bool := facility > 0

end Conman
