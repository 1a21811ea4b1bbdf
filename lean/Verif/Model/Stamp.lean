import Verif.Model.CStr
import Verif.Spec.Stamp

/-
Periodic timestamps of the logs: src/server.c:557-635.

Local time is ahead of `time_t` by the constant `zone` (no change of summer time); the failure of `mktime` is not modelled.  `none` is an overflow of `int`
or an access outside an array.
-/
namespace Conman

/-- Broken-down local time: the day (its number), hours, minutes, seconds. -/
structure Tm where
  day : Int
  hour : Int
  min : Int
  sec : Int
deriving DecidableEq, Repr

/-- `get_localtime`, src/util-str.c:365-387: the current time if the time given is 0. -/
def getLocaltime (zone now t : Int) : Tm :=
  let l := (if t = 0 then now else t) + zone
  ⟨l / 86400, l % 86400 / 3600, l % 3600 / 60, l % 60⟩

/-- `mktime` (C library): the fields need not be in their ranges. -/
def mktime (zone : Int) (tm : Tm) : Int := tm.day * 86400 + tm.hour * 3600 + tm.min * 60 + tm.sec - zone

/-- `schedule_timestamp`, src/server.c:557-599: the new `tStampNext`, which is the time of the timer. -/
def scheduleStamp (zone now m next : Int) : Option Int :=
  let tm := getLocaltime zone now next
  let tm' : Tm :=
    if next = 0 then
      let done := (tm.hour * 60 + tm.min) / m
      { tm with min := (done + 1) * m, hour := 0 }
    else { tm with min := tm.min + m }
  if tm'.min > 2147483647 then none
  else some (mktime zone { tm' with sec := 0 })

/-- The text of one message, src/server.c:617-620; `pre` and `suf` are the prefix and suffix of messages.  The buffer is filled as in `linkBuf`. -/
def stampText (pre suf name now : List UInt8) : List UInt8 := pre ++ bs "Console [" ++ name ++ bs "] log at " ++ now ++ suf

/-- The messages written by `timestamp_logfiles`, src/server.c:612-626, one for each log (given by the name of its console). -/
def stampMsgs (buf pre suf now : List UInt8) : List (List UInt8) → Option (List (List UInt8))
  | [] => some []
  | n :: ns => (linkBuf' buf (stampText pre suf n now)).bind fun b => (cstr b).bind fun s => (stampMsgs b pre suf now ns).map fun l => s :: l
where
  /-- `snprintf (buf, sizeof (buf), ...); strcpy (&buf[sizeof (buf) - 3], "\r\n")`, src/server.c:617-620. -/
  linkBuf' (buf s : List UInt8) : Option (List UInt8) := (snprintf buf 0 maxLine s).bind fun (buf, _) => pokes buf (maxLine - 3) [0x0D, 0x0A, 0]

/-- `timestamp_logfiles`, src/server.c:602-635, with logs for the consoles `logs`: the messages and the next timer, if one is set. -/
def timestampLogs (zone m now next : Int) (buf pre suf nowText : List UInt8) (logs : List (List UInt8)) : Option (List (List UInt8) × Option Int) :=
  (stampMsgs buf pre suf nowText logs).bind fun msgs => if logs = [] then some (msgs, none) else (scheduleStamp zone now m next).map fun t => (msgs, some t)

/-- A daemon started at `start` whose timers expire and are handled at the times `fires`: the times set, one for the start and one for each timer. -/
def stampRun (zone m : Int) (next : Int) : List Int → Option (List Int)
  | [] => some []
  | now :: l => (scheduleStamp zone now m next).bind fun t => (stampRun zone m t l).map fun r => t :: r

end Conman
