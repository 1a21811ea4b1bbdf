import Verif.Model.CStr
import Verif.Spec.LogMsg

/-
Messages of the daemon: src/log.c.
-/
namespace Conman
open Spec

/-- `log_prefix`, src/log.c:286-310. -/
def logPrefix : Int → List UInt8
  | 0 => bs "EMERGENCY"
  | 1 => bs "ALERT"
  | 2 => bs "CRITICAL"
  | 3 => bs "ERROR"
  | 4 => bs "WARNING"
  | 5 => bs "NOTICE"
  | 6 => bs "INFO"
  | 7 => bs "DEBUG"
  | _ => bs "UNKNOWN"

/-- `"%s:%*c"` with the name, the width `m` and a blank, src/log.c:219-224. -/
def logPad (pre : List UInt8) : List UInt8 :=
  let m := if pre.length < 10 then 10 - pre.length else 1
  pre ++ bs ":" ++ List.replicate m 0x20

/-- The array, the offset `p`, and `len`. -/
abbrev LogBuf := List UInt8 × Nat × Nat

/-- `strftime` and what follows, src/log.c:207-216: the function returns 0 if the text does not fit. -/
def logStamp (buf stamp : List UInt8) (len : Nat) : Option LogBuf :=
  if stamp.length < len ∧ stamp ≠ [] then (pokes buf 0 (stamp ++ [0])).map (·, stamp.length, len - stamp.length)
  else (poke buf 0 0).map (·, 0, 0)

/-- A call of `snprintf` or `vsnprintf` and what follows, src/log.c:224-229, 233-238, 243-248. -/
def logPut (b : LogBuf) (s : List UInt8) : Option LogBuf :=
  if b.2.2 = 0 then some b
  else (snprintf b.1 b.2.1 b.2.2 s).map fun r =>
    let n := if b.2.2 ≤ r.2 then b.2.2 - 1 else r.2
    (r.1, b.2.1 + n, b.2.2 - n)

/-- `strcat(p, "\n")`, src/log.c:250. -/
def logNl (b : LogBuf) : Option LogBuf :=
  (cstr (b.1.drop b.2.1)).bind fun s => (pokes b.1 (b.2.1 + s.length) (bs "\n" ++ [0])).map (·, b.2)

/-- The array filled by `log_aux`, and the offsets `pbuf` and `sbuf`, src/log.c:204-251.  The array has any contents before. -/
def logFill (buf : List UInt8) (c : LogCall) : Option (List UInt8 × Nat × Nat) :=
  (logStamp buf c.stamp (buf.length - 1)).bind fun b0 =>
  (logPut b0 (logPad (logPrefix c.prio))).bind fun b1 =>
  (logPut b1 c.text).bind fun b2 =>
  (if c.nl then some b2
    else (match c.err with
      | some e => logPut b2 (bs ": " ++ e)
      | none => some b2).bind logNl).map fun b3 => (b3.1, b0.2.1, b1.2.1)

/-- `log_file_fp` with `log_file_priority` and `log_file_timestamp`, and `log_syslog`, src/log.c:49-53. -/
structure LogState where
  file : Option (Int × Bool) := none
  syslog : Bool := false
deriving Repr, DecidableEq

/-- Where a message goes. -/
structure LogOut where
  file : List UInt8 := []
  syslog : List (List UInt8) := []
  /-- `msgbuf` -/
  msg : List UInt8 := []
deriving Repr, DecidableEq

/-- `log_set_file`, src/log.c:84-99, with a stream without error. -/
def logSetFile (s : LogState) (f : Option (Int × Bool)) : LogState :=
  { s with file := f.map fun x => (if 0 < x.1 then x.1 else 0, x.2) }

/-- `log_aux`, src/log.c:189-283.  `failed`: the write to the file would fail (the output is then taken to be nothing). -/
def logAux (s : LogState) (buf : List UInt8) (c : LogCall) (failed : Bool) : Option (LogState × LogOut) :=
  (logFill buf c).bind fun r =>
  (cstr r.1).bind fun whole =>
  (cstr (r.1.drop r.2.1)).bind fun ptext =>
  (cstr (r.1.drop r.2.2)).bind fun stext =>
  let msg := stext.take (maxLine - 1)
  let sys := if s.syslog then [stext] else []
  match s.file with
  | none => some (s, { syslog := sys, msg := msg })
  | some (level, stamps) =>
    if c.prio ≤ level then
      if failed then some ({ s with file := none }, { syslog := sys ++ [bs "Logging stopped due to error"], msg := msg })
      else some (s, { file := if stamps then whole else ptext, syslog := sys, msg := msg })
    else some (s, { syslog := sys, msg := msg })

/-- One message after the other; the array of each call has any contents. -/
def logRun (s : LogState) : List (List UInt8 × LogCall × Bool) → Option (LogState × List LogOut)
  | [] => some (s, [])
  | (buf, c, failed) :: r => (logAux s buf c failed).bind fun x => (logRun x.1 r).map fun y => (y.1, x.2 :: y.2)

end Conman
