import Verif.Spec.Opts

/-
Parsing of option strings: src/server-logfile.c, src/server-serial.c, src/server-test.c.

A string is the list of its bytes without the NUL.  Error messages are not modelled.  `none` is undefined behaviour: a number that does not fit.
-/
namespace Conman
open Spec (logSep commaSep)

/-- Successive calls of `strtok` (C library): `cur` is the token being read. -/
def strtokLoop (sep : UInt8 → Bool) (cur : List UInt8) : List UInt8 → List (List UInt8)
  | [] => if cur = [] then [] else [cur]
  | c :: s => if sep c then (if cur = [] then strtokLoop sep [] s else cur :: strtokLoop sep [] s) else strtokLoop sep (cur ++ [c]) s

def strtokAll (sep : UInt8 → Bool) (s : List UInt8) : List (List UInt8) := strtokLoop sep [] s

/-! ### src/server-logfile.c -/

/-- The body of the loop of `parse_logfile_opts`, src/server-logfile.c:83-98. -/
def logOptStep (o : LogOpt) (tok : List UInt8) : LogOpt :=
  if strcasecmp tok (bs "lock") = 0 then { o with lock := true }
  else if strcasecmp tok (bs "nolock") = 0 then { o with lock := false }
  else if strcasecmp tok (bs "sanitize") = 0 then { o with sanitize := true }
  else if strcasecmp tok (bs "nosanitize") = 0 then { o with sanitize := false }
  else if strcasecmp tok (bs "timestamp") = 0 then { o with timestamp := true }
  else if strcasecmp tok (bs "notimestamp") = 0 then { o with timestamp := false }
  else o

/-- `parse_logfile_opts`, src/server-logfile.c:47-103, with its result.  The copy into `buf` is by `strlcpy` (property C20). -/
def parseLogOpts (o : LogOpt) (s : Option (List UInt8)) : LogOpt × Int :=
  match s with
  | none => (o, -1)
  | some s => if s = [] then (o, -1) else if s.length ≥ maxLine then (o, -1) else ((strtokAll logSep s).foldl logOptStep o, 0)

/-! ### src/server-serial.c -/

/-- `bps_table`, src/server-serial.c:56-83, with the speeds defined on Linux; a speed stands for its constant. -/
def bpsTable : List Nat :=
  [50, 75, 110, 134, 150, 200, 300, 600, 1200, 1800, 2400, 4800, 9600, 19200, 38400, 57600, 115200, 230400, 460800]

/-- `int_to_bps`, src/server-serial.c:207-222. -/
def intToBps (val : Int) : List Nat → Nat → Nat
  | [], bps => bps
  | v :: t, bps => if (v : Int) ≤ val then intToBps val t v else bps

/-- `%d` of `sscanf` (C library): value and rest; the inner `none` is a matching failure. -/
def scanD (s : List UInt8) : Option (Option (Int × List UInt8)) :=
  let s := s.dropWhile isSpace
  let neg := s.head? = some 0x2D
  let s := if neg || s.head? = some 0x2B then s.drop 1 else s
  let ds := s.takeWhile isDigit
  if ds = [] then some none
  else
    let v : Int := if neg then -(digitsVal ds : Int) else digitsVal ds
    if -2147483648 ≤ v ∧ v ≤ 2147483647 then some (some (v, s.dropWhile isDigit)) else none

/-- What `sscanf (str, "%d,%d%c%d", ...)` converts, src/server-serial.c:151-152. -/
structure SerScan where
  bps : Option Int := none
  databits : Option Int := none
  parity : Option UInt8 := none
  stopbits : Option Int := none
deriving DecidableEq, Repr

def scanSer (s : List UInt8) : Option SerScan :=
  match scanD s with
  | none => none
  | some none => some {}
  | some (some (b, s)) =>
    match s with
    | 0x2C :: s =>
      match scanD s with
      | none => none
      | some none => some { bps := some b }
      | some (some (d, s)) =>
        match s with
        | [] => some { bps := some b, databits := some d }
        | p :: s =>
          match scanD s with
          | none => none
          | some none => some { bps := some b, databits := some d, parity := some p }
          | some (some (q, _)) => some { bps := some b, databits := some d, parity := some p, stopbits := some q }
    | _ => some { bps := some b }

/-- The checks of one value, src/server-serial.c:154-200; `none` is a value that is refused. -/
def setBps (o : SerOpt) : Option Int → Option SerOpt
  | none => some o
  | some v => let b := intToBps v bpsTable 0; if b ≤ 0 then none else some { o with bps := b }

def setDatabits (o : SerOpt) : Option Int → Option SerOpt
  | none => some o
  | some v => if v < 5 ∨ v > 8 then none else some { o with databits := v }

def setParity (o : SerOpt) : Option UInt8 → Option SerOpt
  | none => some o
  | some c =>
    if c = 0x4E ∨ c = 0x6E then some { o with parity := 0 }
    else if c = 0x4F ∨ c = 0x6F then some { o with parity := 1 }
    else if c = 0x45 ∨ c = 0x65 then some { o with parity := 2 }
    else none

def setStopbits (o : SerOpt) : Option Int → Option SerOpt
  | none => some o
  | some v => if v < 1 ∨ v > 2 then none else some { o with stopbits := v }

/-- `parse_serial_opts`, src/server-serial.c:123-204, with its result.  The conversions store databits and stopbits before the checks, into the copy that
is dropped if a check fails. -/
def parseSerOpts (o : SerOpt) (s : Option (List UInt8)) : Option (SerOpt × Int) :=
  match s with
  | none => some (o, -1)
  | some s =>
    if s = [] then some (o, -1)
    else (scanSer s).map fun r =>
      match (setBps o r.bps).bind fun o => (setDatabits o r.databits).bind fun o => (setParity o r.parity).bind fun o => setStopbits o r.stopbits with
      | none => (o, -1)
      | some o' => (o', 0)

/-! ### src/server-test.c -/

/-- Value of a digit or letter. -/
def digitOf (c : UInt8) : Nat :=
  if isDigit c then c.toNat - 0x30 else if 0x61 ≤ toLower c && toLower c ≤ 0x7A then (toLower c).toNat - 0x61 + 10 else 99

/-- The base of a number for `strtol (p, &endp, 0)`, and what comes after its prefix. -/
def numBase (s : List UInt8) : Nat × List UInt8 :=
  if s.head? = some 0x30 then
    (if ((s.drop 1).head? = some 0x78 ∨ (s.drop 1).head? = some 0x58) ∧ digitOf ((s.drop 2).headD 0) < 16 then (16, s.drop 2) else (8, s))
  else (10, s)

/-- `strtol (p, &endp, 0)` after white space and sign; `p` is the whole text. -/
def strtolBody (p : List UInt8) (neg : Bool) (s : List UInt8) : Int × List UInt8 × Bool :=
  let b := (numBase s).1
  let s := (numBase s).2
  let ds := s.takeWhile (fun c => digitOf c < b)
  if ds = [] then (0, p, false)
  else
    let v : Int := (ds.foldl (fun a c => b * a + digitOf c) 0 : Nat)
    let v := if neg then -v else v
    let rest := s.dropWhile (fun c => digitOf c < b)
    if v > 9223372036854775807 then (9223372036854775807, rest, true)
    else if v < -9223372036854775808 then (-9223372036854775808, rest, true)
    else (v, rest, false)

/-- `strtol (p, &endp, 0)` (C library, 64-bit `long`): value, `endp`, and whether it sets ERANGE. -/
def strtol (p : List UInt8) : Int × List UInt8 × Bool :=
  match p.dropWhile isSpace with
  | 0x2D :: s => strtolBody p true s
  | 0x2B :: s => strtolBody p false s
  | s => strtolBody p false s

/-- `process_test_opt`, src/server-test.c:129-181: options, result, and whether `errno` is ERANGE afterwards.  `errno` is not cleared before the call. -/
def processTestOpt (erange : Bool) (o : TestOpt) (str : List UInt8) : TestOpt × Int × Bool :=
  match str with
  | k :: 0x3A :: p =>
    if k ∈ [0x42, 0x62, 0x4D, 0x6D, 0x4E, 0x6E, 0x50, 0x70] then
      let r := strtol p
      let erange := erange || r.2.2
      let l := r.1
      if r.2.1 ≠ [] ∨ erange = true ∨ l < 0 ∨ l > 2147483647 then (o, -1, erange)
      else if toLower k = 0x62 then ({ o with numBytes := l }, 0, erange)
      else if toLower k = 0x6D then ({ o with msecMax := l }, 0, erange)
      else if toLower k = 0x6E then ({ o with msecMin := l }, 0, erange)
      else ({ o with probability := if l < 100 then l else 100 }, 0, erange)
    else (o, -1, erange)
  | _ => (o, -1, erange)

/-- The loop of `parse_test_opts`, src/server-test.c:115-121: the temporary options, or `none` if one is refused. -/
def testOptLoop (erange : Bool) (o : TestOpt) : List (List UInt8) → Option TestOpt × Bool
  | [] => (some o, erange)
  | t :: ts =>
    let r := processTestOpt erange o t
    if r.2.1 < 0 then (none, r.2.2) else testOptLoop r.2.2 r.1 ts

/-- `parse_test_opts`, src/server-test.c:82-126, with its result and `errno`. -/
def parseTestOpts (erange : Bool) (o : TestOpt) (s : Option (List UInt8)) : TestOpt × Int × Bool :=
  match s with
  | none => (o, -1, erange)
  | some s =>
    if s.length ≥ maxLine then (o, -1, erange)
    else
      let r := testOptLoop erange o (strtokAll commaSep s)
      match r.1 with
      | none => (o, -1, r.2)
      | some o' => (o', 0, r.2)

end Conman
