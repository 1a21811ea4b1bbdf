import Verif.Spec.Format

/-
`format_obj_string`, src/server-obj.c:301-430.

Parameters from outside: the process id, and the text `strftime` gives for a conversion letter at the current time.  Lengths are assumed to fit an
`int`.  `none` is an access outside an array.
-/
namespace Conman
open Spec (timeLetters)

/-- `isgraph` in the C locale (false for a negative `char`). -/
def isGraph (c : UInt8) : Bool := 0x20 < c && c < 0x7F

/-- One step of `sanitize_file_string`, src/server-obj.c:441-444. -/
def sanChar (c : UInt8) : UInt8 := if isGraph c = false || c = 0x2F then 0x5F else c

/-- `strrchr (q, '/')`: what comes after the last slash, src/server-obj.c:356-357. -/
def afterSlash (s : List UInt8) : List UInt8 := (s.reverse.takeWhile (· ≠ 0x2F)).reverse

/-- State of the loop: buffer, offset of `pdst`, `n`. -/
abbrev FmtSt := List UInt8 × Nat × Int

/-- `if (--n > 0) *pdst++ = c`, src/server-obj.c:333-335 and 408-410. -/
def putChar (st : FmtSt) (c : UInt8) : Option FmtSt :=
  let n := st.2.2 - 1
  if n > 0 then (poke st.1 st.2.1 c).map fun b => (b, st.2.1 + 1, n) else some (st.1, st.2.1, n)

/-- `strcpy` if there is room, and sanitizing, src/server-obj.c:343-349 and 358-363. -/
def putCopy (st : FmtSt) (p : List UInt8) : Option FmtSt :=
  let n := st.2.2 - p.length
  if n > 0 then (pokes st.1 st.2.1 (p.map sanChar ++ [0])).map fun b => (b, st.2.1 + p.length, n) else some (st.1, st.2.1, n)

/-- `snprintf`, and sanitizing if `san`, src/server-obj.c:366-376 and 380-387. -/
def putPrint (st : FmtSt) (san : Bool) (s : List UInt8) : Option FmtSt :=
  (snprintf st.1 st.2.1 st.2.2.toNat s).bind fun r =>
    if (r.2 : Int) ≥ st.2.2 then some (r.1, st.2.1, 0)
    else (if san then pokes r.1 st.2.1 (s.map sanChar) else some r.1).map fun b => (b, st.2.1 + r.2, st.2.2 - r.2)

/-- `strftime`, src/server-obj.c:404-410: returns 0 if the text and its NUL do not fit.  What it leaves in the buffer then is not used and not
modelled. -/
def putTime (st : FmtSt) (s : List UInt8) : Option FmtSt :=
  if (s.length : Int) + 1 ≤ st.2.2 ∧ s ≠ [] then (pokes st.1 st.2.1 (s ++ [0])).map fun b => (b, st.2.1 + s.length, st.2.2 - s.length)
  else some (st.1, st.2.1, 0)

/-- An unknown specifier, src/server-obj.c:415-419. -/
def putBoth (st : FmtSt) (c : UInt8) : Option FmtSt :=
  let n := st.2.2 - 2
  if n > 0 then (pokes st.1 st.2.1 [0x25, c]).map fun b => (b, st.2.1 + 2, n) else some (st.1, st.2.1, n)

/-- The `switch` on the specifier, src/server-obj.c:338-421. -/
def fmtSpec (o : Option FObj) (pid : Int) (tm : UInt8 → List UInt8) (st : FmtSt) (c : UInt8) : Option FmtSt :=
  if c = 0x4E then match o with
    | none => putBoth st c
    | some o => if o.console then putCopy st o.name else some st
  else if c = 0x44 then match o with
    | none => putBoth st c
    | some o => match o.dev with
      | .path dev => putCopy st (afterSlash dev)
      | .telnet host port => putPrint st true (host ++ 0x3A :: decInt port)
      | .other => some st
  else if c = 0x50 then putPrint st false (decInt pid)
  else if c ∈ timeLetters then putTime st (tm c)
  else if c = 0x25 then putChar st c
  else putBoth st c

/-- The loop, src/server-obj.c:331-423, on the rest of the format.  After a `%` that is the last character `psrc` points behind the terminator, which
the next evaluation of the loop condition reads. -/
def fmtLoop (o : Option FObj) (pid : Int) (tm : UInt8 → List UInt8) (st : FmtSt) : List UInt8 → Option FmtSt
  | [] => some st
  | [c] => if st.2.2 > 0 then (if c ≠ 0x25 then putChar st c else none) else some st
  | c :: c2 :: s =>
    if st.2.2 > 0 then
      (if c ≠ 0x25 then (putChar st c).bind fun st => fmtLoop o pid tm st (c2 :: s) else (fmtSpec o pid tm st c2).bind fun st => fmtLoop o pid tm st s)
    else some st

/-- `format_obj_string`, src/server-obj.c:301-430: the buffer and the result. -/
def formatObj (buf : List UInt8) (o : Option FObj) (pid : Int) (tm : UInt8 → List UInt8) (fmt : List UInt8) : Option (List UInt8 × Int) :=
  (fmtLoop o pid tm (buf, 0, buf.length) fmt).bind fun st => (poke st.1 st.2.1 0).map fun b => (b, if st.2.2 ≤ 0 then -1 else (st.2.1 : Int))

end Conman

namespace Conman

/-- A console with the log file name given for it in the configuration. -/
structure LogReq where
  con : FObj
  name : List UInt8
deriving DecidableEq, Repr

/-- The name a new log file is compared by, src/server-logfile.c:132-138.  The content of the uninitialised `buf` does not matter (property C41). -/
def logPname (pid : Int) (tm : UInt8 → List UInt8) (l : LogReq) : Option (List UInt8) :=
  if 0x25 ∈ l.name then
    (formatObj (List.replicate maxLine 0) (some l.con) pid tm l.name).bind fun r => if r.2 ≥ 0 then cstr r.1 else some l.name
  else some l.name

/-- The check for duplicates of `create_logfile_obj`, src/server-logfile.c:132-159: the names of the log file objects that exist, in which conversion
specifiers are not expanded before the files are opened, and the new one.  `some none`: refused. -/
def createLog (pid : Int) (tm : UInt8 → List UInt8) (have_ : List LogReq) (l : LogReq) : Option (Option (List LogReq)) :=
  (logPname pid tm l).map fun p => if have_.any (fun k => k.name = p) then none else some (have_ ++ [l])

/-- The name a log file is opened by, src/server-logfile.c:252-268: `some none` if the expansion is too long. -/
def openName (pid : Int) (tm : UInt8 → List UInt8) (l : LogReq) : Option (Option (List UInt8)) :=
  if 0x25 ∈ l.name then
    (formatObj (List.replicate maxLine 0) (some l.con) pid tm l.name).bind fun r => if r.2 < 0 then some none else (cstr r.1).map some
  else some (some l.name)

/-- Log files requested one after the other; those refused are left out (the console goes without a log). -/
def createLogs (pid : Int) (tm : UInt8 → List UInt8) : List LogReq → List LogReq → Option (List LogReq)
  | have_, [] => some have_
  | have_, l :: ls => (createLog pid tm have_ l).bind fun r => createLogs pid tm (r.getD have_) ls

end Conman
