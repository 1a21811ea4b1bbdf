import Verif.Spec.Device
import Verif.Model.Opts

/-
Device strings: src/server-unixsock.c:57-81, src/server-telnet.c:63-91, src/server-serial.c:95-119, src/server-process.c:59-143, src/server-ipmi.c:131-153,
src/server-test.c:58-63, and the choice among them, src/server-conf.c:822-917 (built with the IPMI library).

Names are copied by `snprintf` and `strlcpy` with the sizes of the arrays (PATH_MAX is 4096), so only the lengths are modelled.  The working directory of
the daemon is known (`conf->cwd` is not NULL).  `none` is a number that does not fit an `int`.
-/
namespace Conman

/-- `strncasecmp (dev, prefix, strlen (prefix)) == 0`. -/
def hasPrefix (pre dev : List UInt8) : Bool := strcasecmp (dev.take pre.length) pre = 0

/-- A relative name, src/server-unixsock.c:72-78 and the like; `none` if it does not fit. -/
def absName (cwd dev : List UInt8) : Option (List UInt8) :=
  if dev.head? ≠ some 0x2F then (if (cwd ++ 0x2F :: dev).length ≥ 4096 then none else some (cwd ++ 0x2F :: dev)) else some dev

/-- `is_unixsock_dev`, src/server-unixsock.c:57-81. -/
def isUnixDev (cwd dev : List UInt8) : Option (List UInt8) :=
  if hasPrefix (bs "unix:") dev = false then none
  else if dev.drop 5 = [] then none
  else absName cwd (dev.drop 5)

/-- `is_telnet_dev`, src/server-telnet.c:63-91; the inner `none` is a device that is not for telnet. -/
def isTelnetDev (dev : List UInt8) : Option (Option (List UInt8 × Int)) :=
  if dev.length ≥ maxLine then some none
  else if 0x3A ∉ dev then some none
  else
    let p := dev.dropWhile (· ≠ 0x3A)
    let n := ((p.drop 1).takeWhile isDigit).length
    if n = 0 then some none
    else if (p.drop (n + 1)) ≠ [] then some none
    else (atoi (p.drop 1)).map fun port => some (dev.takeWhile (· ≠ 0x3A), port)

/-- `is_serial_dev`, src/server-serial.c:95-119. -/
def isSerialDev (fs : Fs) (cwd dev : List UInt8) : Option (List UInt8) :=
  (absName cwd dev).bind fun d => if fs.kind d = some .charDev then some d else none

/-- One directory in `search_exec_path`, src/server-process.c:124-142. -/
def tryDir (fs : Fs) (src p : List UInt8) : Option (List UInt8) :=
  if fs.kind p ≠ some .directory then none
  else if (p ++ 0x2F :: src).length ≥ 4096 then none
  else if fs.exec (p ++ 0x2F :: src) = false then none
  else some (p ++ 0x2F :: src)

/-- The loop of `search_exec_path`, src/server-process.c:117-143: `cur` is the part of the current directory's name already read. -/
def execLoop (fs : Fs) (src cur : List UInt8) : List UInt8 → Option (List UInt8)
  | [] => if cur = [] then none else tryDir fs src cur
  | c :: p => if c = 0x3A then (match tryDir fs src cur with
      | some f => some f
      | none => execLoop fs src [] p) else execLoop fs src (cur ++ [c]) p

/-- `search_exec_path`, src/server-process.c:95-144; `none` if nothing is found. -/
def searchExec (fs : Fs) (path : Option (List UInt8)) (src : List UInt8) : Option (List UInt8) :=
  match path with
  | none => none
  | some path => if path.length ≥ 4096 then none else execLoop fs src [] path

/-- `is_process_dev`, src/server-process.c:59-92. -/
def isProcessDev (fs : Fs) (cwd : List UInt8) (path : Option (List UInt8)) (dev : List UInt8) : Option (List UInt8) :=
  (match (if 0x2F ∈ dev then none else searchExec fs path dev) with
    | some d => some d
    | none => absName cwd dev).bind fun d => if fs.kind d ≠ some FileKind.regular then none else if fs.exec d = false then none else some d

/-- `is_ipmi_dev`, src/server-ipmi.c:131-153. -/
def isIpmiDev (dev : List UInt8) : Option (List UInt8) :=
  if hasPrefix (bs "ipmi:") dev = false then none else if dev.drop 5 = [] then none else some (dev.drop 5)

/-- The choice of the kind, src/server-conf.c:822-917. -/
def devKind (fs : Fs) (cwd : List UInt8) (path : Option (List UInt8)) (dev : List UInt8) : Option Dev :=
  match isUnixDev cwd dev with
  | some p => some (.unixsock p)
  | none => (isTelnetDev dev).map fun r =>
    match r with
    | some (h, n) => .telnet h n
    | none => match isSerialDev fs cwd dev with
      | some p => .serial p
      | none => match isProcessDev fs cwd path dev with
        | some p => .process p
        | none => match isIpmiDev dev with
          | some h => .ipmi h
          | none => if strcasecmp dev (bs "test:") = 0 then .test else .unknown

/-- The port number used for connections: numbers that are not positive are refused by `create_telnet_obj`, src/server-telnet.c:110-116, and `htons` at
src/server-telnet.c:197 takes 16 bits. -/
def telnetPort (port : Int) : Option Int := if port ≤ 0 then none else some (port % 65536)

end Conman
