import Verif.Spec.Ipmi
import Verif.Model.Opts

/-
IPMI options: src/server-ipmi.c:172-711.

`none` of the outer type is an access outside an array; a refused option is `some none`.  Error messages are not modelled.  All optional workarounds
(src/server-ipmi.c:588-616) are taken to be defined.
-/
namespace Conman
open Spec (commaSep)

/-- `toint`, src/util-str.c:440-456. -/
def toInt (c : UInt8) : UInt8 :=
  if 0x30 ≤ c ∧ c ≤ 0x39 then c - 0x30 else if 0x41 ≤ c ∧ c ≤ 0x46 then c - 0x41 + 10 else if 0x61 ≤ c ∧ c ≤ 0x66 then c - 0x61 + 10 else 0

/-- Characters of `hexdigits`, src/server-ipmi.c:671. -/
def isHex (c : UInt8) : Bool := c ∈ bs "0123456789ABCDEFabcdef"

/-- The loop of `parse_key`, src/server-ipmi.c:689-697: `e` is `dstend - dst`; `even` says whether `p - src` is even.  Result: array, `n`, rest. -/
def keyLoop (e : Nat) : List UInt8 → Bool → List UInt8 → Nat → Nat → Option (List UInt8 × Nat × List UInt8)
  | [], _, dst, _, n => some (dst, n, [])
  | c :: p, even, dst, q, n =>
    if q < e then
      (if even then (poke dst q ((toInt c <<< 4) &&& 0xF0)).bind fun dst => keyLoop e p false dst q (n + 1)
      else (dst[q]?).bind fun b => (poke dst q (b ||| (toInt c &&& 0x0F))).bind fun dst => keyLoop e p true dst (q + 1) n)
    else some (dst, n, c :: p)

/-- `parse_key`, src/server-ipmi.c:658-711: array and result; the size of the array is `dstlen`. -/
def parseKey (dst src : List UInt8) : Option (List UInt8 × Int) :=
  if dst.length = 0 then some (dst, -1)
  else if src.head? = some 0x30 ∧ ((src.drop 1).head? = some 0x78 ∨ (src.drop 1).head? = some 0x58) ∧ ((src.drop 2).takeWhile isHex).length = (src.drop 2).length then
    (keyLoop (dst.length - 1) (src.drop 2) true dst 0 0).bind fun r => (poke r.1 r.2.1 0).map fun dst => (dst, if r.2.2 ≠ [] then -1 else (r.2.1 : Int))
  else (strlcpy dst 0 src dst.length).map fun r => (r.1, if r.2 ≥ dst.length then -1 else (r.2 : Int))

/-- `process_ipmi_opt_username`, src/server-ipmi.c:344-380. -/
def ipmiUser (lib : IpmiLib) (o : IpmiOpt) (s : List UInt8) : Option (Option IpmiOpt) :=
  if s = [] then some (some { o with user := [], userSet := true })
  else (strlcpy (List.replicate (lib.maxUser + 1) 0) 0 s (lib.maxUser + 1)).bind fun r =>
    if r.2 ≥ lib.maxUser + 1 then some none
    else (cstr r.1).map fun u => if lib.userOk u = false then none else some { o with user := u, userSet := true }

/-- `process_ipmi_opt_password`, src/server-ipmi.c:383-419. -/
def ipmiPassword (lib : IpmiLib) (o : IpmiOpt) (s : List UInt8) : Option (Option IpmiOpt) :=
  if s = [] then some (some { o with password := [], passwordSet := true })
  else (parseKey (List.replicate (lib.maxPassword + 1) 0) s).bind fun r =>
    if r.2 < 0 then some none
    else (cstr r.1).map fun u => if lib.passwordOk u = false then none else some { o with password := u, passwordSet := true }

/-- `process_ipmi_opt_k_g`, src/server-ipmi.c:422-460. -/
def ipmiKg (lib : IpmiLib) (o : IpmiOpt) (s : List UInt8) : Option (Option IpmiOpt) :=
  if s = [] then some (some { o with kg := [], kgSet := true })
  else (parseKey (List.replicate (lib.maxKg + 1) 0) s).map fun r =>
    if r.2 < 0 then none
    else if lib.kgOk (r.1.take r.2.toNat) = false then none else some { o with kg := r.1.take r.2.toNat, kgSet := true }

/-- Conversion of `long` to `int`. -/
def longInt (z : Int) : Int := (z + 2147483648) % 4294967296 - 2147483648

/-- `process_ipmi_opt_privilege`, src/server-ipmi.c:463-510. -/
def ipmiPriv (lib : IpmiLib) (o : IpmiOpt) (s : List UInt8) : Option IpmiOpt :=
  if s = [] then some { o with priv := -1 }
  else if strcasecmp s (bs "user") = 0 then some { o with priv := lib.privUser }
  else if strcasecmp s (bs "op") = 0 ∨ strcasecmp s (bs "operator") = 0 then some { o with priv := lib.privOp }
  else if strcasecmp s (bs "admin") = 0 ∨ strcasecmp s (bs "administrator") = 0 then some { o with priv := lib.privAdmin }
  else
    let r := strtol s
    if r.2.1 ≠ [] ∨ r.2.2 = true then none
    else if lib.privOk (longInt r.1) = false then none
    else some { o with priv := longInt r.1 }

/-- `process_ipmi_opt_cipher`, src/server-ipmi.c:513-551. -/
def ipmiCipher (lib : IpmiLib) (o : IpmiOpt) (s : List UInt8) : Option IpmiOpt :=
  if s = [] then some { o with cipher := -1 }
  else
    let r := strtol s
    if r.2.1 ≠ [] ∨ r.2.2 = true then none
    else if lib.cipherOk (longInt r.1) = false then none
    else some { o with cipher := longInt r.1 }

/-- `strtoul (p, &endp, 0)` (C library, 64-bit `unsigned long`) after white space and sign. -/
def strtoulBody (p : List UInt8) (neg : Bool) (s : List UInt8) : Nat × List UInt8 × Bool :=
  let b := (numBase s).1
  let s := (numBase s).2
  let ds := s.takeWhile (fun c => digitOf c < b)
  if ds = [] then (0, p, false)
  else
    let v := ds.foldl (fun a c => b * a + digitOf c) 0
    let rest := s.dropWhile (fun c => digitOf c < b)
    if v > 18446744073709551615 then (18446744073709551615, rest, true)
    else if neg then ((18446744073709551616 - v) % 18446744073709551616, rest, false)
    else (v, rest, false)

def strtoul (p : List UInt8) : Nat × List UInt8 × Bool :=
  match p.dropWhile isSpace with
  | 0x2D :: s => strtoulBody p true s
  | 0x2B :: s => strtoulBody p false s
  | s => strtoulBody p false s

/-- The chain of comparisons, src/server-ipmi.c:570-616: the index of the name. -/
def flagIndex (s : List UInt8) : List (List UInt8) → Nat → Option Nat
  | [], _ => none
  | w :: ws, i => if strcasecmp s w = 0 then some i else flagIndex s ws (i + 1)

/-- The names in the order of the comparisons, src/server-ipmi.c:570-616; the flag of the name with index `i` is `lib.wFlag i`. -/
def flagTable : List (List UInt8) :=
  [bs "authcap", bs "intel20", bs "supermicro20", bs "sun20", bs "opensesspriv", bs "integritycheckvalue", bs "nochecksumcheck", bs "serialalertsdeferred",
   bs "solpacketseq", bs "solpayloadsize", bs "solport", bs "solstatus", bs "solchannelsupport"]

/-- The flag of `process_ipmi_opt_workaround`, src/server-ipmi.c:567-644. -/
def ipmiFlag (lib : IpmiLib) (s : List UInt8) : Option UInt32 :=
  if s = [] ∨ strcasecmp s (bs "default") = 0 then some lib.wDefault
  else match flagIndex s flagTable 0 with
    | some i => some (lib.wFlag i)
    | none =>
      if strcasecmp s (bs "none") = 0 then some 0
      else
        let r := strtoul s
        let u := UInt32.ofNat (r.1 % 4294967296)
        if r.2.1 ≠ [] ∨ r.2.2 = true then none
        else if lib.workaroundOk u = false then none
        else some u

/-- `process_ipmi_opt_workaround`, src/server-ipmi.c:554-655. -/
def ipmiWorkaround (lib : IpmiLib) (o : IpmiOpt) (s : List UInt8) : Option IpmiOpt :=
  (ipmiFlag lib s).map fun flag =>
    if flag = 0 ∨ flag = lib.wDefault ∨ o.workaround = lib.wDefault then { o with workaround := flag } else { o with workaround := o.workaround ||| flag }

/-- `process_ipmi_opt`, src/server-ipmi.c:275-326, with `is_ipmi_opt_tag`, 329-341. -/
def ipmiOpt (lib : IpmiLib) (o : IpmiOpt) (w : List UInt8) : Option (Option IpmiOpt) :=
  match w with
  | c :: 0x3A :: p =>
    if toLower c = 0x75 then ipmiUser lib o p
    else if toLower c = 0x70 then ipmiPassword lib o p
    else if toLower c = 0x6B then ipmiKg lib o p
    else if toLower c = 0x6C then some (ipmiPriv lib o p)
    else if toLower c = 0x63 then some (ipmiCipher lib o p)
    else if toLower c = 0x77 then some (ipmiWorkaround lib o p)
    else some none
  | _ => some none

/-- A loop over words that stops at the first that is refused, src/server-ipmi.c:209-215 and 263-270. -/
def optLoop (step : IpmiOpt → List UInt8 → Option (Option IpmiOpt)) (o : IpmiOpt) : List (List UInt8) → Option (Option IpmiOpt)
  | [] => some (some o)
  | w :: ws => (step o w).bind fun r => match r with
    | none => some none
    | some o => optLoop step o ws

/-- `if ((tok[0] == '-') && (tok[1] == '\0')) tok++`, src/server-ipmi.c:240-242. -/
def skipDash (w : List UInt8) : List UInt8 := if w = [0x2D] then w.drop 1 else w

/-- Continue unless refused. -/
def andThen (r : Option (Option IpmiOpt)) (f : IpmiOpt → Option (Option IpmiOpt)) : Option (Option IpmiOpt) :=
  r.bind fun r => match r with
    | none => some none
    | some o => f o

/-- `parse_ipmi_opts_v1`, src/server-ipmi.c:222-272, on the words. -/
def ipmiV1 (lib : IpmiLib) (o : IpmiOpt) (ts : List (List UInt8)) : Option (Option IpmiOpt) :=
  match ts with
  | [] => some (some o)
  | u :: ts => andThen (ipmiUser lib o (skipDash u)) fun o =>
    match ts with
    | [] => some (some o)
    | p :: ts => andThen (ipmiPassword lib o (skipDash p)) fun o =>
      match ts with
      | [] => some (some o)
      | k :: ts => andThen (ipmiKg lib o (skipDash k)) fun o => optLoop (fun o w => some (ipmiWorkaround lib o (skipDash w))) o ts

/-- `parse_ipmi_opts`, src/server-ipmi.c:172-219, with its result. -/
def parseIpmiOpts (lib : IpmiLib) (o : IpmiOpt) (s : List UInt8) : Option (IpmiOpt × Int) :=
  if s.length ≥ maxLine then some (o, -1)
  else
    (if s ≠ [] ∧ (s.drop 1).head? ≠ some 0x3A then ipmiV1 lib o (strtokAll commaSep s) else optLoop (ipmiOpt lib) o (strtokAll commaSep s)).map fun r =>
      match r with
      | none => (o, -1)
      | some o' => (o', 0)

end Conman
