import Verif.Spec.HostEnt
import Verif.Model.CStr
import Verif.Model.Time

/-
Copies of host entries, src/util-net.c:60-273.

* Memory is an array of bytes at the address `base`; `none` is an access outside of it.  Pointers have 8 bytes, `int` 4 bytes, the least significant first, and the
  members of `struct hostent` are at offsets 0 (`h_name`), 8 (`h_aliases`), 16 (`h_addrtype`), 20 (`h_length`) and 24 (`h_addr_list`), as in glibc on x86-64.
* The source is given by what it stands for.  Names of 2^31 - 1 bytes and more are not considered (`none`).
* The resolver is an input.  The mutex, `errno` and `h_errno` are left out.
-/
namespace Conman

open Spec (HostEnt leVal)

/-- `k` bytes of a number, the least significant first. -/
def leBytes : Nat → Nat → List UInt8
  | 0, _ => []
  | k + 1, v => UInt8.ofNat (v % 256) :: leBytes k (v / 256)

/-- Copying of addresses, src/util-net.c:241-248: the rest of them, memory, offset of the pointer to be set, offset of free space, size of free space.  The
inner `none` is the result -1. -/
def copyAddrs (base hlen : Nat) : List (List UInt8) → List UInt8 → Nat → Nat → Int → Option (List UInt8 × Option (Nat × Int))
  | [], m, q, buf, len => (pokes m q (leBytes 8 0)).map fun m => (m, some (buf, len))
  | a :: as, m, q, buf, len =>
    if len - hlen < 0 then some (m, none)
    else (pokes m buf (a.take hlen)).bind fun m => (pokes m q (leBytes 8 (base + buf))).bind fun m => copyAddrs base hlen as m (q + 8) (buf + hlen) (len - hlen)

/-- Copying of aliases, src/util-net.c:252-259. -/
def copyNames (base : Nat) : List (List UInt8) → List UInt8 → Nat → Nat → Int → Option (List UInt8 × Option (Nat × Int))
  | [], m, q, buf, len => (pokes m q (leBytes 8 0)).map fun m => (m, some (buf, len))
  | a :: as, m, q, buf, len =>
    (strlcpy m buf a len.toNat).bind fun r =>
      if r.2 ≥ 2147483647 then none
      else (pokes r.1 q (leBytes 8 (base + buf))).bind fun m =>
        if len - (r.2 + 1 : Nat) < 0 then some (m, none) else copyNames base as m (q + 8) (buf + (r.2 + 1)) (len - (r.2 + 1 : Nat))

/-- `copy_hostent`, src/util-net.c:200-272: the memory and whether the result is 0.  The subtractions of sizes are done in `unsigned long`, and the result is
converted to `int`. -/
def copyHostent (base : Nat) (src : HostEnt) (m : List UInt8) : Option (List UInt8 × Bool) :=
  let len := toInt32 (m.length - 32)
  if len < 0 then some (m, false)
  else
    (pokes m 16 (leBytes 4 src.addrtype)).bind fun m => (pokes m 20 (leBytes 4 src.length)).bind fun m =>
    (pokes m 8 (leBytes 8 (base + 32))).bind fun m =>
    let len := toInt32 (len - 8 * (src.aliases.length + 1))
    if len < 0 then some (m, false)
    else
      let buf := 32 + 8 * (src.aliases.length + 1)
      (pokes m 24 (leBytes 8 (base + buf))).bind fun m =>
      let len := toInt32 (len - 8 * (src.addrs.length + 1))
      if len < 0 then some (m, false)
      else (copyAddrs base src.length src.addrs m buf (buf + 8 * (src.addrs.length + 1)) len).bind fun r =>
        match r.2 with
        | none => some (r.1, false)
        | some (b, len) => (copyNames base src.aliases r.1 32 b len).bind fun r =>
          match r.2 with
          | none => some (r.1, false)
          | some (b, len) =>
            (pokes r.1 0 (leBytes 8 (base + b))).bind fun m => (strlcpy m b src.name len.toNat).bind fun r =>
              if r.2 ≥ 2147483647 then none else some (r.1, decide (len - (r.2 + 1 : Nat) ≥ 0))

/-- `get_host_by_name` and `get_host_by_addr`, src/util-net.c:60-110, with what the resolver gives: the memory, and whether a host entry is in it. -/
def getHost (base : Nat) (found : Option HostEnt) (m : List UInt8) : Option (List UInt8 × Bool) :=
  match found with
  | none => some (m, false)
  | some h => copyHostent base h m

/-- A number of `k` bytes at an offset. -/
def readNum (k : Nat) (m : List UInt8) (i : Nat) : Option Nat := if i + k ≤ m.length then some (leVal ((m.drop i).take k)) else none

/-- The offset a pointer points to. -/
def readPtr (base : Nat) (m : List UInt8) (i : Nat) : Option Nat := (readNum 8 m i).bind fun p => if base ≤ p then some (p - base) else none

/-- `n` bytes at an offset. -/
def readBytes (m : List UInt8) (i n : Nat) : Option (List UInt8) := if i + n ≤ m.length then some ((m.drop i).take n) else none

/-- `hptr->h_addr_list[0]` and `hptr->h_length`: `h_length` bytes of the first address. -/
def firstAddr (base : Nat) (m : List UInt8) : Option (List UInt8) :=
  (readNum 4 m 20).bind fun n => (readPtr base m 24).bind fun t => (readPtr base m t).bind fun a => readBytes m a n

/-- `hptr->h_name`. -/
def hostName (base : Nat) (m : List UInt8) : Option (List UInt8) := (readPtr base m 0).bind fun t => if t ≤ m.length then cstr (m.drop t) else none

/-- `host_name_to_addr4`, src/util-net.c:129-146, for the array `addr` of 4 bytes and the stack buffer `m`: the address and whether the result is 0. -/
def nameToAddr4 (base : Nat) (found : Option HostEnt) (m addr : List UInt8) : Option (List UInt8 × Bool) :=
  (getHost base found m).bind fun r =>
    if r.2 = false then some (addr, false)
    else (readNum 4 r.1 20).bind fun n =>
      if n > 4 then some (addr, false)
      else (firstAddr base r.1).bind fun a => (pokes addr 0 a).map fun addr => (addr, true)

/-- Storing of a name, for instance src/util-net.c:159-165: `strncpy` fills up with NULs. -/
def putName (name dst : List UInt8) (dstlen : Int) : Option (List UInt8 × Bool) :=
  if dstlen ≤ 0 ∨ (name.length : Int) ≥ dstlen then some (dst, false)
  else ((pokes dst 0 (name ++ List.replicate (dstlen.toNat - name.length) 0)).bind fun d => poke d (dstlen.toNat - 1) 0).map fun d => (d, true)

/-- `host_addr4_to_name`, src/util-net.c:149-166, `found` for the address. -/
def addr4ToName (base : Nat) (found : Option HostEnt) (m dst : List UInt8) (dstlen : Int) : Option (List UInt8 × Bool) :=
  (getHost base found m).bind fun r =>
    if r.2 = false then some (dst, false) else (hostName base r.1).bind fun name => putName name dst dstlen

/-- `host_name_to_cname`, src/util-net.c:169-197, with a resolver of addresses.  The length of the address is not checked against that of `addr`; bytes that are not
set are not considered (`none`). -/
def nameToCname (base : Nat) (found : Option HostEnt) (byAddr : List UInt8 → Option HostEnt) (m dst : List UInt8) (dstlen : Int) : Option (List UInt8 × Bool) :=
  (getHost base found m).bind fun r =>
    if r.2 = false then some (dst, false)
    else (firstAddr base r.1).bind fun a =>
      if a.length ≠ 4 then none
      else addr4ToName base (byAddr a) r.1 dst dstlen

end Conman
