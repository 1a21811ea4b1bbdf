import Verif.Model.CStr
import Verif.Spec.Env

/-
The environment of the daemon: `get_sane_env`, src/server.c:419-488.

The allocated block is in two parts: the array of pointers (a pointer is an offset in the other part, or NULL) and the array of bytes.  `none` is an access
outside one of them.  That the allocation succeeds and its size fits an `int` is assumed.
-/
namespace Conman

/-- `getenv` (C library). -/
def getenv (env : List (List UInt8)) (k : List UInt8) : Option (List UInt8) :=
  match env with
  | [] => none
  | s :: env => if s.take (k.length + 1) = k ++ [0x3D] then some (s.drop (k.length + 1)) else getenv env k

/-- `env_restrict`, src/server.c:436-441; `_PATH_STDPATH` is a parameter. -/
def envRestrict (stdpath : List UInt8) : List (List UInt8) := [bs "IFS=" ++ [0x20, 0x09, 0x0A], bs "PATH=" ++ stdpath, bs "TERM=dumb"]

/-- `env_preserve`, src/server.c:442-446. -/
def envPreserve : List (List UInt8) := [bs "DEBUG", bs "TZ"]

/-- One step of the counting loops, src/server.c:450-459. -/
def envCount1 (x : Nat × Nat) (s : List UInt8) : Nat × Nat := (x.1 + 1, x.2 + (s.length + 1))

def envCount2 (env : List (List UInt8)) (x : Nat × Nat) (k : List UInt8) : Nat × Nat :=
  match getenv env k with
  | none => x
  | some v => (x.1 + 1, x.2 + (k.length + v.length + 2))

/-- The counting loops, src/server.c:448-459: `env_num` and `env_len` (without the pointers). -/
def envSize (env restrict preserve : List (List UInt8)) : Nat × Nat :=
  preserve.foldl (envCount2 env) (restrict.foldl envCount1 (1, 0))

structure EnvBlock where
  ptrs : List (Option Nat)
  mem : List UInt8
  ptr : Nat
  num : Nat
deriving DecidableEq, Repr

/-- `env[num++] = p`. -/
def EnvBlock.slot (b : EnvBlock) (p : Option Nat) : Option EnvBlock :=
  if b.num < b.ptrs.length then some { b with ptrs := b.ptrs.set b.num p, num := b.num + 1 } else none

/-- `memcpy (ptr, s, len); ptr += len`. -/
def EnvBlock.copy (b : EnvBlock) (s : List UInt8) : Option EnvBlock := (pokes b.mem b.ptr s).map fun m => { b with mem := m, ptr := b.ptr + s.length }

/-- The loop over `env_restrict`, src/server.c:466-471. -/
def envLoop1 (b : EnvBlock) : List (List UInt8) → Option EnvBlock
  | [] => some b
  | s :: ss => (b.slot (some b.ptr)).bind fun b => (b.copy (s ++ [0])).bind fun b => envLoop1 b ss

/-- The loop over `env_preserve`, src/server.c:472-483. -/
def envLoop2 (env : List (List UInt8)) (b : EnvBlock) : List (List UInt8) → Option EnvBlock
  | [] => some b
  | k :: ks => match getenv env k with
    | none => envLoop2 env b ks
    | some v => (b.slot (some b.ptr)).bind fun b => (b.copy k).bind fun b => (b.copy [0x3D]).bind fun b => (b.copy (v ++ [0])).bind fun b => envLoop2 env b ks

/-- `get_sane_env`, src/server.c:419-488.  `fill` is what `malloc` leaves in the block. -/
def getSaneEnv (stdpath : List UInt8) (env : List (List UInt8)) (fill : UInt8) : Option EnvBlock :=
  let sz := envSize env (envRestrict stdpath) envPreserve
  (envLoop1 ⟨List.replicate sz.1 none, List.replicate sz.2 fill, 0, 0⟩ (envRestrict stdpath)).bind fun b =>
    (envLoop2 env b envPreserve).bind fun b => b.slot none

/-- The strings of an environment: those of the pointers before the first NULL; `none` if there is no NULL or a string is not terminated. -/
def EnvBlock.strings (mem : List UInt8) : List (Option Nat) → Option (List (List UInt8))
  | [] => none
  | none :: _ => some []
  | some p :: ps => (cstr (mem.drop p)).bind fun s => (EnvBlock.strings mem ps).map fun l => s :: l

end Conman
