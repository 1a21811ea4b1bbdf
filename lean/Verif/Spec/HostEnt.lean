import Verif.Model.Basic

/-
Host entries (`struct hostent`, netdb(3)) in memory.
-/
namespace Conman.Spec

/-- What a `struct hostent` stands for. -/
structure HostEnt where
  name : List UInt8
  aliases : List (List UInt8)
  addrtype : Nat
  length : Nat
  addrs : List (List UInt8)
deriving DecidableEq, Repr

/-- Names are C strings, and addresses have the given length. -/
structure HostEnt.Ok (h : HostEnt) : Prop where
  name : (0 : UInt8) ∉ h.name
  aliases : ∀ a ∈ h.aliases, (0 : UInt8) ∉ a
  addrs : ∀ a ∈ h.addrs, a.length = h.length
  small : h.addrtype < 4294967296 ∧ h.length < 4294967296

/-- The number of bytes it takes: the structure itself, two arrays of pointers ended by NULL, the addresses, and the names with their NULs. -/
def HostEnt.size (h : HostEnt) : Nat :=
  32 + 8 * (h.aliases.length + 1) + 8 * (h.addrs.length + 1) + h.addrs.length * h.length + (h.aliases.map (fun a => a.length + 1)).sum + (h.name.length + 1)

/-- The bytes `s` are in the memory `m` at offset `i`. -/
def HasAt (m : List UInt8) (i : Nat) (s : List UInt8) : Prop := ∀ k (h : k < s.length), m[i + k]? = some s[k]

/-- The value of bytes, the least significant first. -/
def leVal : List UInt8 → Nat
  | [] => 0
  | b :: s => b.toNat + 256 * leVal s

/-- The number `v` of `k` bytes is at offset `i`. -/
def NumAt (k : Nat) (m : List UInt8) (i v : Nat) : Prop := ∃ s, s.length = k ∧ HasAt m i s ∧ leVal s = v

/-- At offset `i` is an array of pointers to the given texts, ended by NULL; `base` is the address of the memory. -/
def Table (base : Nat) (m : List UInt8) : Nat → List (List UInt8) → Prop
  | i, [] => NumAt 8 m i 0
  | i, s :: r => (∃ t, NumAt 8 m i (base + t) ∧ HasAt m t s) ∧ Table base m (i + 8) r

/-- The memory at the address `base` holds the host entry `h`, all of it inside of this memory, and with the arrays aligned. -/
structure HostAt (base : Nat) (m : List UInt8) (h : HostEnt) : Prop where
  name : ∃ t, NumAt 8 m 0 (base + t) ∧ HasAt m t (h.name ++ [0])
  aliases : ∃ t, t % 8 = 0 ∧ NumAt 8 m 8 (base + t) ∧ Table base m t (h.aliases.map (· ++ [0]))
  addrtype : NumAt 4 m 16 h.addrtype
  length : NumAt 4 m 20 h.length
  addrs : ∃ t, t % 8 = 0 ∧ NumAt 8 m 24 (base + t) ∧ Table base m t h.addrs

end Conman.Spec
