import Verif.Spec.Opts

/-
IPMI options.
-/
namespace Conman

/-- Options of an IPMI console.  Name and password are C strings; the key is its `kgLen` bytes. -/
structure IpmiOpt where
  user : List UInt8
  userSet : Bool
  password : List UInt8
  passwordSet : Bool
  kg : List UInt8
  kgSet : Bool
  priv : Int
  cipher : Int
  workaround : UInt32
deriving DecidableEq, Repr

/-- What comes from the IPMI library: lengths, checks of values (arguments are `int` and `unsigned int`), constants. -/
structure IpmiLib where
  maxUser : Nat
  maxPassword : Nat
  maxKg : Nat
  userOk : List UInt8 → Bool
  passwordOk : List UInt8 → Bool
  kgOk : List UInt8 → Bool
  privOk : Int → Bool
  cipherOk : Int → Bool
  workaroundOk : UInt32 → Bool
  privUser : Int
  privOp : Int
  privAdmin : Int
  wDefault : UInt32
  /-- flags in the order of `Spec.flagNames` -/
  wFlag : Nat → UInt32

namespace Spec

/-- Bytes written in hexadecimal; the last digit of an odd number of digits is the upper half of a byte. -/
def pack : List UInt8 → List UInt8
  | [] => []
  | [a] => [UInt8.ofNat (16 * hexVal a)]
  | a :: b :: r => UInt8.ofNat (16 * hexVal a + hexVal b) :: pack r

/-- The text is `0x` and hexadecimal digits. -/
def HexText (s : List UInt8) : Prop := ∃ x ds, s = 0x30 :: x :: ds ∧ (x = 0x78 ∨ x = 0x58) ∧ ∀ c ∈ ds, hexDigit c

/-- The bytes meant by a key. -/
inductive KeyText : List UInt8 → List UInt8 → Prop
  | hex (x : UInt8) (ds : List UInt8) (hx : x = 0x78 ∨ x = 0x58) (h : ∀ c ∈ ds, hexDigit c) : KeyText (0x30 :: x :: ds) (pack ds)
  | text (s : List UInt8) (h : ¬ HexText s) : KeyText s s

/-- A number with blanks and a sign before it. -/
inductive IntText : List UInt8 → Int → Prop
  | pos (a sg body : List UInt8) (n : Nat) (ha : ∀ c ∈ a, blankChar c) (hs : sg = [] ∨ sg = [0x2B]) (h : CNum body n) : IntText (a ++ (sg ++ body)) n
  | neg (a body : List UInt8) (n : Nat) (ha : ∀ c ∈ a, blankChar c) (h : CNum body n) : IntText (a ++ 0x2D :: body) (-n)

/-- `int` from `long`. -/
def wrapInt (z : Int) : Int := (z + 2147483648) % 4294967296 - 2147483648

/-- The names of workarounds. -/
def flagNames : List (List UInt8) :=
  [bs "authcap", bs "intel20", bs "supermicro20", bs "sun20", bs "opensesspriv", bs "integritycheckvalue", bs "nochecksumcheck", bs "serialalertsdeferred",
   bs "solpacketseq", bs "solpayloadsize", bs "solport", bs "solstatus", bs "solchannelsupport"]

/-- Words that are not numbers. -/
def privNames : List (List UInt8) := [bs "user", bs "op", bs "operator", bs "admin", bs "administrator"]

/-- The value of a privilege level. -/
inductive PrivText (lib : IpmiLib) : List UInt8 → Int → Prop
  | none : PrivText lib [] (-1)
  | user {s : List UInt8} (h : sameName s (bs "user")) : PrivText lib s lib.privUser
  | op {s : List UInt8} (h : sameName s (bs "op") ∨ sameName s (bs "operator")) : PrivText lib s lib.privOp
  | admin {s : List UInt8} (h : sameName s (bs "admin") ∨ sameName s (bs "administrator")) : PrivText lib s lib.privAdmin
  | num {s : List UInt8} {z : Int} (h : IntText s z) (h1 : -9223372036854775808 ≤ z) (h2 : z ≤ 9223372036854775807) (hv : lib.privOk (wrapInt z) = true) :
      PrivText lib s (wrapInt z)

/-- The value of a cipher suite. -/
inductive CipherText (lib : IpmiLib) : List UInt8 → Int → Prop
  | none : CipherText lib [] (-1)
  | num {s : List UInt8} {z : Int} (h : IntText s z) (h1 : -9223372036854775808 ≤ z) (h2 : z ≤ 9223372036854775807) (hv : lib.cipherOk (wrapInt z) = true) :
      CipherText lib s (wrapInt z)

/-- The flag named by a workaround. -/
inductive FlagText (lib : IpmiLib) : List UInt8 → UInt32 → Prop
  | none : FlagText lib [] lib.wDefault
  | default {s : List UInt8} (h : sameName s (bs "default")) : FlagText lib s lib.wDefault
  | name {s w : List UInt8} (i : Nat) (hi : flagNames[i]? = some w) (h : sameName s w) : FlagText lib s (lib.wFlag i)
  | off {s : List UInt8} (h : sameName s (bs "none")) : FlagText lib s 0
  | num {s : List UInt8} {z : Int} (h : IntText s z) (h1 : -18446744073709551615 ≤ z) (h2 : z ≤ 18446744073709551615)
      (hv : lib.workaroundOk (UInt32.ofNat (z % 4294967296).toNat) = true) : FlagText lib s (UInt32.ofNat (z % 4294967296).toNat)

/-- Flags add up, except that "none" and the default replace, and the default is replaced. -/
def addFlag (lib : IpmiLib) (cur flag : UInt32) : UInt32 := if flag = 0 ∨ flag = lib.wDefault ∨ cur = lib.wDefault then flag else cur ||| flag

/-- The effect of one value. -/
inductive SetUser (lib : IpmiLib) (o : IpmiOpt) : List UInt8 → IpmiOpt → Prop
  | mk (s : List UInt8) (h1 : s.length ≤ lib.maxUser) (h2 : s = [] ∨ lib.userOk s = true) : SetUser lib o s { o with user := s, userSet := true }

inductive SetPassword (lib : IpmiLib) (o : IpmiOpt) : List UInt8 → IpmiOpt → Prop
  | none : SetPassword lib o [] { o with password := [], passwordSet := true }
  | key (s k : List UInt8) (hne : s ≠ []) (hk : KeyText s k) (h1 : k.length ≤ lib.maxPassword) (h2 : lib.passwordOk (k.takeWhile (· ≠ 0)) = true) :
      SetPassword lib o s { o with password := k.takeWhile (· ≠ 0), passwordSet := true }

inductive SetKg (lib : IpmiLib) (o : IpmiOpt) : List UInt8 → IpmiOpt → Prop
  | none : SetKg lib o [] { o with kg := [], kgSet := true }
  | key (s k : List UInt8) (hne : s ≠ []) (hk : KeyText s k) (h1 : k.length ≤ lib.maxKg) (h2 : lib.kgOk k = true) : SetKg lib o s { o with kg := k, kgSet := true }

inductive SetFlag (lib : IpmiLib) (o : IpmiOpt) : List UInt8 → IpmiOpt → Prop
  | mk (s : List UInt8) (f : UInt32) (h : FlagText lib s f) : SetFlag lib o s { o with workaround := addFlag lib o.workaround f }

/-- One option, a letter and a value. -/
inductive IpmiWord (lib : IpmiLib) (o : IpmiOpt) : List UInt8 → IpmiOpt → Prop
  | user (c : UInt8) (s : List UInt8) (o' : IpmiOpt) (hc : c = 0x55 ∨ c = 0x75) (h : SetUser lib o s o') : IpmiWord lib o (c :: 0x3A :: s) o'
  | password (c : UInt8) (s : List UInt8) (o' : IpmiOpt) (hc : c = 0x50 ∨ c = 0x70) (h : SetPassword lib o s o') : IpmiWord lib o (c :: 0x3A :: s) o'
  | kg (c : UInt8) (s : List UInt8) (o' : IpmiOpt) (hc : c = 0x4B ∨ c = 0x6B) (h : SetKg lib o s o') : IpmiWord lib o (c :: 0x3A :: s) o'
  | priv (c : UInt8) (s : List UInt8) (z : Int) (hc : c = 0x4C ∨ c = 0x6C) (h : PrivText lib s z) : IpmiWord lib o (c :: 0x3A :: s) { o with priv := z }
  | cipher (c : UInt8) (s : List UInt8) (z : Int) (hc : c = 0x43 ∨ c = 0x63) (h : CipherText lib s z) : IpmiWord lib o (c :: 0x3A :: s) { o with cipher := z }
  | flag (c : UInt8) (s : List UInt8) (o' : IpmiOpt) (hc : c = 0x57 ∨ c = 0x77) (h : SetFlag lib o s o') : IpmiWord lib o (c :: 0x3A :: s) o'

/-- Options one after the other. -/
inductive Steps {α : Type} (step : α → List UInt8 → α → Prop) : α → List (List UInt8) → α → Prop
  | nil (o : α) : Steps step o [] o
  | cons {o o1 o2 : α} {w : List UInt8} {ws : List (List UInt8)} (h : step o w o1) (hs : Steps step o1 ws o2) : Steps step o (w :: ws) o2

/-- In the old form, "-" stands for nothing. -/
def dash (w : List UInt8) : List UInt8 := if w = [0x2D] then [] else w

/-- The old form: name, password, key, workarounds. -/
inductive OldForm (lib : IpmiLib) (o : IpmiOpt) : List (List UInt8) → IpmiOpt → Prop
  | none : OldForm lib o [] o
  | user {u : List UInt8} {o1 : IpmiOpt} (h1 : SetUser lib o (dash u) o1) : OldForm lib o [u] o1
  | password {u p : List UInt8} {o1 o2 : IpmiOpt} (h1 : SetUser lib o (dash u) o1) (h2 : SetPassword lib o1 (dash p) o2) : OldForm lib o [u, p] o2
  | full {u p k : List UInt8} {o1 o2 o3 o4 : IpmiOpt} {ws : List (List UInt8)} (h1 : SetUser lib o (dash u) o1) (h2 : SetPassword lib o1 (dash p) o2)
      (h3 : SetKg lib o2 (dash k) o3) (h4 : Steps (fun o w o' => SetFlag lib o (dash w) o') o3 ws o4) : OldForm lib o (u :: p :: k :: ws) o4

end Spec
end Conman
