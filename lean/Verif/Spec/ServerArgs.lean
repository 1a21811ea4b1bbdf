import Verif.Spec.Getopt
import Verif.Spec.Lex
import Verif.Spec.Conf

/-
The command line of the daemon.  (C87)
-/
namespace Conman.Spec

/-- Options without and with an argument. -/
def dFlags : List UInt8 := bs "FhkLqrvVz"
def dArgs : List UInt8 := bs "cpP"

/-- What a word of a command line means. -/
abbrev DWords := GWords dFlags dArgs
/-- Words with an option that does not exist or has no argument. -/
abbrev DBad := GBad dFlags dArgs

/-- Options that print something and end the daemon. -/
def dPrint : List UInt8 := bs "hLV"

/-- Options that send a signal to a running daemon, with it. -/
def dSignal (c : UInt8) : Int := if c = 0x6B then 15 else if c = 0x72 then 1 else 0

/-- A word occurs in a text, in whatever case. -/
def occursIn (w s : List UInt8) : Prop := ∃ a v b : List UInt8, s = a ++ v ++ b ∧ sameName v w

/-- The result of sending a signal. -/
inductive KillRes where
  | ok
  | perm
  | noProc
  | other (reason : List UInt8)
deriving DecidableEq, Repr

/-- Internet addresses. -/
def loopbackAddr : List Nat := [127, 0, 0, 1]
def anyAddr : List Nat := [0, 0, 0, 0]

/-- The number a text begins with, as C reads it: blanks, a sign and digits, each of them if there are any; what follows does not matter. -/
def LeadNum (s : List UInt8) (z : Int) : Prop :=
  ∃ b t r : List UInt8, s = b ++ t ++ r ∧ (∀ c ∈ b, blankByte c = true) ∧ NumText t z ∧
    ∀ c, r.head? = some c → ¬ digit c ∧ (t = [] → blankByte c = false ∧ c ≠ 0x2B ∧ c ≠ 0x2D)

/-- Options with which the daemon goes on: none of them prints something, and ports are numbers that fit an `int` and are not negative. -/
def DGo (os : List COpt) : Prop :=
  (∀ c ∈ dPrint, COpt.flag c ∉ os) ∧ ∀ v ∈ argsOf 0x70 os, ∃ z, LeadNum v z ∧ 0 ≤ z ∧ z ≤ 2147483647

end Conman.Spec
