import Verif.Model.Dec
import Verif.Spec.Lex

/-
Option strings: log files, serial devices, test consoles.
-/
namespace Conman

/-- Options of a log file. -/
structure LogOpt where
  lock : Bool
  sanitize : Bool
  timestamp : Bool
deriving DecidableEq, Repr

/-- Options of a serial device; the speed in bits per second (0: hang up). -/
structure SerOpt where
  bps : Nat
  databits : Int
  /-- 0 none, 1 odd, 2 even -/
  parity : Int
  stopbits : Int
deriving DecidableEq, Repr

/-- Options of a test console. -/
structure TestOpt where
  numBytes : Int
  msecMax : Int
  msecMin : Int
  probability : Int
deriving DecidableEq, Repr

namespace Spec

/-- `Toks sep ts s`: the text `s` consists of the words `ts`, with one or more separators between them and any number at both ends. -/
inductive Toks (sep : UInt8 → Bool) : List (List UInt8) → List UInt8 → Prop
  | nil (s : List UInt8) (h : ∀ c ∈ s, sep c = true) : Toks sep [] s
  | cons (a w r : List UInt8) (ha : ∀ c ∈ a, sep c = true) (hw : w ≠ []) (hs : ∀ c ∈ w, sep c = false) (hr : ∀ c, r.head? = some c → sep c = true)
      {ts : List (List UInt8)} (h : Toks sep ts r) : Toks sep (w :: ts) (a ++ w ++ r)

/-- Separators of log options. -/
def logSep (c : UInt8) : Bool := c = 0x20 || c = 0x09 || c = 0x0A || c = 0x2E || c = 0x2C || c = 0x3B

/-- Separator of test options and IPMI options. -/
def commaSep (c : UInt8) : Bool := c = 0x2C

/-- What a list of words says about a feature: the last word that is `x` or `nox`. -/
def lastSays (x : List UInt8) : List (List UInt8) → Option Bool
  | [] => none
  | w :: ws => (lastSays x ws).or (if sameName w x then some true else if sameName w (bs "no" ++ x) then some false else none)

/-- The speeds of serial lines. -/
def speeds : List Nat :=
  [50, 75, 110, 134, 150, 200, 300, 600, 1200, 1800, 2400, 4800, 9600, 19200, 38400, 57600, 115200, 230400, 460800]

/-- Settings a serial line can have. -/
def SerOpt.Valid (o : SerOpt) : Prop :=
  o.bps ∈ speeds ∧ 5 ≤ o.databits ∧ o.databits ≤ 8 ∧ 0 ≤ o.parity ∧ o.parity ≤ 2 ∧ 1 ≤ o.stopbits ∧ o.stopbits ≤ 2

/-- The documented form of serial options: speed, then optionally data bits, parity, stop bits. -/
inductive SerForm where
  | bps (b : Nat)
  | bits (b d : Nat)
  | parity (b d : Nat) (p : UInt8)
  | full (b d : Nat) (p : UInt8) (s : Nat)

/-- How they are written. -/
def SerForm.text : SerForm → List UInt8
  | .bps b => dec b
  | .bits b d => dec b ++ 0x2C :: dec d
  | .parity b d p => dec b ++ 0x2C :: (dec d ++ [p])
  | .full b d p s => dec b ++ 0x2C :: (dec d ++ p :: dec s)

/-- Numbers fit an `int`, and the parity is not a digit. -/
def SerForm.Small : SerForm → Prop
  | .bps b => b ≤ 2147483647
  | .bits b d => b ≤ 2147483647 ∧ d ≤ 2147483647
  | .parity b d p => b ≤ 2147483647 ∧ d ≤ 2147483647 ∧ ¬ digit p
  | .full b d p s => b ≤ 2147483647 ∧ d ≤ 2147483647 ∧ ¬ digit p ∧ s ≤ 2147483647

/-- The number of a parity letter. -/
def parityNo (p : UInt8) : Option Int :=
  if p = 0x4E ∨ p = 0x6E then some 0 else if p = 0x4F ∨ p = 0x6F then some 1 else if p = 0x45 ∨ p = 0x65 then some 2 else none

/-- The highest speed that is not above `b`. -/
def floorSpeed (b : Nat) : Option Nat := (speeds.filter (· ≤ b)).getLast?

/-- The settings meant, starting from `o`; `none` if a value is not allowed. -/
def serBps (o : SerOpt) (b : Nat) : Option SerOpt := (floorSpeed b).map fun v => { o with bps := v }
def serBits (o : SerOpt) (b d : Nat) : Option SerOpt := if 5 ≤ d ∧ d ≤ 8 then (serBps o b).map fun o => { o with databits := d } else none
def serParity (o : SerOpt) (b d : Nat) (p : UInt8) : Option SerOpt := (parityNo p).bind fun n => (serBits o b d).map fun o => { o with parity := n }
def serFull (o : SerOpt) (b d : Nat) (p : UInt8) (s : Nat) : Option SerOpt :=
  if 1 ≤ s ∧ s ≤ 2 then (serParity o b d p).map fun o => { o with stopbits := s } else none

def SerForm.apply (o : SerOpt) : SerForm → Option SerOpt
  | .bps b => serBps o b
  | .bits b d => serBits o b d
  | .parity b d p => serParity o b d p
  | .full b d p s => serFull o b d p s

/-- An option of a test console: bytes per burst, longest and shortest interval, probability. -/
inductive TestSet where
  | bytes (n : Nat) | max (n : Nat) | min (n : Nat) | prob (n : Nat)

def TestSet.num : TestSet → Nat
  | .bytes n | .max n | .min n | .prob n => n

/-- Its letter, of either case. -/
def TestSet.letters : TestSet → List UInt8
  | .bytes _ => [0x42, 0x62]
  | .max _ => [0x4D, 0x6D]
  | .min _ => [0x4E, 0x6E]
  | .prob _ => [0x50, 0x70]

/-- White space, digits in base 8 and 16 and their values. -/
def blankChar (c : UInt8) : Prop := c = 0x20 ∨ (0x09 ≤ c ∧ c ≤ 0x0D)
def octal (c : UInt8) : Prop := 0x30 ≤ c ∧ c ≤ 0x37
def hexDigit (c : UInt8) : Prop := digit c ∨ (0x41 ≤ c ∧ c ≤ 0x46) ∨ (0x61 ≤ c ∧ c ≤ 0x66)
def hexVal (c : UInt8) : Nat := if c ≤ 0x39 then c.toNat - 0x30 else if c ≤ 0x46 then c.toNat - 0x37 else c.toNat - 0x57
def posVal (b : Nat) (ds : List UInt8) : Nat := ds.foldl (fun a c => b * a + hexVal c) 0
instance (c : UInt8) : Decidable (blankChar c) := by unfold blankChar; infer_instance
instance (c : UInt8) : Decidable (octal c) := by unfold octal; infer_instance
instance (c : UInt8) : Decidable (hexDigit c) := by unfold hexDigit; infer_instance

/-- A number as in C: decimal, octal after a zero, hexadecimal after `0x`. -/
inductive CNum : List UInt8 → Nat → Prop
  | dec (ds : List UInt8) (hne : ds ≠ []) (h : ∀ c ∈ ds, digit c) (h0 : ds.head? ≠ some 0x30) : CNum ds (posVal 10 ds)
  | oct (ds : List UInt8) (h : ∀ c ∈ ds, octal c) : CNum (0x30 :: ds) (posVal 8 ds)
  | hex (x : UInt8) (hx : x = 0x78 ∨ x = 0x58) (ds : List UInt8) (hne : ds ≠ []) (h : ∀ c ∈ ds, hexDigit c) : CNum (0x30 :: x :: ds) (posVal 16 ds)

/-- The value of an option: a number, after blanks and a sign; nothing is zero. -/
inductive TestNum : List UInt8 → Nat → Prop
  | none : TestNum [] 0
  | num (a sg body : List UInt8) (n : Nat) (ha : ∀ c ∈ a, blankChar c) (hs : sg = [] ∨ sg = [0x2B]) (h : CNum body n) : TestNum (a ++ (sg ++ body)) n
  | negZero (a body : List UInt8) (ha : ∀ c ∈ a, blankChar c) (h : CNum body 0) : TestNum (a ++ 0x2D :: body) 0

/-- The word `w` is the option `t`. -/
def TestWord (w : List UInt8) (t : TestSet) : Prop := t.num ≤ 2147483647 ∧ ∃ k p, w = k :: 0x3A :: p ∧ k ∈ t.letters ∧ TestNum p t.num

/-- The words `ts` are the options `l`. -/
inductive TestWords : List (List UInt8) → List TestSet → Prop
  | nil : TestWords [] []
  | cons {w : List UInt8} {t : TestSet} {ws : List (List UInt8)} {l : List TestSet} (h : TestWord w t) (hs : TestWords ws l) : TestWords (w :: ws) (t :: l)

def TestSet.apply (o : TestOpt) : TestSet → TestOpt
  | .bytes n => { o with numBytes := n }
  | .max n => { o with msecMax := n }
  | .min n => { o with msecMin := n }
  | .prob n => { o with probability := if n ≤ 100 then n else 100 }

end Spec
end Conman
