import Verif.Model.CStr
import Verif.Model.Lex

/-
Decimal numbers: `%d` for numbers that are not negative, and `atoi`.
-/
namespace Conman

/-- Digits of a number; the first argument bounds their number. -/
def decDigits : Nat → Nat → List UInt8
  | 0, _ => []
  | f + 1, n => if n < 10 then [UInt8.ofNat (0x30 + n)] else decDigits f (n / 10) ++ [UInt8.ofNat (0x30 + n % 10)]

/-- `%d`/`%u` of the C library. -/
def dec (n : Nat) : List UInt8 := decDigits (n + 1) n

/-- `%d` of a number that may be negative. -/
def decInt (n : Int) : List UInt8 := if n < 0 then 0x2D :: dec n.natAbs else dec n.natAbs

/-- `%0wd` (padding with zeros) for numbers that are not negative. -/
def decPad (w n : Nat) : List UInt8 := List.replicate (w - (dec n).length) 0x30 ++ dec n

/-- Value of a sequence of digits. -/
def digitsVal (s : List UInt8) : Nat := s.foldl (fun a c => 10 * a + (c.toNat - 0x30)) 0

/-- `atoi` (C library); `none` if the number does not fit an `int` (undefined). -/
def atoi (s : List UInt8) : Option Int :=
  let s := s.dropWhile isSpace
  let neg := s.head? = some 0x2D
  let s := if neg || s.head? = some 0x2B then s.drop 1 else s
  let v : Int := digitsVal (s.takeWhile isDigit)
  let v := if neg then -v else v
  if -2147483648 ≤ v ∧ v ≤ 2147483647 then some v else none

end Conman
