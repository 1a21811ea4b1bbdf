/-
Natural order of names: a name is a stem and an optional trailing number.
-/
namespace Conman.Spec

def isDig (c : UInt8) : Bool := 0x30 ≤ c && c ≤ 0x39

/-- The trailing digits of a name. -/
def trail (x : List UInt8) : List UInt8 := (x.reverse.takeWhile isDig).reverse

/-- What is before them. -/
def stem (x : List UInt8) : List UInt8 := (x.reverse.dropWhile isDig).reverse

/-- The value of a string of digits. -/
def numVal (s : List UInt8) : Nat := s.foldl (fun a c => 10 * a + (c.toNat - 0x30)) 0

/-- Names that can be ordered consistently: none continues the stem of a numbered name with a digit that is part of its own stem
(as "a1b" does with "a" of "a2"), and every number fits 31 bits. -/
structure Orderly (names : List (List UInt8)) : Prop where
  nonul : ∀ x ∈ names, (0 : UInt8) ∉ x
  apart : ∀ x ∈ names, ∀ y ∈ names, trail x ≠ [] → ∀ c r, stem y = stem x ++ c :: r → isDig c = false
  fits : ∀ x ∈ names, numVal (trail x) ≤ 2147483647

end Conman.Spec
