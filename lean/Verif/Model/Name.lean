import Verif.Model.Dec

/-
Comparison of console names, src/server-obj.c.  A name is the list of its bytes without the NUL.
-/
namespace Conman

/-- The loop of `find_trailing_int_str`, src/server-obj.c:492-497: `i` is the offset `p - str`, `q` the candidate. -/
def trailLoop (i : Nat) (q : Option Nat) : List UInt8 → Option Nat
  | [] => q
  | c :: s => trailLoop (i + 1) (if isDigit c = false then none else if q = none then some i else q) s

/-- `find_trailing_int_str`, src/server-obj.c:485-499, as an offset (NULL: `none`).  `isdigit` of a negative `char` is false as in glibc. -/
def findTrailingInt (s : List UInt8) : Option Nat := trailLoop 0 none s

/-- `*p`. -/
def peekC (s : List UInt8) : Int := schar (s.headD 0)

/-- The loop of `compare_objs`, src/server-obj.c:473-481; `k` is how far both pointers have moved, `int1` and `int2` are offsets.
`none`: `atoi` of a number that does not fit is undefined. -/
def cmpLoop (int1 int2 : Option Nat) (k : Nat) : List UInt8 → List UInt8 → Option Int
  | [], s2 => some (0 - peekC s2)
  | c :: s1, s2 =>
    if int1 = some k ∧ int2 = some k then (atoi (c :: s1)).bind fun a => (atoi s2).map fun b => a - b
    else if c = s2.headD 0 then cmpLoop int1 int2 (k + 1) s1 (s2.drop 1)
    else some (schar c - peekC s2)

/-- `compare_objs`, src/server-obj.c:450-482, on the names of the objects. -/
def compareObjs (x y : List UInt8) : Option Int := cmpLoop (findTrailingInt x) (findTrailingInt y) 0 x y

end Conman
