import Verif.Model.Dec

/-
Expansion of conversion specifiers in log file names and reset commands (conman.conf(5), "CONVERSION SPECIFICATIONS").
-/
namespace Conman

/-- What a console is connected to, as far as names go. -/
inductive FDev where
  /-- a serial device or a Unix socket, by its path -/
  | path (dev : List UInt8)
  | telnet (host : List UInt8) (port : Int)
  | other
deriving Repr, DecidableEq

/-- An object a format is expanded for. -/
structure FObj where
  console : Bool
  name : List UInt8
  dev : FDev
deriving Repr, DecidableEq

namespace Spec

/-- Characters that may be put into a file name: graphic and not a slash. -/
def fileOk (b : UInt8) : Bool := 0x21 ≤ b && b ≤ 0x7E && b ≠ 0x2F

/-- Others are replaced by an underscore. -/
def fileChar (b : UInt8) : UInt8 := if fileOk b then b else 0x5F

/-- The last component of a path. -/
def lastComponent : List UInt8 → List UInt8
  | [] => []
  | b :: s => if 0x2F ∈ b :: s then lastComponent s else b :: s

/-- The letters that stand for a part of the time of day. -/
def timeLetters : List UInt8 := [0x64, 0x67, 0x47, 0x48, 0x6A, 0x6D, 0x4D, 0x73, 0x53, 0x75, 0x55, 0x56, 0x77, 0x57, 0x79, 0x59]

/-- The text that stands for the specifier `%c`. -/
def specifier (o : Option FObj) (pid : Int) (tm : UInt8 → List UInt8) (c : UInt8) : List UInt8 :=
  if c = 0x4E then match o with                                  -- N
    | none => [0x25, c]
    | some o => if o.console then o.name.map fileChar else []
  else if c = 0x44 then match o with                             -- D
    | none => [0x25, c]
    | some o => match o.dev with
      | .path dev => (lastComponent dev).map fileChar
      | .telnet host port => (host ++ 0x3A :: decInt port).map fileChar
      | .other => []
  else if c = 0x50 then decInt pid                               -- P
  else if c ∈ timeLetters then tm c
  else if c = 0x25 then [0x25]
  else [0x25, c]

/-- The expansion of a format; a single `%` at the end stands for itself. -/
def expand (o : Option FObj) (pid : Int) (tm : UInt8 → List UInt8) : List UInt8 → List UInt8
  | [] => []
  | [c] => [c]
  | c :: c2 :: s => if c = 0x25 then specifier o pid tm c2 ++ expand o pid tm s else c :: expand o pid tm (c2 :: s)

/-- The format ends in a `%` that does not belong to a specifier. -/
def loneEnd : List UInt8 → Bool
  | [] => false
  | [c] => c = 0x25
  | c :: c2 :: s => if c = 0x25 then loneEnd s else loneEnd (c2 :: s)

end Spec
end Conman
