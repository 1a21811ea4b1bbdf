import Verif.Model.Dec

/-
Elapsed times, src/util-str.c.
-/
namespace Conman

/-- Conversion of a `long` to a 32-bit `int` (implementation-defined, gcc wraps around). -/
def toInt32 (n : Int) : Int := (n + 2147483648) % 4294967296 - 2147483648

/-- The text that `create_time_delta_string` formats, src/util-str.c:310-341, for `n` seconds.  `/` and `%` of C round towards zero. -/
def deltaText (n : Int) : List UInt8 :=
  let seconds := n.tmod 60
  let n := n.tdiv 60
  let minutes := n.tmod 60
  let n := n.tdiv 60
  let hours := n.tmod 24
  let n := n.tdiv 24
  let days := n.tmod 7
  let n := n.tdiv 7
  let weeks := n.tmod 52
  let n := n.tdiv 52
  let years := toInt32 n
  let y := decInt years ++ bs "y"
  let w := decInt weeks ++ bs "w"
  let d := decInt days ++ bs "d"
  let h := decInt hours ++ bs "h"
  let m := decInt minutes ++ bs "m"
  let s := decInt seconds ++ bs "s"
  if years > 0 then y ++ w ++ d ++ h ++ m ++ s
  else if weeks > 0 then w ++ d ++ h ++ m ++ s
  else if days > 0 then d ++ h ++ m ++ s
  else if hours > 0 then h ++ m ++ s
  else if minutes > 0 then m ++ s
  else s

/-- `create_time_delta_string`, src/util-str.c:295-344, where `n` is the difference of the two times (`difftime` is exact for differences
below 2^53): the string in `buf[32]`.  The assert that it fits is not executed. -/
def timeDelta (n : Int) : Option (List UInt8) := (snprintf (List.replicate 32 0) 0 32 (deltaText n)).bind (fun r => cstr r.1)

end Conman
