import Verif.Model.Basic

/-
C arrays and strings, and the string functions of src/util-str.c and
portable/strlcpy.c, portable/strlcat.c.

* An array is a list of bytes of fixed length; a pointer into it is an offset.
* A read-only C string argument is the list of its bytes before the NUL.
* `none` is an access outside an array.
-/
namespace Conman

/-- Store one byte. -/
def poke (buf : List UInt8) (i : Nat) (b : UInt8) : Option (List UInt8) :=
  if i < buf.length then some (buf.set i b) else none

/-- The C string at the start of an array; `none` if it is not terminated. -/
def cstr (buf : List UInt8) : Option (List UInt8) :=
  if 0 ∈ buf then some (buf.takeWhile (· ≠ 0)) else none

/-- Store the bytes `s` one after the other from offset `i`. -/
def pokes (buf : List UInt8) (i : Nat) : List UInt8 → Option (List UInt8)
  | [] => some buf
  | b :: s => (poke buf i b).bind (fun buf => pokes buf (i + 1) s)

/-- `snprintf(&buf[i], size, ...)` (C library) where the complete output would be
`s`; returns the array and the length of `s`.  That the call does not fail (a
negative result) is assumed. -/
def snprintf (buf : List UInt8) (i size : Nat) (s : List UInt8) : Option (List UInt8 × Nat) :=
  if size = 0 then some (buf, s.length)
  else (pokes buf i (s.take (size - 1) ++ [0])).map (·, s.length)

/-! ### portable/strlcpy.c -/

/-- The copy loop, portable/strlcpy.c:38-43, entered with `n > 0`: array, offset `d`,
bytes of the source passed so far `k`, rest of the source, `n`. -/
def strlcpyCopy (dst : List UInt8) (d k : Nat) : List UInt8 → Nat → Option (List UInt8 × Nat × Nat × List UInt8 × Nat)
  | s, 0 => some (dst, d, k, s, 0)
  | [], n + 1 => (poke dst d 0).map (fun dst => (dst, d + 1, k + 1, [], n + 1))
  | c :: s, n + 1 => (poke dst d c).bind (fun dst =>
      if n = 0 then some (dst, d + 1, k + 1, s, 0) else strlcpyCopy dst (d + 1) (k + 1) s n)

/-- `strlcpy(&dst[off], src, siz)`, portable/strlcpy.c:30-55. -/
def strlcpy (dst : List UInt8) (off : Nat) (src : List UInt8) (siz : Nat) : Option (List UInt8 × Nat) :=
  (if siz ≠ 0 ∧ siz - 1 ≠ 0 then strlcpyCopy dst off 0 src (siz - 1)
    else some (dst, off, 0, src, 0)).bind (fun (dst, d, k, s, n) =>
  if n = 0 then
    -- 46-51
    (if siz ≠ 0 then poke dst d 0 else some dst).map (fun dst => (dst, k + (s.length + 1) - 1))
  else some (dst, k - 1))

/-! ### portable/strlcat.c -/

/-- End of `dst`, portable/strlcat.c:43-44. -/
def strlcatEnd (dst : List UInt8) : Nat → Nat → Option Nat
  | 0, d => some d
  | n + 1, d =>
    match dst[d]? with
    | none => none
    | some b => if b ≠ 0 then strlcatEnd dst n (d + 1) else some d

/-- portable/strlcat.c:50-57 -/
def strlcatCopy (dst : List UInt8) (d : Nat) : List UInt8 → Nat → Option (List UInt8)
  | [], _ => poke dst d 0
  | c :: s, n =>
    if n ≠ 1 then (poke dst d c).bind (fun dst => strlcatCopy dst (d + 1) s (n - 1))
    else strlcatCopy dst d s n

/-- `strlcat`, portable/strlcat.c:34-60. -/
def strlcat (dst src : List UInt8) (siz : Nat) : Option (List UInt8 × Nat) :=
  (strlcatEnd dst siz 0).bind (fun dlen =>
  if siz - dlen = 0 then some (dst, dlen + src.length)
  else (strlcatCopy dst dlen src (siz - dlen)).map (·, dlen + src.length))

/-! ### src/util-str.c -/

/-- End of `dst`, src/util-str.c:193-196: offset and `num_left`.  The byte is read
before `num_left` is checked. -/
def appendEnd (dst : List UInt8) : Nat → Nat → Option (Nat × Nat)
  | p, left =>
    match dst[p]? with
    | none => none
    | some b =>
      match left with
      | 0 => some (p, 0)
      | left + 1 => if b ≠ 0 then appendEnd dst (p + 1) left else some (p, left + 1)

/-- `append_format_string`, src/util-str.c:176-215, for formatted text `s`; the result is -1 or
the length of the string. -/
def appendFormat (dst : List UInt8) (size : Nat) (s : List UInt8) : Option (List UInt8 × Int) :=
  if size = 0 then some (dst, 0)
  else (appendEnd dst 0 size).bind (fun (p, left) =>
    if left ≤ 1 then (poke dst (size - 1) 0).map (·, -1)
    else (snprintf dst p left s).map (fun (dst, n) => (dst, if n ≥ left then -1 else (p + n : Int))))

/-- The loop of `substitute_string`, src/util-str.c:234-247: array, offset `q`, `len`. -/
def substLoop (c : UInt8) (sub : Option (List UInt8)) (dst : List UInt8) (q : Nat) (len : Int) :
    List UInt8 → Option (List UInt8 × Nat × Int)
  | [] => some (dst, q, len)
  | [b] =>
    if len ≤ 0 then some (dst, q, len)
    else (poke dst q b).map (fun dst => (dst, q + 1, len - 1))
  | b :: b2 :: rest =>
    if len ≤ 0 then some (dst, q, len)
    else if b = 0x25 ∧ b2 = c then
      match sub with
      | none => substLoop c sub dst q len rest
      | some s => (strlcpy dst q s len.toNat).bind (fun (dst, n) => substLoop c sub dst (q + n) (len - n) rest)
    else (poke dst q b).bind (fun dst => substLoop c sub dst (q + 1) (len - 1) (b2 :: rest))

/-- `substitute_string`, src/util-str.c:218-256 (`dst` and `src` not NULL). -/
def substituteString (dst : List UInt8) (dstlen : Nat) (src : List UInt8) (c : UInt8) (sub : Option (List UInt8)) :
    Option (List UInt8 × Int) :=
  if dstlen = 0 ∨ c = 0 then some (dst, -1)
  else (substLoop c sub dst 0 dstlen src).bind (fun (dst, q, len) =>
    if len > 0 then (poke dst q 0).map (·, dstlen - len)
    else (poke dst (dstlen - 1) 0).map (·, -1))

/-- `isspace` in the C locale. -/
def isSpace (c : UInt8) : Bool := c = 0x20 || (0x09 ≤ c && c ≤ 0x0D)

/-- Result of `parse_string`. -/
inductive ParseStr where
  /-- returns 0 -/
  | done
  /-- returns 1: word, quote character (0 if none), rest of the string -/
  | word (w : List UInt8) (quote : UInt8) (rest : List UInt8)
  /-- returns -1 (unmatched quote); the rest of the string is consumed -/
  | bad
deriving Repr, DecidableEq

/-- The loop of `parse_string` for a word that starts with the quote `p`, src/util-str.c:144-157;
`acc` is what lies between `p` and `q`. -/
def parseQuoted (p : UInt8) (acc : List UInt8) : List UInt8 → ParseStr
  | [] => .word (p :: acc) 0 []
  | q :: rest =>
    if q = p ∧ (rest = [] ∨ isSpace (rest.headD 0) = true) then .word acc p rest
    else if rest = [] then .bad
    else parseQuoted p (acc ++ [q]) rest

/-- The loop for other words, 158-161. -/
def parseBare (acc : List UInt8) : List UInt8 → ParseStr
  | [] => .word acc 0 []
  | q :: rest => if isSpace q then .word acc 0 rest else parseBare (acc ++ [q]) rest

/-- `parse_string`, src/util-str.c:123-173, on the string that `*ptr_p` points to.  The code ends a word
by storing NUL over its last delimiter, which is never looked at again. -/
def parseString (s : List UInt8) : ParseStr :=
  match s.dropWhile isSpace with
  | [] => .done
  | p :: rest =>
    if p = 0x22 ∨ p = 0x27 then parseQuoted p [] rest else parseBare [p] rest

/-- One argument of a device string, src/server-conf.c:801-809: `none` if it does not fit after substitution.
The content of the uninitialised `buf` does not matter (property C21) and is taken as zeros. -/
def devWord (name w : List UInt8) (quote : UInt8) : Option (List UInt8) :=
  if quote ≠ 0x27 then
    (substituteString (List.replicate maxLine 0) maxLine w 0x4E (some name)).bind (fun r => if r.2 < 0 then none else cstr r.1)
  else some w

/-- The loop of `process_console` that splits a device string into arguments, src/server-conf.c:799-816;
`none` is a failure (a word that does not fit after substitution, or an unmatched quote).
Every round consumes at least one byte: `n` rounds suffice for `n - 1` bytes (shown below the property). -/
def devArgsLoop (name : List UInt8) : Nat → List UInt8 → Option (List (List UInt8))
  | 0, _ => none
  | n + 1, s =>
    match parseString s with
    | .done => some []
    | .bad => none
    | .word w quote rest =>
      (devWord name w quote).bind (fun a => (devArgsLoop name n rest).map (a :: ·))

/-- The argument list of a console's device string. -/
def devArgs (name s : List UInt8) : Option (List (List UInt8)) := devArgsLoop name (s.length + 1) s

/-! ### Messages, src/server-obj.c -/

/-- `write_notify_msg`, src/server-obj.c:535-568, up to the call of `notify_console_objs`:
the buffer, filled from `text` (the formatted message). -/
def notifyBuf (buf : List UInt8) (text : List UInt8) : Option (List UInt8) :=
  (snprintf buf 0 maxLine msgPrefix).bind (fun (buf, n) =>
  let (p, len) := if n ≥ maxLine then (0, 0) else (n, maxLine - n)
  (if len > 0 then
    (snprintf buf p len text).map (fun (buf, n) => if n ≥ len then (buf, p, 0) else (buf, p + n, len - n))
  else some (buf, p, len)).bind (fun (buf, p, len) =>
  let (p, len) :=
    if len < msgSuffix.length + 1 then
      (maxLine - msgSuffix.length - 1, maxLine - (maxLine - msgSuffix.length - 1))
    else (p, len)
  (snprintf buf p len msgSuffix).map (·.1)))

/-- The messages of `link_objs` and `unlink_objs`, src/server-obj.c:628-634, 643-649, 710-717;
`s` is the complete formatted message. -/
def linkBuf (buf : List UInt8) (s : List UInt8) : Option (List UInt8) :=
  (snprintf buf 0 maxLine s).bind (fun (buf, _) => pokes buf (maxLine - 3) [0x0D, 0x0A, 0])

/-- Append pieces one after the other and keep the last result, as the callers do (src/client-sock.c:107-124). -/
def appendPieces (dst : List UInt8) (size : Nat) (r : Int) : List (List UInt8) → Option (List UInt8 × Int)
  | [] => some (dst, r)
  | s :: ss => (appendFormat dst size s).bind (fun (dst, r) => appendPieces dst size r ss)

end Conman
