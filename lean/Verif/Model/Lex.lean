import Verif.Model.Basic

/-
The lexer, src/lex.c.

* A pointer into the input is the rest of the array from there on; `none` is a read outside the array.
* `char` is signed (as on x86); the C locale is in force (no call of `setlocale`), so bytes from 128 are
  not letters or digits.
* Line numbers do not overflow an `int`.
-/
namespace Conman

/-! ### C library -/

def isUpper (c : UInt8) : Bool := 0x41 ≤ c && c ≤ 0x5A
def isLower (c : UInt8) : Bool := 0x61 ≤ c && c ≤ 0x7A
def isAlpha (c : UInt8) : Bool := isUpper c || isLower c
def isDigit (c : UInt8) : Bool := 0x30 ≤ c && c ≤ 0x39
def isAlnum (c : UInt8) : Bool := isAlpha c || isDigit c
def toLower (c : UInt8) : UInt8 := if isUpper c then c + 0x20 else c

/-- `strcasecmp` of two strings (without their NUL). -/
def strcasecmp : List UInt8 → List UInt8 → Int
  | [], [] => 0
  | [], b :: _ => 0 - (toLower b).toNat
  | a :: _, [] => (toLower a).toNat
  | a :: s, b :: t => if toLower a = toLower b then strcasecmp s t else ((toLower a).toNat : Int) - (toLower b).toNat

/-- Value of a `char`. -/
def schar (c : UInt8) : Int := if c.toNat < 128 then c.toNat else (c.toNat : Int) - 256

/-! ### src/lex.h:62-71 -/

def lexMaxStr : Nat := 1024
def lexErr : Int := -1
def lexEof : Int := 0
def lexEol : Int := 256
def lexInt : Int := 257
def lexStr : Int := 258
def lexTokOffset : Int := 259

/-- `struct lexer_state`, src/lex.c:67-78, without the table of keywords, which is passed along. -/
structure Lex where
  pos : List UInt8
  text : List UInt8 := []
  prev : Int := 0
  line : Nat := 0
  gotEOL : Bool := true
deriving Repr, DecidableEq

/-- `lex_create`, src/lex.c:101-127. -/
def lexCreate (buf : List UInt8) : Lex := { pos := buf }

/-- The loop of `lookup_token`, src/lex.c:333-342; each round shrinks the interval, so as many rounds as there are
keywords (plus one) suffice. -/
def lookupLoop (str : List UInt8) (toks : List (List UInt8)) : Nat → Int → Int → Option Int
  | 0, _, _ => none
  | n + 1, low, high =>
    if low ≤ high then
      let middle := (low + high) / 2
      match toks[middle.toNat]? with
      | none => none
      | some t =>
        let x := strcasecmp str t
        if x < 0 then lookupLoop str toks n low (middle - 1)
        else if x > 0 then lookupLoop str toks n (middle + 1) high
        else some (middle + lexTokOffset)
    else some lexStr

/-- `lookup_token`, src/lex.c:320-345. -/
def lookupToken (str : List UInt8) (toks : List (List UInt8)) : Option Int :=
  lookupLoop str toks (toks.length + 1) 0 (toks.length - 1)

/-- `for (p = ...; go(*p); p++)`: the bytes passed and the final `p`. -/
def scan (go : UInt8 → Bool) : List UInt8 → Option (List UInt8 × List UInt8)
  | [] => none
  | c :: p => if go c then (scan go p).map (fun (a, r) => (c :: a, r)) else some ([], c :: p)

/-- Copy to `l->text`, at most `LEX_MAX_STR - 1` bytes. -/
def lexText (w : List UInt8) : List UInt8 := w.take (lexMaxStr - 1)

/-- `case '\n'`, src/lex.c:175-179; `q` points to the last character of the line end. -/
def lexAtEol (l : Lex) (q : List UInt8) : Option (Lex × Int) :=
  match q with
  | [] => none
  | c :: r => some ({ l with pos := r, text := [c], gotEOL := true, prev := lexEol }, lexEol)

/-- `case '"'`, src/lex.c:180-194. -/
def lexQuote (l : Lex) (c : UInt8) (p : List UInt8) : Option (Lex × Int) :=
  (scan (fun x => x ≠ 0 && x ≠ c && x ≠ 0x0D && x ≠ 0x0A) p).bind (fun (w, r) =>
    match r with
    | [] => none
    | e :: r' =>
      if e = c then some ({ l with text := lexText w, pos := r', prev := lexStr }, lexStr)
      else some ({ l with text := [], pos := e :: r', prev := lexErr }, lexErr))

/-- Integers, src/lex.c:216-225. -/
def lexNumber (l : Lex) (c : UInt8) (p : List UInt8) : Option (Lex × Int) :=
  (scan (fun x => x ≠ 0 && isDigit x) p).map (fun (w, r) =>
    ({ l with text := lexText (c :: w), pos := r, prev := lexInt }, lexInt))

/-- Single characters, src/lex.c:227-229. -/
def lexChar (l : Lex) (c : UInt8) (p : List UInt8) : Option (Lex × Int) :=
  some ({ l with text := [c], pos := p, prev := schar c }, schar c)

/-- `default`, src/lex.c:207-229. -/
def lexDefault (toks : List (List UInt8)) (l : Lex) (c : UInt8) (p : List UInt8) : Option (Lex × Int) :=
  if isAlpha c || c = 0x5F then
    (scan (fun x => x ≠ 0 && (isAlnum x || x = 0x5F)) p).bind (fun (w, r) =>
      (lookupToken (lexText (c :: w)) toks).map (fun t =>
        ({ l with text := lexText (c :: w), pos := r, prev := t }, t)))
  else if isDigit c then lexNumber l c p
  else if c = 0x2D || c = 0x2B then
    match p with
    | [] => none
    | d :: _ => if isDigit d then lexNumber l c p else lexChar l c p
  else lexChar l c p

/-- The `for (;;)` of `lex_next`, src/lex.c:154-231; each round but the last passes at least one byte. -/
def lexLoop (toks : List (List UInt8)) : Nat → Lex → Option (Lex × Int)
  | 0, _ => none
  | n + 1, l =>
    match l.pos with
    | [] => none
    | c :: p =>
      if c = 0 then some ({ l with text := [], prev := lexEof }, lexEof)
      else if c = 0x20 || c = 0x09 || c = 0x0B || c = 0x0C then lexLoop toks n { l with pos := p }
      else if c = 0x23 then
        (scan (fun x => x ≠ 0 && x ≠ 0x0A && x ≠ 0x0D) p).bind (fun (_, r) => lexLoop toks n { l with pos := r })
      else if c = 0x0D then
        match p with
        | [] => none
        | d :: _ => if d = 0x0A then lexAtEol l p else lexAtEol l (c :: p)
      else if c = 0x0A then lexAtEol l (c :: p)
      else if c = 0x22 || c = 0x27 then lexQuote l c p
      else if c = 0x5C then
        match p with
        | [] => none
        | d :: p1 =>
          if d = 0x0A then lexLoop toks n { l with pos := p1, line := l.line + 1 }
          else if d = 0x0D then
            match p1 with
            | [] => none
            | e :: p2 =>
              if e = 0x0A then lexLoop toks n { l with pos := p2, line := l.line + 1 }
              else lexDefault toks l c p
          else lexDefault toks l c p
      else lexDefault toks l c p

/-- `lex_next`, src/lex.c:141-232: the new state and the token. -/
def lexNext (toks : List (List UInt8)) (l : Lex) : Option (Lex × Int) :=
  lexLoop toks (l.pos.length + 1) (if l.gotEOL then { l with line := l.line + 1, gotEOL := false } else l)

/-- Calls `lex_next` up to `n` times, until it returns `LEX_EOF`: token, `lex_text` and `lex_line` of each call.  `none` also if no
call returned `LEX_EOF`. -/
def lexAll (toks : List (List UInt8)) : Nat → Lex → Option (List (Int × List UInt8 × Nat))
  | 0, _ => none
  | n + 1, l =>
    match lexNext toks l with
    | none => none
    | some (l', t) =>
      if t = lexEof then some [(t, l'.text, l'.line)]
      else (lexAll toks n l').map (fun ts => (t, l'.text, l'.line) :: ts)

/-- `lex_encode`, src/lex.c:348-360. -/
def lexEncode (s : List UInt8) : List UInt8 := s.map (fun c => if c = 0x27 || c = 0x22 then c ||| 0x80 else c)

/-- `lex_decode`, src/lex.c:363-373.  The loop stops at the first NUL; clearing bits can produce further NULs (of 0x80), which
end the string. -/
def lexDecode (s : List UInt8) : List UInt8 := (s.map (fun c => c &&& 0x7F)).takeWhile (· ≠ 0)

/-- `proto_strs`, src/common.c:55-79. -/
def protoStrs : List (List UInt8) :=
  ["BROADCAST", "CODE", "CONNECT", "CONSOLE", "ERROR", "FORCE", "HELLO", "JOIN", "MESSAGE", "MONITOR", "OK", "OPTION",
    "QUERY", "QUIET", "REGEX", "RESET", "TTY", "USER"].map bs

/-- `server_conf_strs`, src/server-conf.c:87-121, with and without `WITH_FREEIPMI`. -/
def serverConfStrs (ipmi : Bool) : List (List UInt8) :=
  (["CONSOLE", "COREDUMP", "COREDUMPDIR", "DEV", "EXECPATH", "GLOBAL"] ++ (if ipmi then ["IPMIOPTS"] else []) ++
    ["KEEPALIVE", "LOG", "LOGDIR", "LOGFILE", "LOGOPTS", "LOOPBACK", "NAME", "NOFILE", "OFF", "ON", "PIDFILE", "PORT",
      "RESETCMD", "SEROPTS", "SERVER", "SYSLOG", "TCPWRAPPERS", "TESTOPTS", "TIMESTAMP"]).map bs

end Conman
