import Verif.Model.Basic

/-
What a terminal does with the bytes that pass through it, depending on its modes (POSIX.1, with the values of Linux).  (C81, C82)
-/
namespace Conman.Spec

abbrev TWord := BitVec 32

/-- `struct termios`: flags, special characters and speeds. -/
structure Termios where
  iflag : TWord
  oflag : TWord
  cflag : TWord
  lflag : TWord
  vmin : UInt8
  vtime : UInt8
  /-- the other special characters -/
  cc : List UInt8
  ispeed : Int
  ospeed : Int
deriving Repr, DecidableEq

/-- Some bit of the flag is set. -/
def on (w f : TWord) : Bool := w &&& f ≠ 0#32

/-- Flags of `c_iflag`, `c_oflag`, `c_cflag`, `c_lflag`. -/
abbrev IGNBRK : TWord := 0x1#32
abbrev BRKINT : TWord := 0x2#32
abbrev PARMRK : TWord := 0x8#32
abbrev INPCK : TWord := 0x10#32
abbrev ISTRIP : TWord := 0x20#32
abbrev INLCR : TWord := 0x40#32
abbrev IGNCR : TWord := 0x80#32
abbrev ICRNL : TWord := 0x100#32
abbrev IUCLC : TWord := 0x200#32
abbrev IXON : TWord := 0x400#32
abbrev OPOST : TWord := 0x1#32
abbrev CSIZE : TWord := 0x30#32
abbrev CS5 : TWord := 0x0#32
abbrev CS6 : TWord := 0x10#32
abbrev CS7 : TWord := 0x20#32
abbrev CS8 : TWord := 0x30#32
abbrev CSTOPB : TWord := 0x40#32
abbrev CREAD : TWord := 0x80#32
abbrev PARENB : TWord := 0x100#32
abbrev PARODD : TWord := 0x200#32
abbrev CLOCAL : TWord := 0x800#32
abbrev ISIG : TWord := 0x1#32
abbrev ICANON : TWord := 0x2#32
abbrev ECHO : TWord := 0x8#32
abbrev ECHOCTL : TWord := 0x200#32
abbrev IEXTEN : TWord := 0x8000#32

/-- What becomes of a byte that arrives. -/
inductive TtyIn where
  /-- the program reads these bytes -/
  | bytes (b : List UInt8)
  /-- it is not seen -/
  | dropped
  /-- a signal for the program -/
  | signal
  /-- output is stopped or goes on -/
  | flow
  /-- it becomes part of a line that can be edited -/
  | line (b : UInt8)
deriving Repr, DecidableEq

/-- The special characters: those that stop and restart output, and those that send signals. -/
structure Special where
  flow : UInt8 → Bool
  sig : UInt8 → Bool

/-- A byte after the flags that change each byte. -/
def stripped (t : Termios) (c : UInt8) : UInt8 :=
  let c := if on t.iflag ISTRIP then c &&& 0x7F else c
  if on t.iflag IUCLC ∧ on t.lflag IEXTEN ∧ 0x41 ≤ c ∧ c ≤ 0x5A then c + 0x20 else c

/-- A byte after the flags that change line ends. -/
def lineEnd (t : Termios) (c : UInt8) : UInt8 :=
  if c = 0x0D ∧ on t.iflag ICRNL then 0x0A else if c = 0x0A ∧ on t.iflag INLCR then 0x0D else c

/-- A byte that arrives without error. -/
def ttyIn (x : Special) (t : Termios) (c : UInt8) : TtyIn :=
  let c := stripped t c
  if on t.iflag IXON ∧ x.flow c then .flow
  else if on t.lflag ISIG ∧ x.sig c then .signal
  else if c = 0x0D ∧ on t.iflag IGNCR then .dropped
  else if on t.lflag ICANON then .line (lineEnd t c)
  else if on t.iflag PARMRK ∧ ¬ on t.iflag ISTRIP ∧ c = 0xFF then .bytes [c, c]
  else .bytes [lineEnd t c]

/-- Bytes that are written go out as they are. -/
def plainOut (t : Termios) : Prop := on t.oflag OPOST = false

/-- The terminal passes on every byte that arrives, at once and as it is, and echoes nothing. -/
def Transparent (t : Termios) : Prop := ∀ (x : Special) (c : UInt8), ttyIn x t c = .bytes [c]

/-- What the line of a serial device is set to: data bits, parity (0 none, 1 odd, 2 even), stop bits, speeds. -/
def dataBits (t : Termios) : Nat :=
  if t.cflag &&& CSIZE = CS5 then 5 else if t.cflag &&& CSIZE = CS6 then 6 else if t.cflag &&& CSIZE = CS7 then 7 else 8
def parityOf (t : Termios) : Nat := if on t.cflag PARENB then (if on t.cflag PARODD then 1 else 2) else 0
def stopBits (t : Termios) : Nat := if on t.cflag CSTOPB then 2 else 1

end Conman.Spec
