import Verif.Spec.Opts
import Verif.Model.Dec

/-
Device strings.
-/
namespace Conman

/-- The kinds of files. -/
inductive FileKind where
  | regular | directory | charDev | other
deriving DecidableEq, Repr

/-- What the program can find out about files: their kind (following links; `none` if there is no such file), and whether they can be executed. -/
structure Fs where
  kind : List UInt8 → Option FileKind
  exec : List UInt8 → Bool

/-- The device of a console. -/
inductive Dev where
  | unixsock (path : List UInt8)
  | telnet (host : List UInt8) (port : Int)
  | serial (path : List UInt8)
  | process (path : List UInt8)
  | ipmi (host : List UInt8)
  | test
  | unknown
deriving DecidableEq, Repr

namespace Spec

/-- `host:port`: the host has no colon, the port is a number. -/
def TelnetForm (dev host port : List UInt8) : Prop := dev = host ++ 0x3A :: port ∧ (0x3A : UInt8) ∉ host ∧ port ≠ [] ∧ ∀ c ∈ port, digit c

/-- A word, a colon, and something. -/
def PrefixForm (word dev rest : List UInt8) : Prop := rest ≠ [] ∧ ∃ w, sameName w word ∧ dev = w ++ 0x3A :: rest

/-- A name relative to a directory. -/
def inDir (dir name : List UInt8) : List UInt8 := if name.head? = some 0x2F then name else dir ++ 0x2F :: name

/-- Names made by `inDir` have less than 4096 bytes. -/
def Fits (dir name : List UInt8) : Prop := name.head? = some 0x2F ∨ (dir ++ 0x2F :: name).length < 4096

/-- A list of directories separated by colons. -/
inductive PathOf : List (List UInt8) → List UInt8 → Prop
  | one (d : List UInt8) (h : (0x3A : UInt8) ∉ d) : PathOf [d] d
  | cons (d p : List UInt8) (ds : List (List UInt8)) (h : (0x3A : UInt8) ∉ d) (hp : PathOf ds p) : PathOf (d :: ds) (d ++ 0x3A :: p)

/-- The first directory of a list that contains something with this name that can be executed. -/
def foundIn (fs : Fs) (name : List UInt8) (ds : List (List UInt8)) : Option (List UInt8) :=
  (ds.find? fun d => decide (fs.kind d = some .directory) && decide ((d ++ 0x2F :: name).length < 4096) && fs.exec (d ++ 0x2F :: name)).map (· ++ 0x2F :: name)

/-- The file of a program: looked up in the list of directories if the name has no slash, relative to the working directory if it is not found there. -/
inductive ProgramFile (fs : Fs) (cwd : List UInt8) (path : Option (List UInt8)) (dev : List UInt8) : List UInt8 → Prop
  | found (p f : List UInt8) (ds : List (List UInt8)) (hs : (0x2F : UInt8) ∉ dev) (hp : path = some p) (hl : p.length < 4096) (hd : PathOf ds p)
      (hf : foundIn fs dev ds = some f) : ProgramFile fs cwd path dev f
  | relative (hn : ∀ p ds, (0x2F : UInt8) ∉ dev → path = some p → p.length < 4096 → PathOf ds p → foundIn fs dev ds = none) (hf : Fits cwd dev) :
      ProgramFile fs cwd path dev (inDir cwd dev)

/-- What a device string may mean, apart from precedence. -/
inductive Reading (fs : Fs) (cwd : List UInt8) (path : Option (List UInt8)) (dev : List UInt8) : Dev → Prop
  | unixsock (rest : List UInt8) (h : PrefixForm (bs "unix") dev rest) (hf : Fits cwd rest) : Reading fs cwd path dev (.unixsock (inDir cwd rest))
  | telnet (host port : List UInt8) (n : Int) (hl : dev.length < 1024) (h : TelnetForm dev host port) (hn : n = digitsVal port) : Reading fs cwd path dev (.telnet host n)
  | serial (hf : Fits cwd dev) (h : fs.kind (inDir cwd dev) = some .charDev) : Reading fs cwd path dev (.serial (inDir cwd dev))
  | process (f : List UInt8) (h : ProgramFile fs cwd path dev f) (hk : fs.kind f = some .regular) (hx : fs.exec f = true) : Reading fs cwd path dev (.process f)
  | ipmi (host : List UInt8) (h : PrefixForm (bs "ipmi") dev host) : Reading fs cwd path dev (.ipmi host)
  | test (h : sameName dev (bs "test:")) : Reading fs cwd path dev .test
  | unknown : Reading fs cwd path dev .unknown

/-- The order in which the meanings are tried. -/
def rank : Dev → Nat
  | .unixsock _ => 0
  | .telnet _ _ => 1
  | .serial _ => 2
  | .process _ => 3
  | .ipmi _ => 4
  | .test => 5
  | .unknown => 6

end Spec
end Conman
