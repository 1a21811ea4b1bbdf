import Verif.Model.Basic

/-
The command line and the environment of the client.  (C80)
-/
namespace Conman.Spec

/-- Options without and with an argument. -/
def cFlags : List UInt8 := bs "bfhjLmqQrvV"
def cArgs : List UInt8 := bs "deFl"

inductive COpt where
  | flag (c : UInt8)
  | arg (c : UInt8) (v : List UInt8)
deriving Repr, DecidableEq

/-- Words that are not options. -/
def isOperand (a : List UInt8) : Prop := a = bs "-" ∨ a.head? ≠ some 0x2D

instance (a : List UInt8) : Decidable (isOperand a) := by unfold isOperand; infer_instance

/-- What the words of a command line mean: the options and the operands, each in order.  Options without argument can be joined; an argument follows its option
or is the next word; operands can stand between options; `--` ends the options. -/
inductive ArgWords : List (List UInt8) → List COpt → List (List UInt8) → Prop
  | nil : ArgWords [] [] []
  | stop (r) : ArgWords (bs "--" :: r) [] r
  | operand (a r os ps) : isOperand a → ArgWords r os ps → ArgWords (a :: r) os (a :: ps)
  | flags (cs r os ps) : cs ≠ [] → (∀ c ∈ cs, c ∈ cFlags) → ArgWords r os ps → ArgWords ((0x2D :: cs) :: r) (cs.map .flag ++ os) ps
  | attached (cs c v r os ps) : (∀ x ∈ cs, x ∈ cFlags) → c ∈ cArgs → v ≠ [] → ArgWords r os ps → ArgWords ((0x2D :: (cs ++ c :: v)) :: r) (cs.map .flag ++ .arg c v :: os) ps
  | separate (cs c v r os ps) : (∀ x ∈ cs, x ∈ cFlags) → c ∈ cArgs → ArgWords r os ps → ArgWords ((0x2D :: (cs ++ [c])) :: v :: r) (cs.map .flag ++ .arg c v :: os) ps

/-- The pieces of a text between separators. -/
def pieces (x : UInt8) : List UInt8 → List (List UInt8)
  | [] => [[]]
  | c :: s => if c = x then [] :: pieces x s else match pieces x s with | p :: r => (c :: p) :: r | [] => [[c]]

/-- Names separated by commas. -/
def commaNames (s : List UInt8) : List (List UInt8) := (pieces 0x2C s).filter (· ≠ [])

/-- White space. -/
def blankByte (c : UInt8) : Bool := c = 0x20 || c = 0x09 || c = 0x0A || c = 0x0B || c = 0x0C || c = 0x0D

/-- A text without white space at its ends. -/
def strip (s : List UInt8) : List UInt8 := ((s.dropWhile blankByte).reverse.dropWhile blankByte).reverse

/-- The names in a file: one per line, without white space at the ends; empty lines, and those that start with `#`, do not count. -/
def fileNames (s : List UInt8) : List (List UInt8) := ((pieces 0x0A s).map strip).filter fun l => l ≠ [] ∧ l.head? ≠ some 0x23

/-- The arguments of an option. -/
def argsOf (c : UInt8) (os : List COpt) : List (List UInt8) := os.filterMap fun o => match o with | .arg x v => if x = c then some v else none | .flag _ => none

/-- The last of some options. -/
def lastFlag (cs : List UInt8) (os : List COpt) : Option UInt8 := (os.filterMap fun o => match o with | .flag x => if x ∈ cs then some x else none | .arg _ _ => none).getLast?

/-- Before and after the first colon. -/
def hostPart (s : List UInt8) : List UInt8 := s.takeWhile (· ≠ 0x3A)
def portPart (s : List UInt8) : Option (List UInt8) := if 0x3A ∈ s then some ((s.dropWhile (· ≠ 0x3A)).drop 1) else none

/-- The host: the last that is given. -/
def destHost (dflt : List UInt8) (l : List (List UInt8)) : List UInt8 := ((l.map hostPart).filter (· ≠ [])).getLast?.getD dflt

/-- The last of some values. -/
def lastOr {α : Type} (d : α) (l : List α) : α := l.getLast?.getD d

end Conman.Spec
