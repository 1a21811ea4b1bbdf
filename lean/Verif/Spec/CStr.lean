import Verif.Model.Basic

/-
Specifications of the string functions.
-/
namespace Conman.Spec

/-- `src` with every `%c` replaced by `r`, scanning from the left. -/
def substAll (c : UInt8) (r : List UInt8) : List UInt8 → List UInt8
  | [] => []
  | [b] => [b]
  | b :: b2 :: rest => if b = 0x25 ∧ b2 = c then r ++ substAll c r rest else b :: substAll c r (b2 :: rest)

/-- White space in a command string. -/
def blank (c : UInt8) : Bool := c = 0x20 || c = 0x09 || c = 0x0A || c = 0x0B || c = 0x0C || c = 0x0D

/-- A word of a command string as written: bare, or between two quote characters `q`. -/
inductive Word where
  | bare (w : List UInt8)
  | quoted (q : UInt8) (w : List UInt8)
deriving Repr, DecidableEq

/-- Bare words contain no blanks and do not start with a quote; a quoted word uses `"` or `'` and does not contain
its quote followed by a blank. -/
def Word.ok : Word → Prop
  | bare w => w ≠ [] ∧ (∀ c ∈ w, blank c = false) ∧ w.head? ≠ some 0x22 ∧ w.head? ≠ some 0x27
  | quoted q w => (q = 0x22 ∨ q = 0x27) ∧ ∀ a b c, w = a ++ q :: c :: b → blank c = false

/-- How it is written. -/
def Word.text : Word → List UInt8
  | bare w => w
  | quoted q w => q :: w ++ [q]

/-- Its content and quote character. -/
def Word.value : Word → List UInt8 × UInt8
  | bare w => (w, 0)
  | quoted q w => (w, q)

/-- A command string: blanks before the first word, words, non-empty blanks between words, blanks at the end. -/
inductive CmdLine : List Word → List UInt8 → Prop
  | nil (sp : List UInt8) (h : ∀ c ∈ sp, blank c = true) : CmdLine [] sp
  | last (sp : List UInt8) (h : ∀ c ∈ sp, blank c = true) (w : Word) (hw : w.ok) : CmdLine [w] (sp ++ w.text)
  | cons (sp : List UInt8) (h : ∀ c ∈ sp, blank c = true) (w : Word) (hw : w.ok) (c : UInt8) (hc : blank c = true)
      (ws : List Word) (rest : List UInt8) (hr : CmdLine ws rest) : CmdLine (w :: ws) (sp ++ w.text ++ c :: rest)

/-- A string that ends in an unmatched quote: after some words, a word starts with a quote, is longer than that quote, and
the quote does not occur again before a blank or at the end. -/
inductive Unmatched : List UInt8 → Prop
  | here (sp : List UInt8) (h : ∀ c ∈ sp, blank c = true) (q : UInt8) (hq : q = 0x22 ∨ q = 0x27) (t : List UInt8) (ht : t ≠ [])
      (hn : ∀ a b, t = a ++ q :: b → ∃ c b', b = c :: b' ∧ blank c = false) : Unmatched (sp ++ q :: t)
  | later (sp : List UInt8) (h : ∀ c ∈ sp, blank c = true) (w : Word) (hw : w.ok) (c : UInt8) (hc : blank c = true)
      (rest : List UInt8) (hr : Unmatched rest) : Unmatched (sp ++ w.text ++ c :: rest)

/-- A string that ends in a word that is a single quote character. -/
inductive LoneQuote : List Word → UInt8 → List UInt8 → Prop
  | here (sp : List UInt8) (h : ∀ c ∈ sp, blank c = true) (q : UInt8) (hq : q = 0x22 ∨ q = 0x27) : LoneQuote [] q (sp ++ [q])
  | later (sp : List UInt8) (h : ∀ c ∈ sp, blank c = true) (w : Word) (hw : w.ok) (c : UInt8) (hc : blank c = true)
      (ws : List Word) (q : UInt8) (rest : List UInt8) (hr : LoneQuote ws q rest) : LoneQuote (w :: ws) q (sp ++ w.text ++ c :: rest)

/-- The argument a word stands for on a console called `name`: `%N` is replaced by the name except between single quotes. -/
def Word.arg (name : List UInt8) : Word → List UInt8
  | bare w => substAll 0x4E name w
  | quoted q w => if q = 0x27 then w else substAll 0x4E name w

/-- Is the argument subject to substitution and hence to the length limit? -/
def Word.subst : Word → Bool
  | bare _ => true
  | quoted q _ => q ≠ 0x27

end Conman.Spec
