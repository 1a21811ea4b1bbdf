import Verif.Model.Basic

/-
The lexical grammar of configuration files and protocol messages.
-/
namespace Conman.Spec

/-- Line ends in a text: LF, CR or CR LF. -/
def newlines : List UInt8 → Nat
  | [] => 0
  | [c] => if c = 0x0D ∨ c = 0x0A then 1 else 0
  | c :: d :: r =>
    if c = 0x0D ∧ d = 0x0A then 1 + newlines r
    else (if c = 0x0D ∨ c = 0x0A then 1 else 0) + newlines (d :: r)

def isNl (c : UInt8) : Prop := c = 0x0D ∨ c = 0x0A

instance (c : UInt8) : Decidable (isNl c) := by unfold isNl; infer_instance

/-- A text ends or starts with a line end. -/
def atLineEnd (s : List UInt8) : Prop := ∀ c, s.head? = some c → isNl c

def letter (c : UInt8) : Prop := (0x41 ≤ c ∧ c ≤ 0x5A) ∨ (0x61 ≤ c ∧ c ≤ 0x7A) ∨ c = 0x5F
def digit (c : UInt8) : Prop := 0x30 ≤ c ∧ c ≤ 0x39

instance (c : UInt8) : Decidable (letter c) := by unfold letter; infer_instance
instance (c : UInt8) : Decidable (digit c) := by unfold digit; infer_instance

/-- Upper case letters as lower case. -/
def downcase (c : UInt8) : UInt8 := if 0x41 ≤ c ∧ c ≤ 0x5A then c + 0x20 else c

/-- Equal except for the case of ASCII letters. -/
def sameName (a b : List UInt8) : Prop := a.map downcase = b.map downcase

instance (a b : List UInt8) : Decidable (sameName a b) := by unfold sameName; infer_instance

/-- `Skips a b`: in `a ++ b` the part `a` is blanks, comments and line continuations. -/
inductive Skips : List UInt8 → List UInt8 → Prop
  | nil (b : List UInt8) : Skips [] b
  | blank (c : UInt8) (h : c = 0x20 ∨ c = 0x09 ∨ c = 0x0B ∨ c = 0x0C) (a b : List UInt8) (h' : Skips a b) : Skips (c :: a) b
  | comment (w : List UInt8) (hw : ∀ c ∈ w, ¬ isNl c) (a b : List UInt8) (h : atLineEnd (a ++ b)) (h' : Skips a b) :
      Skips (0x23 :: w ++ a) b
  | continued (nl : List UInt8) (h : nl = [0x0A] ∨ nl = [0x0D, 0x0A]) (a b : List UInt8) (h' : Skips a b) : Skips (0x5C :: nl ++ a) b

inductive Token where
  | eof | eol | err | int | str
  /-- a keyword of the table, by number -/
  | key (i : Nat)
  | chr (c : UInt8)
deriving Repr, DecidableEq

/-- The number of a token. -/
def Token.code : Token → Int
  | eof => 0
  | eol => 256
  | err => -1
  | int => 257
  | str => 258
  | key i => 259 + i
  | chr c => if c.toNat < 128 then c.toNat else (c.toNat : Int) - 256

/-- `IsToken keys b r text t`: in `b ++ r`, the part `b` is the token `t`, and `text` is its text (at most 1023 bytes). -/
inductive IsToken (keys : List (List UInt8)) : List UInt8 → List UInt8 → List UInt8 → Token → Prop
  | eof : IsToken keys [] [] [] .eof
  | lf (r : List UInt8) : IsToken keys [0x0A] r [0x0A] .eol
  | crlf (r : List UInt8) : IsToken keys [0x0D, 0x0A] r [0x0A] .eol
  | cr (r : List UInt8) (h : r.head? ≠ some 0x0A) : IsToken keys [0x0D] r [0x0D] .eol
  | quoted (q : UInt8) (hq : q = 0x22 ∨ q = 0x27) (w r : List UInt8) (hw : ∀ c ∈ w, c ≠ q ∧ ¬ isNl c) :
      IsToken keys (q :: w ++ [q]) r (w.take 1023) .str
  | unmatched (q : UInt8) (hq : q = 0x22 ∨ q = 0x27) (w r : List UInt8) (hw : ∀ c ∈ w, c ≠ q ∧ ¬ isNl c) (hr : atLineEnd r) :
      IsToken keys (q :: w) r [] .err
  | keyword (c : UInt8) (w r : List UInt8) (hc : letter c) (hw : ∀ x ∈ w, letter x ∨ digit x) (hr : ∀ x, r.head? = some x → ¬ (letter x ∨ digit x))
      (i : Nat) (k : List UInt8) (hi : keys[i]? = some k) (hk : sameName (c :: w) k) : IsToken keys (c :: w) r (c :: w) (.key i)
  | word (c : UInt8) (w r : List UInt8) (hc : letter c) (hw : ∀ x ∈ w, letter x ∨ digit x) (hr : ∀ x, r.head? = some x → ¬ (letter x ∨ digit x))
      (hk : ∀ k ∈ keys, ¬ sameName (c :: w) k) : IsToken keys (c :: w) r ((c :: w).take 1023) .str
  | number (w r : List UInt8) (h0 : w ≠ []) (hw : ∀ x ∈ w, digit x) (hr : ∀ x, r.head? = some x → ¬ digit x) :
      IsToken keys w r (w.take 1023) .int
  | signed (s : UInt8) (hs : s = 0x2D ∨ s = 0x2B) (w r : List UInt8) (h0 : w ≠ []) (hw : ∀ x ∈ w, digit x)
      (hr : ∀ x, r.head? = some x → ¬ digit x) : IsToken keys (s :: w) r ((s :: w).take 1023) .int
  | chr (c : UInt8) (r : List UInt8)
      (h : ¬ (c = 0x20 ∨ c = 0x09 ∨ c = 0x0B ∨ c = 0x0C ∨ c = 0x23 ∨ isNl c ∨ c = 0x22 ∨ c = 0x27 ∨ letter c ∨ digit c))
      (hs : c = 0x2D ∨ c = 0x2B → ∀ x, r.head? = some x → ¬ digit x)
      (hb : c = 0x5C → r.head? ≠ some 0x0A ∧ ∀ r', r ≠ 0x0D :: 0x0A :: r') : IsToken keys [c] r [c] (.chr c)

/-- Alphabetical order of names written in lower case. -/
def namesLt : List UInt8 → List UInt8 → Prop
  | [], [] => False
  | [], _ :: _ => True
  | _ :: _, [] => False
  | a :: s, b :: t => downcase a < downcase b ∨ (downcase a = downcase b ∧ namesLt s t)

end Conman.Spec

namespace Conman.Spec

/-- A usable table of keywords: sorted, without NUL, entries shorter than the lexer's limit. -/
structure KeysOk (keys : List (List UInt8)) : Prop where
  sorted : keys.Pairwise namesLt
  nz : ∀ k ∈ keys, (0 : UInt8) ∉ k
  short : ∀ k ∈ keys, k.length < 1023

/-- `Lexes keys before s ts`: in a file that starts with `before`, the following text `s` is the sequence of tokens `ts`, given with
their texts and the numbers of the lines they start on. -/
inductive Lexes (keys : List (List UInt8)) : List UInt8 → List UInt8 → List (Token × List UInt8 × Nat) → Prop
  | done (before a : List UInt8) (ha : Skips a []) : Lexes keys before a [(.eof, [], 1 + newlines (before ++ a))]
  | step (before a b r text : List UInt8) (t : Token) (ts : List (Token × List UInt8 × Nat)) (ha : Skips a (b ++ r))
      (hb : IsToken keys b r text t) (h0 : b ≠ []) (hr : Lexes keys (before ++ a ++ b) r ts) :
      Lexes keys before (a ++ b ++ r) ((t, text, 1 + newlines (before ++ a)) :: ts)

end Conman.Spec
