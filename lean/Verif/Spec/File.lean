import Verif.Model.Basic

/-
Lines and directory names.
-/
namespace Conman.Spec

/-- A text up to and including its first newline, or all of it. -/
def firstLine : List UInt8 → List UInt8
  | [] => []
  | c :: s => if c = 0x0A then [c] else c :: firstLine s

def slashes (s : List UInt8) : Prop := ∀ c ∈ s, c = 0x2F
/-- One component of a path. -/
def component (s : List UInt8) : Prop := s ≠ [] ∧ ∀ c ∈ s, c ≠ 0x2F

/-- `DirName path dir`: the directory of the last component of a path. -/
inductive DirName : List UInt8 → List UInt8 → Prop
  | empty : DirName [] (bs ".")
  | root (s : List UInt8) (h0 : s ≠ []) (h : slashes s) : DirName s (bs "/")
  | here (c t : List UInt8) (hc : component c) (ht : slashes t) : DirName (c ++ t) (bs ".")
  | top (s c t : List UInt8) (h0 : s ≠ []) (hs : slashes s) (hc : component c) (ht : slashes t) : DirName (s ++ c ++ t) (bs "/")
  | under (d : List UInt8) (x : UInt8) (hx : x ≠ 0x2F) (s c t : List UInt8) (h0 : s ≠ []) (hs : slashes s) (hc : component c) (ht : slashes t) :
      DirName (d ++ [x] ++ s ++ c ++ t) (d ++ [x])

/-- `d` is a prefix of a path that ends with a component. -/
def isAncestor (d path : List UInt8) : Prop := ∃ r, path = d ++ r ∧ (r = [] ∨ r.head? = some 0x2F) ∧ (∃ a x, d = a ++ [x] ∧ x ≠ 0x2F)

end Conman.Spec
