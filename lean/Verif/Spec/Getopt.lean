import Verif.Spec.ClientArgs

/-
Command lines, for any options.  (C87)
-/
namespace Conman.Spec

/-- What the words of a command line mean, with the options `fl` without argument and `ar` with one: the options and the operands, each in order.  Options without
argument can be joined; an argument follows its option or is the next word; operands can stand between options; `--` ends the options. -/
inductive GWords (fl ar : List UInt8) : List (List UInt8) → List COpt → List (List UInt8) → Prop
  | nil : GWords fl ar [] [] []
  | stop (r) : GWords fl ar (bs "--" :: r) [] r
  | operand (a r os ps) : isOperand a → GWords fl ar r os ps → GWords fl ar (a :: r) os (a :: ps)
  | flags (cs r os ps) : cs ≠ [] → (∀ c ∈ cs, c ∈ fl) → GWords fl ar r os ps → GWords fl ar ((0x2D :: cs) :: r) (cs.map .flag ++ os) ps
  | attached (cs c v r os ps) : (∀ x ∈ cs, x ∈ fl) → c ∈ ar → v ≠ [] → GWords fl ar r os ps → GWords fl ar ((0x2D :: (cs ++ c :: v)) :: r) (cs.map .flag ++ .arg c v :: os) ps
  | separate (cs c v r os ps) : (∀ x ∈ cs, x ∈ fl) → c ∈ ar → GWords fl ar r os ps → GWords fl ar ((0x2D :: (cs ++ [c])) :: v :: r) (cs.map .flag ++ .arg c v :: os) ps

/-- Words that mean nothing from some word on: an option `c` that does not exist, or that wants an argument and is the last word. -/
inductive GBad (fl ar : List UInt8) : List (List UInt8) → List COpt → UInt8 → Prop
  | unknown (cs c v r) : (∀ x ∈ cs, x ∈ fl) → c ∉ fl → c ∉ ar → cs ++ c :: v ≠ [0x2D] → GBad fl ar ((0x2D :: (cs ++ c :: v)) :: r) (cs.map .flag) c
  | missing (cs c) : (∀ x ∈ cs, x ∈ fl) → c ∈ ar → GBad fl ar [0x2D :: (cs ++ [c])] (cs.map .flag) c
  | operand (a r os c) : isOperand a → GBad fl ar r os c → GBad fl ar (a :: r) os c
  | flags (cs r os c) : cs ≠ [] → (∀ x ∈ cs, x ∈ fl) → GBad fl ar r os c → GBad fl ar ((0x2D :: cs) :: r) (cs.map .flag ++ os) c
  | attached (cs x v r os c) : (∀ y ∈ cs, y ∈ fl) → x ∈ ar → v ≠ [] → GBad fl ar r os c → GBad fl ar ((0x2D :: (cs ++ x :: v)) :: r) (cs.map .flag ++ .arg x v :: os) c
  | separate (cs x v r os c) : (∀ y ∈ cs, y ∈ fl) → x ∈ ar → GBad fl ar r os c → GBad fl ar ((0x2D :: (cs ++ [x])) :: v :: r) (cs.map .flag ++ .arg x v :: os) c

end Conman.Spec
