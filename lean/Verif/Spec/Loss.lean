import Verif.Model.Loss

/-
Specification for C111.
-/
namespace Conman

/-- How many bytes a message says are lost. -/
def LossMsg.lost : LossMsg → Int
  | .overwrote n => n
  | .afterEof n | .flushed n | .destroyed n => n

/-- How many bytes the messages say are lost. -/
def Spec.lostBytes (l : List LossMsg) : Int := (l.map LossMsg.lost).sum

/-- What was written to an object. -/
def Spec.givenTo : List LossOp → List UInt8
  | [] => []
  | .write d _ :: ops => d ++ givenTo ops
  | _ :: ops => givenTo ops

/-- No single write is longer than the buffer; a client neither suspends its output nor, while `quiet`, wants messages withheld. -/
def Spec.Open (client : Bool) (op : LossOp) : Prop :=
  match op with
  | .write d _ => d.length < 16384
  | .suspend b | .quiet b => client = true → b = false
  | _ => True

end Conman
