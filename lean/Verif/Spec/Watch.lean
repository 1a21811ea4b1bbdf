import Verif.Spec.Slow

/-
Specification for C115: a client that only watches, and the world without it.
-/
namespace Conman
namespace Spec

/-- Can the bytes of one read contain the code of a command that asks for writing, or gives it up (`F`, `J`, `M`)?  `p`:
the byte before may be the escape byte. -/
def noModeCode : Bool → List UInt8 → Bool
  | _, [] => true
  | p, b :: d => !(p && (b = 0x46 || b = 0x4A || b = 0x4D)) && noModeCode (b = 0xFF) d

/-- The step is about other objects, or an input or output event of `m`, in which it does not type such a code. -/
def onlyWatches (m : Nat) : Step → Bool
  | .poll i _ (some (.data d)) _ => i ≠ m || noModeCode true d
  | .poll _ _ _ _ => true
  | .check _ => true
  | .childExit _ _ => true
  | .grant c _ => c ≠ m
  | .connUp i => i ≠ m
  | .connPend i => i ≠ m
  | .connDown i => i ≠ m
  | .connFail i => i ≠ m
  | .resetTimeout i => i ≠ m
  | .logOpen i _ => i ≠ m
  | .logStamp i => i ≠ m

/-- The same without the events of `m`. -/
def sansClient (m : Nat) : Step → Step
  | .poll i up rd wr => if i = m then .check { cmd := .connect, consoles := [] } else .poll i up rd wr
  | s => s

/-- `v` is `w` without the client `m`. -/
structure Unseen (m : Nat) (w v : World) : Prop where
  obj : ∀ j, j ≠ m → v.obj j = { w.obj j with readers := (w.obj j).readers.filter (· ≠ m) }
  live : v.live = w.live.filter (· ≠ m)
  running : v.running = w.running
  wait : v.wait = w.wait
  fx : v.fx.filter (fun e => !isSentTo m e) = w.fx.filter (fun e => !isSentTo m e)

/-- `w` without the client `m`. -/
def without (m : Nat) (w : World) : World :=
  { w with
    obj := fun j => if j = m then {} else { w.obj j with readers := (w.obj j).readers.filter (· ≠ m) }
    live := w.live.filter (· ≠ m) }

end Spec
end Conman
