import Verif.Model.Ring

/-
Messages of the daemon about output that is lost: `write_obj_data` (src/server-obj.c:961-1075), `shutdown_obj` (src/server-obj.c:797-862), `destroy_obj`
(src/server-obj.c:141-158).
-/
namespace Conman

/-- The number in "Overwrote %d bytes", src/server-obj.c:1017 and 1043-1047, if there is one. -/
def Ring.overwrote (r : Ring) (data : List UInt8) : Option Int :=
  if data.length = 0 then none
  else
    let len := (if data.length ≥ objBufSize then data.take (objBufSize - 1) else data).length
    let avail : Int := (objBufSize : Int) - 1 - r.numBuffered
    if (len : Int) > avail then some (len - avail) else none

/-- An object, as far as its output is concerned; its flags `gotEOF`, `enableQuiet` and `gotSuspend`, src/server.h:118-143, 254-270. -/
structure LObj where
  ring : Ring
  client : Bool
  eof : Bool := false
  quiet : Bool := false
  suspend : Bool := false
deriving Repr, DecidableEq

/-- "Overwrote n bytes", "Attempted to write n bytes after EOF", "Flushed n bytes of unwritten data", "Destroying with n bytes of unwritten data". -/
inductive LossMsg where
  | overwrote (n : Int)
  | afterEof (n : Nat)
  | flushed (n : Nat)
  | destroyed (n : Nat)
deriving Repr, DecidableEq

/-- `write_obj_data`, src/server-obj.c:961-1075, with its messages. -/
def LObj.write (o : LObj) (d : List UInt8) (isInfo : Bool) : Option (LObj × List LossMsg) :=
  if d.length = 0 then some (o, [])
  else if o.eof then some (o, [.afterEof d.length])
  else if isInfo && o.client && o.quiet then some (o, [])
  else (o.ring.write d).map fun r => ({ o with ring := r },
    match o.ring.overwrote d with
    | some n => if !o.client || !o.suspend then [.overwrote n] else []
    | none => [])

/-- What happens to an object: a write, a flush (`write_to_obj`) of which the descriptor takes `n` bytes, the end of its input, the commands `&Z` and `&Q`, its shutdown. -/
inductive LossOp where
  | write (d : List UInt8) (isInfo : Bool)
  | flush (n : Nat)
  | eof
  | suspend (b : Bool)
  | quiet (b : Bool)
  | shutdown
deriving Repr, DecidableEq

/-- `shutdown_obj`, src/server-obj.c:832-846, of an object that is open. -/
def LObj.shutdown (o : LObj) : LObj × List LossMsg :=
  ({ o with ring := o.ring.reset, eof := false }, if o.ring.numBuffered > 0 then [.flushed o.ring.numBuffered] else [])

/-- One of these: what reaches the descriptor, and the messages. -/
def LObj.step (o : LObj) : LossOp → Option (LObj × List UInt8 × List LossMsg)
  | .write d i => (o.write d i).map fun r => (r.1, [], r.2)
  | .flush n => (o.ring.flush n).map fun r => ({ o with ring := r.1 }, r.2, [])
  | .eof => some ({ o with eof := true }, [], [])
  | .suspend b => some ({ o with suspend := b }, [], [])
  | .quiet b => some ({ o with quiet := b }, [], [])
  | .shutdown => some (o.shutdown.1, [], o.shutdown.2)

/-- A history. -/
def LObj.run (o : LObj) : List LossOp → Option (LObj × List UInt8 × List LossMsg)
  | [] => some (o, [], [])
  | op :: ops => (o.step op).bind fun r => (r.1.run ops).map fun t => (t.1, r.2.1 ++ t.2.1, r.2.2 ++ t.2.2)

/-- `destroy_obj`, src/server-obj.c:153-158. -/
def LObj.destroy (o : LObj) : List LossMsg := if o.ring.numBuffered > 0 then [.destroyed o.ring.numBuffered] else []

/-- `create_obj`, src/server-obj.c:79-95. -/
def LObj.create (mem : List UInt8) (client : Bool) : LObj := { ring := .create mem, client := client }

end Conman
