import Verif.Model.Basic
import Verif.Model.Ring

/-
Model of `perform_log_replay`, src/server-esc.c:262-391.
-/
namespace Conman

/-- What `perform_log_replay` does for a client with one writer. -/
inductive ReplayOut where
  /-- a memory access outside a buffer -/
  | ub
  /-- `return` without writing anything to the client (301-306, 315-320,
  328-333) -/
  | nothing
  /-- `write_obj_data(client, buf, ptr - buf, 0)` (389) with these bytes -/
  | wrote (data : List UInt8)
deriving Repr, DecidableEq

/-- The text of `snprintf(ptr, len, "%s<a> [%s]<b>%s", PREFIX, name, SUFFIX)`. -/
def replayMsg (verb name tail : List UInt8) : List UInt8 :=
  msgPrefix ++ verb ++ bs " [" ++ name ++ bs "]" ++ tail ++ msgSuffix

/-- `perform_log_replay`, src/server-esc.c:276-389, for a client whose console
is called `name`; `log` is the buffer of the console's logfile object, if it
has one.  The scratch buffer has `OBJ_BUF_SIZE - 1` bytes (276).  The two
asserts at 360 and 384 are not executed (NDEBUG): `memcpy` of 0 bytes is
harmless, and a truncated end message leaves a NUL as last byte of the
scratch buffer. -/
def performLogReplay (name : List UInt8) (log : Option Ring) : ReplayOut :=
  let size : Nat := objBufSize - 1
  match log with
  | none =>
    let msg := replayMsg (bs "Console") name (bs " is not being logged -- cannot replay")
    if msg.length ≥ size then .nothing else .wrote msg
  | some r =>
    let b := replayMsg (bs "Begin log replay of console") name []
    if b.length ≥ size then .nothing
    else
      -- 321-333
      let room : Int := (size : Int) - b.length - (b.length - 2)
      if room ≤ 0 then .nothing
      else
        match r.replay room.toNat with
        | none => .ub
        | some w =>
          -- 380-385
          let e := replayMsg (bs "End log replay of console") name []
          if b.length + w.length > size then .ub
          else
            let len := size - (b.length + w.length)
            if e.length < len then .wrote (b ++ w ++ e)
            else if e.length = len then .wrote (b ++ w ++ e.dropLast ++ [0])
            else .ub

end Conman
