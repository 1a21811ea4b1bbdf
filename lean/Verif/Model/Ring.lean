import Verif.Spec.Queue

/-
Model of the circular output buffer of an object (`base_obj.buf`,
src/server.h:254-270; src/server-obj.c).

Offsets stand for pointers: `inP` is `bufInPtr - buf`, `outP` is
`bufOutPtr - buf`.  `none` is the outcome "a memory access outside `buf`".
-/
namespace Conman

/-- `OBJ_BUF_SIZE`, src/common.h:83. -/
def objBufSize : Nat := 16384

/-- Fields `buf`, `bufInPtr`, `bufOutPtr`, `gotBufWrap` of `base_obj`,
src/server.h:254-270.  The locks are left out: every function below runs with
`bufLock` held. -/
structure Ring where
  buf  : List UInt8
  inP  : Nat
  outP : Nat
  wrap : Bool
deriving Repr, DecidableEq

/-- `create_obj`, src/server-obj.c:79,87.  The initial content of `buf` is
whatever `malloc` returned, hence a parameter. -/
def Ring.create (mem : List UInt8) : Ring :=
  { buf := mem, inP := 0, outP := 0, wrap := false }

/-- `num_bytes_buffered`, src/server-obj.c:1185-1202. -/
def Ring.numBuffered (r : Ring) : Nat :=
  if r.inP ≥ r.outP then r.inP - r.outP
  else (objBufSize - r.outP) + r.inP

/-- `memcpy(&mem[off], src, src.length)`; `none` if it leaves `mem`. -/
def memcpy (mem : List UInt8) (off : Nat) (src : List UInt8) :
    Option (List UInt8) :=
  if off + src.length ≤ mem.length then
    some (mem.take off ++ src ++ mem.drop (off + src.length))
  else none

/-- The part of `write_obj_data` that touches the buffer,
src/server-obj.c:976-1052: truncation of over-long data (990-992), the two
chunk copies (1021-1040) and the overwrite check (1043-1052).  The flags
(EOF, quiet, suspend) are in `Model/Obj.lean`. -/
def Ring.write (r : Ring) (data : List UInt8) : Option Ring := do
  -- 976: len <= 0
  if data.length = 0 then return r
  -- 990-992
  let src := if data.length ≥ objBufSize then data.take (objBufSize - 1) else data
  let len := src.length
  -- 1017 (`avail` is an int and may not go below zero here, see `Ring.Ok`)
  let avail : Int := (objBufSize : Int) - 1 - r.numBuffered
  -- 1021-1034
  let m := min len (objBufSize - r.inP)
  let buf1 ← memcpy r.buf r.inP (src.take m)
  let in1 := r.inP + m
  let (in2, wrap2) := if in1 = objBufSize then (0, true) else (in1, r.wrap)
  -- 1037-1040
  let n := len - m
  let buf2 ← if n > 0 then memcpy buf1 in2 (src.drop m) else some buf1
  let in3 := in2 + n
  -- 1043-1052
  let out1 :=
    if (len : Int) > avail then
      (if in3 + 1 = objBufSize then 0 else in3 + 1)
    else r.outP
  return { buf := buf2, inP := in3, outP := out1, wrap := wrap2 }

/-- `mem[off .. off+len)`; `none` if it leaves `mem`. -/
def memread (mem : List UInt8) (off len : Nat) : Option (List UInt8) :=
  if off + len ≤ mem.length then some ((mem.drop off).take len) else none

/-- The bytes described by the iovec built in `write_to_obj`,
src/server-obj.c:1110-1131. -/
def Ring.iov (r : Ring) : Option (List UInt8) :=
  if r.outP > r.inP then do
    let a ← memread r.buf r.outP (objBufSize - r.outP)
    if r.inP > 0 then
      let b ← memread r.buf 0 r.inP
      return a ++ b
    else return a
  else if r.inP > r.outP then memread r.buf r.outP (r.inP - r.outP)
  else some []

/-- Advance of `bufOutPtr` after `writev` returned `n > 0`,
src/server-obj.c:1150-1156. -/
def Ring.advance (r : Ring) (n : Nat) : Ring :=
  let o := r.outP + n
  { r with outP := if o ≥ objBufSize then o - objBufSize else o }

/-- One flush, src/server-obj.c:1110-1157: `writev` takes the first
`min accept total` bytes of the iovec.  `accept = 0` also stands for a failed
`writev` (EAGAIN). Returns the bytes handed to the descriptor. -/
def Ring.flush (r : Ring) (accept : Nat) : Option (Ring × List UInt8) := do
  let v ← r.iov
  let n := min accept v.length
  if n > 0 then return (r.advance n, v.take n) else return (r, [])

/-- `shutdown_obj`, src/server-obj.c:835-839.  `gotBufWrap` is *not* reset. -/
def Ring.reset (r : Ring) : Ring := { r with inP := 0, outP := 0 }

/-- What happens to one buffer. -/
inductive RingOp where
  | write (data : List UInt8)
  | flush (accept : Nat)
  | reset
deriving Repr, DecidableEq

/-- One operation; the output is what reached the descriptor. -/
def Ring.step (r : Ring) : RingOp → Option (Ring × List UInt8)
  | .write d => (r.write d).map (·, [])
  | .flush n => r.flush n
  | .reset => some (r.reset, [])

/-- A history of operations; `none` if any access left the buffer.  The
second component lists the bytes each operation sent to the descriptor. -/
def Ring.run (r : Ring) : List RingOp → Option (Ring × List (List UInt8))
  | [] => some (r, [])
  | op :: ops => do
    let (r1, o) ← r.step op
    let (r2, os) ← r1.run ops
    return (r2, o :: os)

/-- The bytes copied by `perform_log_replay` out of the log's buffer,
src/server-esc.c:336-374, where `room` is `len` (space left in the scratch
buffer) and 4096 is `LOG_REPLAY_LEN` (src/common.h:84). -/
def Ring.replay (r : Ring) (room : Nat) : Option (List UInt8) :=
  let n0 := if r.wrap then objBufSize - 1 else r.inP
  let n1 := if n0 > 4096 then 4096 else n0
  let n := if n1 > room then room else n1
  if n ≤ r.inP then memread r.buf (r.inP - n) n
  else do
    let m := n - r.inP
    -- `p = &buf[OBJ_BUF_SIZE] - m` leaves the buffer if m > OBJ_BUF_SIZE
    if m > objBufSize then none
    let a ← memread r.buf (objBufSize - m) m
    let b ← memread r.buf 0 (n - m)
    return a ++ b

/-- The queue operation an operation on the buffer stands for. -/
def RingOp.toQ : RingOp → Spec.QOp
  | .write d => .put d
  | .flush n => .take n
  | .reset => .clear

/-- The data written by a history, in order. -/
def written : List RingOp → List UInt8
  | [] => []
  | .write d :: ops => d ++ written ops
  | _ :: ops => written ops

end Conman
