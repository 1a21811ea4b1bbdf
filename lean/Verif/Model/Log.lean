import Verif.Model.Ring

/-
Model of `write_log_data`, src/server-logfile.c:356-468: the processing of
console data on its way into the console's log.
-/
namespace Conman

/-- `log_line_state_t`, src/server.h:112-117. -/
inductive LineState where
  | init | data | cr | lf
deriving Repr, DecidableEq

/-- `opts.enableSanitize`, `opts.enableTimestamp` (src/server.h:104-110).
`gotProcessing` is set iff one of them is (src/server-logfile.c:162-170). -/
structure LogOpts where
  sanitize : Bool
  timestamp : Bool
deriving Repr, DecidableEq

/-- `sizeof(buf)` of `write_log_data`, src/server-logfile.c:370. -/
def logBufCap : Nat := objBufSize - 1

/-- `minbuf`, src/server-logfile.c:369. -/
def logMinBuf : Nat := 25

/-- Local state of the loop: `lineState`, the bytes `buf[0..q)`, the number of
timestamps taken so far (index into the clock), the blocks handed to
`write_obj_data` so far. -/
structure LogWr where
  st : LineState
  buf : List UInt8 := []
  k : Nat := 0
  out : List (List UInt8) := []
deriving Repr, DecidableEq

/-- `*q++ = b`; `none` when `q` is at the end of the scratch buffer. -/
def LogWr.put (w : LogWr) (b : UInt8) : Option LogWr :=
  if w.buf.length < logBufCap then some { w with buf := w.buf ++ [b] } else none

/-- `q += write_time_string(0, q, qLast - q)` under `enableTimestamp`
(src/util-str.c:347-362).  `clk k` is the text of the `k`-th reading of the
clock; it is 20 characters "YYYY-MM-DD HH:MM:SS " (a hypothesis where used) and
`strftime` stores a NUL behind it, so it needs 21 bytes: `dstlen <= 20` writes
nothing.  `none` when text and NUL would not fit. -/
def LogWr.stamp (w : LogWr) (o : LogOpts) (clk : Nat → List UInt8) : Option LogWr :=
  if o.timestamp then
    if logBufCap - w.buf.length ≤ 20 then some w
    else if logBufCap < w.buf.length + (clk w.k).length + 1 then none
    else some { w with buf := w.buf ++ clk w.k, k := w.k + 1 }
  else some w

/-- The rendering of one text byte, src/server-logfile.c:435-455. -/
def logText (o : LogOpts) (p : UInt8) : List UInt8 :=
  if o.sanitize then
    let c := p &&& 0x7F
    if c < 0x20 then [if p &&& 0x80 ≠ 0 then 0x7E else 0x5E, c + 0x40]
    else if c = 0x7F then [if p &&& 0x80 ≠ 0 then 0x7E else 0x5E, 0x3F]
    else if p &&& 0x80 ≠ 0 then [0x60, c] else [c]
  else [p]

/-- Several stores in a row. -/
def LogWr.puts (w : LogWr) : List UInt8 → Option LogWr
  | [] => some w
  | b :: bs => (w.put b).bind (fun w => w.puts bs)

/-- The body of the loop, src/server-logfile.c:390-457, without the flush. -/
def LogWr.body (w : LogWr) (o : LogOpts) (clk : Nat → List UInt8) (p : UInt8) : Option LogWr :=
  if p = 0x0D then                                                  -- 396-408
    match w.st with
    | .data => some { w with st := .cr }
    | .init => (w.stamp o clk).map (fun w => { w with st := .cr })
    | _ => some w
  else if p = 0x0A then                                             -- 409-418
    let w1 := if w.st = .init ∨ w.st = .lf then w.stamp o clk else some w
    w1.bind fun w => (w.puts [0x0D, 0x0A]).map (fun w => { w with st := .lf })
  else if p = 0 ∧ (w.st = .cr ∨ w.st = .lf) then some w             -- 419-423
  else                                                              -- 424-457
    let w1 := if w.st = .cr then w.puts [0x0D, 0x0A] else some w
    w1.bind fun w =>
      let w2 := if w.st ≠ .data then w.stamp o clk else some w
      w2.bind fun w => ({ w with st := .data } : LogWr).puts (logText o p)

/-- `write_obj_data(log, buf, q - buf, 0); q = buf`. -/
def LogWr.flush (w : LogWr) : LogWr := { w with buf := [], out := w.out ++ [w.buf] }

/-- The loop, src/server-logfile.c:388-464. -/
def LogWr.loop (w : LogWr) (o : LogOpts) (clk : Nat → List UInt8) : List UInt8 → Option LogWr
  | [] => some w
  | p :: ps => (w.body o clk p).bind fun w =>
      (if logBufCap - w.buf.length < logMinBuf then w.flush else w).loop o clk ps

/-- `write_log_data`, src/server-logfile.c:356-468, in line state `st` with `k`
clock readings taken so far.  The result holds the new line state and the
blocks passed to `write_obj_data`, in order. -/
def writeLogData (o : LogOpts) (clk : Nat → List UInt8) (st : LineState) (k : Nat)
    (src : List UInt8) : Option LogWr :=
  if o.sanitize = false ∧ o.timestamp = false then
    some { st := st, buf := [], k := k, out := [src] }             -- 382-384
  else
    (({ st := st, k := k } : LogWr).loop o clk src).map LogWr.flush

/-- Console data arriving in reads `chunks`: line state, clock readings and all
bytes written to the log. -/
def logChunks (o : LogOpts) (clk : Nat → List UInt8) (st : LineState) (k : Nat) :
    List (List UInt8) → Option (LineState × Nat × List UInt8)
  | [] => some (st, k, [])
  | c :: cs =>
    match writeLogData o clk st k c with
    | none => none
    | some w =>
      match logChunks o clk w.st w.k cs with
      | none => none
      | some (s, k, d) => some (s, k, w.out.flatten ++ d)

end Conman
