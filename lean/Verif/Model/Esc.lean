import Verif.Model.Basic

/-
Model of the escape protocol between client and server:
`read_from_stdin` and the `perform_*_esc` functions of src/client-tty.c, and
`process_client_escapes` of src/server-esc.c.
-/
namespace Conman

/-! ### Server side -/

/-- Result of `process_client_escapes`. -/
structure Unesc where
  /-- `client->aux.client.gotEscape` on return -/
  gotEscape : Bool
  /-- the modified buffer -/
  buf : List UInt8
  /-- the returned length: `buf[0..len)` is the data to forward -/
  len : Nat
  /-- the escape codes acted upon, in order (the `switch` at 79-120; codes
  without a `case` only cause a log message) -/
  acts : List UInt8
deriving Repr, DecidableEq

/-- The loop of `process_client_escapes`, src/server-esc.c:76-128, on the
buffer `buf` with read offset `p` and write offset `q` (both pointers walk the
same memory).  `esc` is `gotEscape`. -/
def unescLoop (buf : List UInt8) (p q : Nat) (esc : Bool) (acts : List UInt8) : Unesc :=
  if h : p < buf.length then
    let c := buf[p]
    if esc then
      -- 77-121
      if c = escChar then unescLoop (buf.set q c) (p + 1) (q + 1) false acts
      else unescLoop buf (p + 1) q false (acts ++ [c])
    else if c = escChar then unescLoop buf (p + 1) q true acts      -- 122-124
    else unescLoop (buf.set q c) (p + 1) (q + 1) false acts          -- 125-127
  else { gotEscape := esc, buf := buf, len := q, acts := acts }
termination_by buf.length - p
decreasing_by all_goals (try simp only [List.length_set]); omega

/-- `process_client_escapes`, src/server-esc.c:59-133. -/
def processClientEscapes (esc : Bool) (src : List UInt8) : Unesc :=
  unescLoop src 0 0 esc []

/-- Data forwarded by one call: `buf[0..len)` (src/server-obj.c:935-955). -/
def Unesc.data (u : Unesc) : List UInt8 := u.buf.take u.len

/-- A client's byte stream arriving in reads `chunks`: final `gotEscape`, data
forwarded by all calls, codes acted upon by all calls. -/
def unescChunks (esc : Bool) : List (List UInt8) → Bool × List UInt8 × List UInt8
  | [] => (esc, [], [])
  | c :: cs =>
    let u := processClientEscapes esc c
    let (e, d, a) := unescChunks u.gotEscape cs
    (e, u.data ++ d, u.acts ++ a)

/-! ### Client side -/

/-- `req->command` of a session, src/common.h:136 (`CONMAN_CMD_CONNECT`,
`CONMAN_CMD_MONITOR`). -/
inductive Cmd where
  | connect | monitor
deriving Repr, DecidableEq

/-- The parts of `client_conf_t` and its request that `read_from_stdin` uses.
`inEsc` is `mode == ESC` (the modes CHR and EOL behave alike,
src/client-tty.c:163,176,180-181,218-221); `wrClosed` is the state after
`shutdown(sd, SHUT_WR)`; `done` is the variable `done` of `connect_console`. -/
structure CState where
  esc : UInt8
  inEsc : Bool := false
  cmd : Cmd := .connect
  bcast : Bool := false
  force : Bool := false
  join : Bool := false
  quiet : Bool := false
  reset : Bool := false
  echo : Bool := false
  wrClosed : Bool := false
  done : Bool := false
deriving Repr, DecidableEq

/-- `write_n(conf->req->sd, ...)`: after the write side was shut down it fails
with EPIPE, the caller returns 0 and `connect_console` stops
(src/client-tty.c:116-119, 244-249, 296-301). -/
def CState.send (s : CState) (out : List UInt8) : CState × List UInt8 :=
  if s.wrClosed then ({ s with done := true }, []) else (s, out)

/-- `send_esc_seq`, src/client-tty.c:285-302. -/
def CState.sendEsc (s : CState) (c : UInt8) : CState × List UInt8 := s.send [escChar, c]

/-- The stuffing loop of `read_from_stdin`, src/client-tty.c:238-243: `q` runs
from the last byte down to the first; each `ESC_CHAR` is doubled by shifting
`buf[q..]` up by one. `k` is `q + 1 - buf`. -/
def stuffLoop (buf : List UInt8) : Nat → List UInt8
  | 0 => buf
  | k + 1 =>
    if buf[k]? = some escChar then stuffLoop (buf.take (k + 1) ++ buf.drop k) k
    else stuffLoop buf k

/-- The `switch` of `read_from_stdin` (src/client-tty.c:182-209) with the
`perform_*_esc` functions (305-636).  `none`: no `case` for this character.
Output to the terminal is left out.  In `Z` the process stops between the two
sends; that it is stopped is left out. -/
def CState.escape (s : CState) (c : UInt8) : Option (CState × List UInt8) :=
  if c = 0x42 then        -- 'B', 305-314
    some (if s.cmd = .connect then s.sendEsc c else (s, []))
  else if c = 0x2E then   -- '.', 317-332
    some ({ s with wrClosed := true }, [])
  else if c = 0x44 then   -- 'D', 335-348
    some (if s.cmd = .connect then s.sendEsc c else (s, []))
  else if c = 0x45 then   -- 'E', 351-365
    some (if s.cmd = .connect then ({ s with echo := !s.echo }, []) else (s, []))
  else if c = 0x46 then   -- 'F', 368-382
    some (if s.cmd = .monitor then
      ({ s with cmd := .connect, force := true, join := false } : CState).sendEsc c else (s, []))
  else if c = 0x3F then some (s, [])   -- '?', 385-503
  else if c = 0x49 then some (s, [])   -- 'I', 506-531
  else if c = 0x4A then   -- 'J', 534-548
    some (if s.cmd = .monitor then
      ({ s with cmd := .connect, force := false, join := true } : CState).sendEsc c else (s, []))
  else if c = 0x4C then   -- 'L', 551-561
    some (if s.bcast then (s, []) else s.sendEsc c)
  else if c = 0x4D then   -- 'M', 564-579
    some (if s.cmd = .connect ∧ s.bcast = false then
      ({ s with cmd := .monitor, force := false, join := false } : CState).sendEsc c else (s, []))
  else if c = 0x51 then   -- 'Q', 582-590
    some (({ s with quiet := !s.quiet } : CState).sendEsc c)
  else if c = 0x52 then   -- 'R', 593-603
    some (if s.cmd = .connect ∧ s.reset = true then s.sendEsc c else (s, []))
  else if c = 0x5A then   -- 'Z', 606-636
    some (s.send [escChar, c, escChar, c])
  else none

/-- Bytes pushed into `buf` and sent, src/client-tty.c:210-250. -/
def CState.put (s : CState) (buf : List UInt8) : CState × List UInt8 :=
  if s.cmd = .connect then s.send (stuffLoop buf buf.length) else (s, [])

/-- One keystroke: `read_from_stdin`, src/client-tty.c:155-252.  The comparison
`c == esc` at 176 and 210 is between an unsigned and a signed char, so an
escape character of 0x80 or above never matches. -/
def CState.key (s : CState) (c : UInt8) : CState × List UInt8 :=
  if s.done then (s, [])
  else
    let isEsc := c = s.esc ∧ s.esc < 0x80
    if ¬ s.inEsc ∧ isEsc then ({ s with inEsc := true }, [])
    else if s.inEsc then
      let s := { s with inEsc := false }
      match s.escape c with
      | some r => r
      | none => if isEsc then s.put [c] else s.put [s.esc, c]
    else s.put [c]

/-- A sequence of keystrokes; the output is the byte stream on the socket. -/
def CState.keys (s : CState) : List UInt8 → CState × List UInt8
  | [] => (s, [])
  | c :: cs =>
    let (s1, o) := s.key c
    let (s2, os) := s1.keys cs
    (s2, o ++ os)

end Conman
