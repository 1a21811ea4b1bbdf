import Verif.Model.Basic

/-
Model of the telnet protocol engine of src/server-telnet.c:
`process_telnet_escapes`, `process_telnet_cmd`, `send_telnet_cmd`.
Command and option numbers are those of <arpa/telnet.h>.
-/
namespace Conman

namespace Tel
/-- <arpa/telnet.h> -/
def IAC : UInt8 := 255
def DONT : UInt8 := 254
def DO : UInt8 := 253
def WONT : UInt8 := 252
def WILL : UInt8 := 251
def SB : UInt8 := 250
def SE : UInt8 := 240
def BINARY : UInt8 := 0
def ECHO : UInt8 := 1
def SGA : UInt8 := 3
/-- `TELCMD_OK`: between `xEOF` (236) and `IAC` (255). -/
def cmdOk (c : UInt8) : Bool := 236 ≤ c
end Tel
open Tel

/-- `send_telnet_cmd`, src/server-telnet.c:447-499, on a connection that is up:
the bytes written to the object's buffer (nothing for an invalid command). -/
def sendTelnetCmd (cmd : UInt8) (opt : Option UInt8) : List UInt8 :=
  if cmdOk cmd then
    IAC :: cmd :: (if cmd = DONT ∨ cmd = DO ∨ cmd = WONT ∨ cmd = WILL then
      -- `*p++ = opt` with opt = -1 stores 0xFF
      [opt.getD 255] else [])
  else []

/-- `process_telnet_cmd`, src/server-telnet.c:502-580: the bytes sent in reply.
`opt = none` is `opt == -1`. Log messages are left out. -/
def processTelnetCmd (cmd : UInt8) (opt : Option UInt8) : List UInt8 :=
  if cmdOk cmd = false then []
  else if cmd = DONT then []
  else if cmd = DO then
    if opt ≠ some BINARY ∧ opt ≠ some SGA then sendTelnetCmd WONT opt else []
  else if cmd = WONT then []
  else if cmd = WILL then
    if opt ≠ some BINARY ∧ opt ≠ some ECHO ∧ opt ≠ some SGA then sendTelnetCmd DONT opt else []
  else []

/-- Result of `process_telnet_escapes`. -/
structure TelOut where
  /-- `telnet->aux.telnet.iac` on return; `none` is -1 -/
  iac : Option UInt8
  /-- the modified buffer -/
  buf : List UInt8
  /-- returned length -/
  len : Nat
  /-- bytes written to the terminal server in reply -/
  sent : List UInt8
deriving Repr, DecidableEq

/-- The loop of `process_telnet_escapes`, src/server-telnet.c:380-436, on `buf`
with read offset `p` and write offset `q`.  `none`: the `default` branch at
432-435, where `log_err` terminates the daemon. -/
def telLoop (buf : List UInt8) (p q : Nat) (iac : Option UInt8) (sent : List UInt8) :
    Option TelOut :=
  if h : p < buf.length then
    let c := buf[p]
    match iac with
    | none =>                                                     -- 382-387
      if c = IAC then telLoop buf (p + 1) q (some c) sent
      else telLoop (buf.set q c) (p + 1) (q + 1) none sent
    | some s =>
      if s = IAC then                                             -- 388-413
        if c = IAC then telLoop (buf.set q c) (p + 1) (q + 1) none sent
        else if c = DONT ∨ c = DO ∨ c = WONT ∨ c = WILL ∨ c = SB then
          telLoop buf (p + 1) q (some c) sent
        else if c = SE then telLoop buf (p + 1) q none sent
        else telLoop buf (p + 1) q none (sent ++ processTelnetCmd c none)
      else if s = DONT ∨ s = DO ∨ s = WONT ∨ s = WILL then         -- 414-423
        telLoop buf (p + 1) q none (sent ++ processTelnetCmd s (some c))
      else if s = SB then                                         -- 424-431
        if c = IAC then telLoop buf (p + 1) q (some c) sent
        else telLoop buf (p + 1) q (some s) sent
      else none                                                   -- 432-435
  else some { iac := iac, buf := buf, len := q, sent := sent }
termination_by buf.length - p
decreasing_by all_goals (try simp only [List.length_set]); omega

/-- `process_telnet_escapes`, src/server-telnet.c:362-444. -/
def processTelnetEscapes (iac : Option UInt8) (src : List UInt8) : Option TelOut :=
  telLoop src 0 0 iac []

/-- A stream arriving in reads `chunks`: final `iac`, data passed on
(`buf[0..len)` of each call, src/server-obj.c:940-955), replies sent. -/
def telChunks (iac : Option UInt8) :
    List (List UInt8) → Option (Option UInt8 × List UInt8 × List UInt8)
  | [] => some (iac, [], [])
  | c :: cs =>
    match processTelnetEscapes iac c with
    | none => none
    | some o =>
      match telChunks o.iac cs with
      | none => none
      | some (i, d, s) => some (i, o.buf.take o.len ++ d, o.sent ++ s)

/-- The negotiation sent when a connection comes up,
src/server-telnet.c:286-290. -/
def telHello : List UInt8 :=
  sendTelnetCmd DO (some BINARY) ++ sendTelnetCmd DO (some ECHO) ++ sendTelnetCmd DO (some SGA) ++
  sendTelnetCmd WILL (some BINARY) ++ sendTelnetCmd WILL (some SGA)

end Conman
