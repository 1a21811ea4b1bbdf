import Verif.Model.Esc

/-
The loop of `connect_console` (src/client-tty.c:105-125) in small steps, so that signals can come at any place of it.
-/
namespace Conman

/-- Places of the loop. -/
inductive CPc where
  /-- `while (!done)`, src/client-tty.c:105 -/
  | test
  /-- before select(), line 107 -/
  | call
  /-- in select() -/
  | blocked
  /-- `read_from_stdin`, lines 116-119; whether the socket is in `rset`, too -/
  | keyAt (sock : Bool)
  /-- in the write_n() of lines 244 or 296; whether the process stops itself then (`&Z`); whether the socket is in `rset` -/
  | send (stop sock : Bool)
  /-- stopped, line 624 -/
  | stopped (sock : Bool)
  /-- `write_to_stdout`, lines 120-123 -/
  | sockAt
  /-- in the write_n() of line 275 -/
  | shown
  /-- the loop was left -/
  | ended
deriving Repr, DecidableEq

/-- The client in its loop: what waits to be read from the terminal and from the server (`none`: end of file), and whether the socket and the terminal take no more. -/
structure CLoop where
  cs : CState
  /-- `done` as set by the handler, src/client-tty.c:147-152; the other assignments to `done` are in `cs` -/
  term : Bool := false
  pc : CPc := .test
  keys : List (Option UInt8) := []
  data : List (Option (List UInt8)) := []
  full : Bool := false
  ttyFull : Bool := false
deriving Repr, DecidableEq

/-- What happens: the process goes on, if it can; something is typed or comes from the server; the socket or the terminal take no more or do so again; signals; the
process is continued.  SIGHUP, SIGINT, SIGQUIT and SIGPIPE are ignored, src/client-tty.c:87-90. -/
inductive CLEv where
  | go
  | key (k : Option UInt8)
  | data (d : Option (List UInt8))
  | full (b : Bool)
  | ttyFull (b : Bool)
  | term
  | ignored
  | cont
deriving Repr, DecidableEq

/-- After `read_from_stdin`. -/
def CPc.after (sock : Bool) : CPc := if sock then .sockAt else .test

/-- A step of the process.  The writes of `locally_echo_esc` and `locally_display_status` are taken not to block; `&Z` sends both its sequences before it stops. -/
def CLoop.go (s : CLoop) : CLoop :=
  match s.pc with
  | .test => if s.term || s.cs.done then { s with pc := .ended } else { s with pc := .call }
  | .call | .blocked =>
    match s.keys, s.data with
    | [], [] => { s with pc := .blocked }
    | [], _ :: _ => { s with pc := .sockAt }
    | _ :: _, d => { s with pc := .keyAt (!d.isEmpty) }
  | .keyAt b =>
    match s.keys with
    | [] => s
    | none :: ks => { s with cs := { s.cs with done := true }, keys := ks, pc := .after b }
    | some c :: ks =>
      { s with
        cs := (s.cs.key c).1
        keys := ks
        pc := if (s.cs.key c).2 = [] then .after b else .send (s.cs.inEsc && c = 0x5A) b }
  | .send z b => if s.full then s else if z then { s with pc := .stopped b } else { s with pc := .after b }
  | .stopped _ => s
  | .sockAt =>
    match s.data with
    | [] => s
    | none :: ds => { s with cs := { s.cs with done := true }, data := ds, pc := .test }
    | some _ :: ds => { s with data := ds, pc := .shown }
  | .shown => if s.ttyFull then s else { s with pc := .test }
  | .ended => s

/-- One event.  A signal that is handled interrupts select() with `done` set (lines 107-114: `break`, `continue`); write_n() and read() are called again. -/
def CLoop.step (s : CLoop) : CLEv → CLoop
  | .go => s.go
  | .key k => { s with keys := s.keys ++ [k] }
  | .data d => { s with data := s.data ++ [d] }
  | .full b => { s with full := b }
  | .ttyFull b => { s with ttyFull := b }
  | .term => { s with term := true, pc := if s.pc = .blocked then .test else s.pc }
  | .ignored => s
  | .cont =>
    match s.pc with
    | .stopped b => { s with pc := .after b }
    | _ => s

def CLoop.run (s : CLoop) (es : List CLEv) : CLoop := es.foldl CLoop.step s

end Conman
