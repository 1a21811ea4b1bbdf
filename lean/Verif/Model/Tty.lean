import Verif.Model.Esc
import Verif.Model.Opts
import Verif.Spec.Tty

/-
Terminals: the modes set by the client (src/common.c, src/client-tty.c) and for serial devices (src/server-serial.c).
-/
namespace Conman
open Spec

/-- `get_tty_raw`, src/common.c:176-217, for a terminal with these modes. -/
def ttyRaw (t : Termios) : Termios :=
  { t with
    iflag := t.iflag &&& ~~~(BRKINT ||| ICRNL ||| INPCK ||| ISTRIP ||| IXON)
    oflag := t.oflag &&& ~~~OPOST
    cflag := ((((t.cflag &&& ~~~CSIZE) ||| CS8) &&& ~~~PARENB) ||| CLOCAL)
    lflag := t.lflag &&& ~~~(ECHO ||| ECHOCTL ||| ICANON ||| IEXTEN ||| ISIG)
    vmin := 1
    vtime := 0 }

/-- `tty.c_lflag ^= ECHO`, src/client-tty.c:360-363. -/
def ttyEcho (t : Termios) : Termios := { t with lflag := t.lflag ^^^ ECHO }

/-- Data bits, src/server-serial.c:283-295. -/
def serSize (c : TWord) (d : Int) : TWord :=
  if d = 5 then (c &&& ~~~CSIZE) ||| CS5
  else if d = 6 then (c &&& ~~~CSIZE) ||| CS6
  else if d = 7 then (c &&& ~~~CSIZE) ||| CS7
  else (c &&& ~~~CSIZE) ||| CS8

/-- Parity, src/server-serial.c:297-306. -/
def serParity (c : TWord) (p : Int) : TWord :=
  if p = 1 then c ||| (PARENB ||| PARODD)
  else if p = 2 then (c ||| PARENB) &&& ~~~PARODD
  else c &&& ~~~(PARENB ||| PARODD)

/-- Stop bits, src/server-serial.c:308-313. -/
def serStop (c : TWord) (s : Int) : TWord := if s = 2 then c ||| CSTOPB else c &&& ~~~CSTOPB

/-- `set_serial_opts`, src/server-serial.c:258-316; that the speed is refused is left out. -/
def setSerial (t : Termios) (o : SerOpt) : Termios :=
  { t with cflag := serStop (serParity (serSize t.cflag o.databits) o.parity) o.stopbits, ispeed := o.bps, ospeed := o.bps }

/-! ### A session of the client -/

/-- What the process does. -/
inductive TPhase where
  | running
  | stopped
  | ended
  /-- ended by `log_err` -/
  | died
deriving Repr, DecidableEq

structure TSess where
  cs : CState
  /-- the modes of the terminal -/
  tty : Termios
  /-- `conf->tty` -/
  saved : Termios
  phase : TPhase := .running
deriving Repr, DecidableEq

/-- Events of the loop of `connect_console` (src/client-tty.c:105-125). -/
inductive TEvent where
  /-- a byte was read from the terminal -/
  | key (c : UInt8)
  /-- standard input ended, or the server has gone when a byte is sent (EPIPE) -/
  | keyEof
  /-- data of the server was read and written -/
  | data
  /-- the server closed the connection -/
  | sockEof
  /-- SIGTERM while waiting, or between the check of `done` and the call -/
  | term (waiting : Bool)
  /-- a call failed: `log_err` -/
  | fail
  /-- the stopped process goes on; the terminal has these modes by then; whether the second escape sequence can be sent -/
  | cont (t : Termios) (ok : Bool)
deriving Repr, DecidableEq

/-- The start, src/client-tty.c:94-97. -/
def TSess.start (cs : CState) (t : Termios) : TSess := { cs := cs, tty := ttyRaw t, saved := t }

/-- The loop ends when `done` is set, src/client-tty.c:105 and 127-137. -/
def TSess.check (s : TSess) : TSess := if s.cs.done then { s with tty := s.saved, phase := .ended } else s

/-- One event.  `&Z` stops the process between its two escape sequences (src/client-tty.c:606-636): the state after the second one is taken from `CState.key`;
after `&.` nothing can be sent and the process is not stopped. -/
def TSess.step (s : TSess) : TEvent → TSess
  | .key c =>
    if s.phase = .running then
      let cs := (s.cs.key c).1
      if s.cs.inEsc ∧ c = 0x45 ∧ s.cs.cmd = .connect ∧ ¬ s.cs.done then ({ s with cs := cs, tty := ttyEcho s.tty } : TSess).check
      else if s.cs.inEsc ∧ c = 0x5A ∧ ¬ s.cs.wrClosed ∧ ¬ s.cs.done then { s with cs := cs, tty := s.saved, phase := .stopped }
      else ({ s with cs := cs } : TSess).check
    else s
  | .keyEof => if s.phase = .running then ({ s with cs := { s.cs with done := true } } : TSess).check else s
  | .data => if s.phase = .running then s.check else s
  | .sockEof => if s.phase = .running then ({ s with cs := { s.cs with done := true } } : TSess).check else s
  | .term waiting =>
    if s.phase = .running then
      let s : TSess := { s with cs := { s.cs with done := true } }
      if waiting then s.check else s
    else s
  | .fail => if s.phase = .running then { s with phase := .died } else s
  | .cont t ok => if s.phase = .stopped then ({ s with tty := ttyRaw t, phase := .running, cs := { s.cs with done := s.cs.done || !ok } } : TSess).check else s

def TSess.run (s : TSess) (es : List TEvent) : TSess := es.foldl TSess.step s

/-! ### A serial device of the server -/

/-- The device and `aux.serial`: its modes, what was saved, whether it is open. -/
structure SerDev where
  tty : Termios
  saved : Option Termios := none
  isOpen : Bool := false
deriving Repr, DecidableEq

/-- Opening and closing. -/
inductive SerEvent where
  /-- `open_serial_obj`, src/server-serial.c:371-456; whether the device can be opened -/
  | opened (ok : Bool)
  /-- `destroy_obj`, src/server-obj.c:183-205 -/
  | destroyed
deriving Repr, DecidableEq

def SerDev.step (o : SerOpt) (d : SerDev) : SerEvent → SerDev
  | .opened ok =>
    let t := if d.isOpen then d.saved.getD d.tty else d.tty
    if ok then { tty := setSerial (ttyRaw t) o, saved := some t, isOpen := true } else { tty := t, saved := d.saved, isOpen := false }
  | .destroyed => if d.isOpen then { d with tty := d.saved.getD d.tty, isOpen := false } else d

end Conman
