import Verif.Spec.Poll

/-
The poll module, src/tpoll.c.

Not modelled: the mutex itself (every operation below is one critical section), the bytes in the signal pipe (`signaled` is the flag), `malloc` failure
for timers, errors of `pipe`, `fcntl` and `gettimeofday`, `tpoll_destroy`.  Debug output and assertions are not compiled in the default build.
`none` is undefined behaviour: an access outside the table, `int` overflow, or the kernel writing to memory that was freed.
-/
namespace Conman

/-- `struct pollfd`. -/
structure PFd where
  fd : Int
  ev : UInt16
  rev : UInt16
deriving DecidableEq, Repr

/-- `struct tpoll`, src/tpoll.c:85-98; `num_fds_alloc` is the length of `arr`. -/
structure TPoll where
  arr : List PFd
  pipe : Nat
  used : Int
  maxFd : Int
  timers : List Timer
  nextId : Int
  blocked : Bool
  realloced : Bool
  signaled : Bool
deriving DecidableEq, Repr

def pollIn : UInt16 := 1

/-- `timercmp (a, b, <)`. -/
def TV.lt (a b : TV) : Bool := if a.sec = b.sec then decide (a.usec < b.usec) else decide (a.sec < b.sec)

/-- An unused entry. -/
def PFd.free : PFd := { fd := -1, ev := 0, rev := 0 }

/-- `_tpoll_init` with TPOLL_ZERO_FDS, src/tpoll.c:721-730. -/
def TPoll.zeroFds (p : TPoll) : Option TPoll :=
  if p.pipe < p.arr.length then
    some { p with arr := (p.arr.map fun _ => PFd.free).set p.pipe { fd := p.pipe, ev := pollIn, rev := 0 }, maxFd := p.pipe, used := 0 }
  else none

/-- `_tpoll_init` with TPOLL_ZERO_TIMERS, src/tpoll.c:731-738. -/
def TPoll.zeroTimers (p : TPoll) : TPoll := { p with timers := [], nextId := 1 }

/-- `_tpoll_init`, src/tpoll.c:707-741. -/
def TPoll.init (p : TPoll) (fds timers : Bool) : Option TPoll :=
  (if fds then p.zeroFds else some p).map fun q => if timers then q.zeroTimers else q

/-- `tpoll_create`, src/tpoll.c:131-188: a table of `n` entries (256 by default), whose pipe is descriptor `pipe`. -/
def TPoll.create (n pipe : Nat) : Option TPoll :=
  TPoll.init { arr := List.replicate (if n = 0 then 256 else n) PFd.free, pipe := pipe, used := 0, maxFd := 0, timers := [], nextId := 1, blocked := false, realloced := false, signaled := false } true true

/-- `_tpoll_signal_send`, src/tpoll.c:745-779. -/
def TPoll.signal (p : TPoll) : TPoll := if p.signaled || !p.blocked then p else { p with signaled := true }

/-- `_tpoll_signal_recv`, src/tpoll.c:782-820. -/
def TPoll.recv (p : TPoll) : TPoll := { p with signaled := false }

/-- `tpoll_zero`, src/tpoll.c:241-271. -/
def TPoll.zero (p : TPoll) (fds timers : Bool) : Option TPoll := (p.init fds timers).map TPoll.signal

/-- The loop of `tpoll_clear` that looks for the new highest descriptor, src/tpoll.c:311-316. -/
def scanDown (arr : List PFd) : Nat → Int
  | 0 => -1
  | i + 1 => if (arr[i]?.getD PFd.free).fd > -1 then i else scanDown arr i

/-- `tpoll_clear`, src/tpoll.c:275-330, for a descriptor that is not negative (otherwise it returns -1). -/
def TPoll.clear (p : TPoll) (fd : Nat) (ev : UInt16) : Option TPoll :=
  if ev = 0 then some p
  else if (fd : Int) ≤ p.maxFd then
    match p.arr[fd]? with
    | none => none
    | some e =>
      if e.fd > -1 then
        let new := e.ev &&& ~~~ ev
        if e.ev = new then some p
        else if new = 0 then
          let arr := p.arr.set fd { fd := -1, ev := 0, rev := 0 }
          some ({ p with arr := arr, used := p.used - 1, maxFd := if p.maxFd = fd then scanDown arr fd else p.maxFd } : TPoll).signal
        else some ({ p with arr := p.arr.set fd { e with ev := new } } : TPoll).signal
      else some p
  else some p

/-- `tpoll_is_set`, src/tpoll.c:334-371. -/
def TPoll.isSet (p : TPoll) (fd : Nat) (ev : UInt16) : Option UInt16 :=
  if (fd : Int) > p.maxFd then some 0
  else match p.arr[fd]? with
    | none => none
    | some e => if e.fd < 0 then some 0 else some (e.rev &&& ev)

/-- The largest `int`. -/
def intMax : Int := 2147483647

/-- The loop of `_tpoll_grow`, src/tpoll.c:841-843; the fuel is enough because the size doubles. -/
def growSize (req : Nat) : Nat → Nat → Option Nat
  | 0, _ => none
  | f + 1, n => if n < req then (if (n : Int) * 2 ≤ intMax then growSize req f (n * 2) else none) else some n

/-- `_tpoll_grow`, src/tpoll.c:823-867; `mem` says whether `realloc` succeeds.  The result is `none` in the second place if it failed. -/
def TPoll.grow (p : TPoll) (req : Nat) (mem : Bool) : Option (TPoll × Bool) :=
  if req ≤ p.arr.length then some (p, true)
  else (growSize req 32 p.arr.length).map fun n =>
    if mem then ({ p.signal with realloced := true, arr := p.arr ++ List.replicate (n - p.arr.length) PFd.free }, true) else (p.signal, false)

/-- The second half of `tpoll_set`, src/tpoll.c:403-422. -/
def TPoll.setEv (p : TPoll) (fd : Nat) (ev : UInt16) : Option TPoll :=
  match p.arr[fd]? with
  | none => none
  | some e =>
    if e.fd < 0 then
      let q := { p with arr := p.arr.set fd { fd := fd, ev := ev, rev := e.rev }, used := p.used + 1, maxFd := if (fd : Int) > p.maxFd then fd else p.maxFd }
      some (if e.ev = ev then q else q.signal)
    else
      let new := e.ev ||| ev
      if e.ev = new then some p else some ({ p with arr := p.arr.set fd { e with ev := new } } : TPoll).signal

/-- `tpoll_set`, src/tpoll.c:375-429, for a descriptor that is not negative; with its result. -/
def TPoll.set (p : TPoll) (fd : Nat) (ev : UInt16) (mem : Bool) : Option (TPoll × Int) :=
  if ev = 0 then some (p, 0)
  else if fd < p.arr.length then (p.setEv fd ev).map fun q => (q, 0)
  else if (fd : Int) + 1 > intMax then none
  else (p.grow (fd + 1) mem).bind fun r => if r.2 then (r.1.setEv fd ev).map fun q => (q, 0) else some (r.1, -1)

/-- The place where a timer goes, src/tpoll.c:471-473 and 477-478. -/
def insTimer (t : Timer) : List Timer → List Timer
  | [] => [t]
  | u :: l => if t.tv.lt u.tv then t :: u :: l else u :: insTimer t l

/-- Whether it goes first, src/tpoll.c:474. -/
def goesFirst (tv : TV) : List Timer → Bool
  | [] => true
  | u :: _ => tv.lt u.tv

/-- `timers_next_id++` with its wrap, src/tpoll.c:467-470 (the increment of INT_MAX is taken to wrap). -/
def bumpId (n : Int) : Int := if n + 1 > intMax then 1 else n + 1

/-- `tpoll_timeout_absolute`, src/tpoll.c:433-487. -/
def TPoll.timeoutAbs (p : TPoll) (arg : Nat) (tv : TV) : TPoll × Int :=
  let q := if goesFirst tv p.timers then p.signal else p
  ({ q with timers := insTimer { id := p.nextId, arg := arg, tv := tv } p.timers, nextId := bumpId p.nextId }, p.nextId)

/-- `_tpoll_get_timeval`, src/tpoll.c:871-890, the time of day being `now`. -/
def getTimeval (now : TV) (ms : Int) : TV :=
  if ms > 0 then
    let s := now.sec + ms.tdiv 1000
    let u := now.usec + (ms.tmod 1000) * 1000
    if u ≥ 1000000 then ⟨s + u.tdiv 1000000, u.tmod 1000000⟩ else ⟨s, u⟩
  else now

/-- `tpoll_timeout_relative`, src/tpoll.c:491-502. -/
def TPoll.timeoutRel (p : TPoll) (arg : Nat) (now : TV) (ms : Int) : TPoll × Int := p.timeoutAbs arg (getTimeval now ms)

/-- Removal of the timer found by `tpoll_timeout_cancel`, src/tpoll.c:528-543. -/
def dropTimer (id : Int) : List Timer → List Timer
  | [] => []
  | t :: l => if t.id = id then l else t :: dropTimer id l

/-- `tpoll_timeout_cancel`, src/tpoll.c:506-549. -/
def TPoll.cancel (p : TPoll) (id : Int) : TPoll × Int :=
  if id ≤ 0 then (p, -1)
  else if p.timers.all (fun t => t.id ≠ id) then (p, 0)
  else
    let q := if p.timers.head?.map (·.id) = some id then p.signal else p
    ({ q with timers := dropTimer id p.timers }, 1)

/-- Conversion of a `long` to `int` (modulo 2^32, as GCC defines it). -/
def longToInt (x : Int) : Int := (x + 2147483648) % 4294967296 - 2147483648

/-- `_tpoll_diff_timeval`, src/tpoll.c:894-927, with both arguments given; `none` if the rounding overflows. -/
def diffTimeval (a b : TV) : Option Int :=
  let ms := longToInt ((a.sec - b.sec) * 1000 + (a.usec - b.usec).tdiv 1000)
  if a.sec ≥ b.sec ∧ a.usec > b.usec then (if ms = intMax then none else some (ms + 1))
  else if a.sec ≤ b.sec ∧ a.usec < b.usec then (if ms = -2147483648 then none else some (ms - 1))
  else some ms

/-- Which time the wait is computed from, src/tpoll.c:622-642. -/
def waitTarget (ms : Int) (deadline : TV) : List Timer → TV
  | [] => deadline
  | t :: _ => if ms < 0 then t.tv else if deadline.lt t.tv then deadline else t.tv

/-- The timeout for poll(), src/tpoll.c:608-644, `now` being the clock reading at line 620. -/
def TPoll.timeout (p : TPoll) (ms : Int) (deadline now : TV) : Option Int :=
  if ms = 0 then some 0
  else if ms < 0 ∧ p.timers = [] then some (if p.used > 0 then -1 else 0)
  else (diffTimeval (waitTarget ms deadline p.timers) now).map fun d => if d > 0 then d else 0

/-- What poll() leaves in the table: `revents` of the first `n` entries. -/
def writeRev (K : Nat → UInt16) : Nat → List PFd → List PFd
  | _, [] => []
  | i, e :: l => { e with rev := K i } :: writeRev K (i + 1) l

/-- Where the thread in `tpoll` is. -/
inductive PC where
  | idle
  /-- at the top of the dispatch loop, src/tpoll.c:588 -/
  | run (ms : Int) (deadline now : TV)
  /-- in the callback of `t`, src/tpoll.c:601 -/
  | call (ms : Int) (deadline now : TV) (t : Timer)
  /-- in poll(), src/tpoll.c:653: the clock reading the timeout comes from, the timeout, and the size and use of the table handed to the kernel -/
  | wait (ms : Int) (deadline now clock : TV) (timeout : Int) (size : Nat) (nfds : Nat)
deriving DecidableEq, Repr

/-- Calls of other functions of the module, by the same or by other threads. -/
inductive POp where
  | set (fd : Nat) (ev : UInt16) (mem : Bool)
  | clear (fd : Nat) (ev : UInt16)
  | zero (fds timers : Bool)
  | make (arg : Nat) (tv : TV)
  | makeRel (arg : Nat) (now : TV) (ms : Int)
  | cancel (id : Int)

def TPoll.op (p : TPoll) : POp → Option (TPoll × Int)
  | .set fd ev mem => p.set fd ev mem
  | .clear fd ev => (p.clear fd ev).map fun q => (q, 0)
  | .zero f t => (p.zero f t).map fun q => (q, 0)
  | .make arg tv => some (p.timeoutAbs arg tv)
  | .makeRel arg now ms => some (p.timeoutRel arg now ms)
  | .cancel id => some (p.cancel id)

structure PSys where
  p : TPoll
  pc : PC

/-- Steps of the thread in `tpoll`, and calls. -/
inductive PAct where
  | op (o : POp)
  /-- `tpoll (ms)` is called; the clock readings of lines 577 and 583 -/
  | enter (ms : Int) (t0 t1 : TV)
  /-- a due timer is taken off the list, lines 591-602 -/
  | fire
  /-- its callback returns, lines 604-607 -/
  | ret
  /-- no timer is due; the clock reading of line 620 -/
  | block (t : TV)
  /-- poll() returns `n`, having written `K`; the clock reading of line 680 -/
  | wake (n : Int) (K : Nat → UInt16) (t : TV)

/-- The outcome of a step: the next state and what `tpoll` returned, if it did. -/
structure POut where
  s : PSys
  ret : Option Int := none

def headDue (now : TV) : List Timer → Option (Timer × List Timer)
  | [] => none
  | t :: l => if now.lt t.tv then none else some (t, l)

/-- After poll(), src/tpoll.c:656-690, from a state where the table was written. -/
def afterPoll (p : TPoll) (ms : Int) (deadline now : TV) (n : Int) (K : Nat → UInt16) (t : TV) : POut :=
  if n < 0 then { s := ⟨p, .idle⟩, ret := some n }
  else if p.realloced then { s := ⟨{ p with realloced := false, signaled := false }, .run ms deadline now⟩ }
  else
    let sig := decide (K p.pipe &&& pollIn ≠ 0)
    let q := if sig then p.recv else p
    let n := if sig then n - 1 else n
    if n > 0 then { s := ⟨q, .idle⟩, ret := some n }
    else if ms = 0 ∨ (ms < 0 ∧ q.used = 0 ∧ q.timers = []) then { s := ⟨q, .idle⟩, ret := some n }
    else if ms > 0 ∧ t.lt deadline = false then { s := ⟨q, .idle⟩, ret := some n }
    else { s := ⟨q, .run ms deadline t⟩ }

/-- Whether a step can be taken in a state.  Calls happen while the mutex is free. -/
def PSys.enabled (s : PSys) : PAct → Bool
  | .op _ => match s.pc with | .run .. => false | _ => true
  | .enter .. => s.pc = .idle
  | .fire => match s.pc with | .run _ _ now => (headDue now s.p.timers).isSome | _ => false
  | .ret => match s.pc with | .call .. => true | _ => false
  | .block _ => match s.pc with | .run _ _ now => (headDue now s.p.timers).isNone | _ => false
  | .wake .. => match s.pc with | .wait .. => true | _ => false

/-- `tpoll`, src/tpoll.c:553-699, and calls, one critical section at a time. -/
def PSys.step (s : PSys) (a : PAct) : Option POut :=
  match a, s.pc with
  | .op o, _ => (s.p.op o).map fun r => { s := ⟨r.1, s.pc⟩ }
  | .enter ms t0 t1, _ => some { s := ⟨s.p, .run ms (if ms > 0 then getTimeval t0 ms else t0) t1⟩ }
  | .fire, .run ms dl now => match headDue now s.p.timers with
    | some (t, l) => some { s := ⟨{ s.p with timers := l }, .call ms dl now t⟩ }
    | none => some { s := s }
  | .ret, .call ms dl now _ => some { s := ⟨s.p, .run ms dl now⟩ }
  | .block t, .run ms dl now => (s.p.timeout ms dl t).map fun k =>
      { s := ⟨{ s.p with blocked := true }, .wait ms dl now t k s.p.arr.length (s.p.maxFd + 1).toNat⟩ }
  | .wake n K t, .wait ms dl now _ _ size nfds =>
    if s.p.arr.length ≠ size then none       -- the table was moved while the kernel was using it
    else
      let p := { s.p with arr := writeRev K 0 (s.p.arr.take nfds) ++ s.p.arr.drop nfds, blocked := false }
      if s.p.pipe < s.p.arr.length then some (afterPoll p ms dl now n K t) else none
  | _, _ => some { s := s }

/-- What a step means for timers. -/
def PSys.evs (s : PSys) : PAct → List Spec.TEv
  | .op (.make arg tv) => [.made { id := s.p.nextId, arg := arg, tv := tv }]
  | .op (.makeRel arg now ms) => [.made { id := s.p.nextId, arg := arg, tv := getTimeval now ms }]
  | .op (.cancel id) => [.cancelled id (s.p.cancel id).2]
  | .op (.zero _ true) => [.zeroed]
  | .fire => match s.pc with
    | .run _ _ now => match headDue now s.p.timers with
      | some (t, _) => [.fired t now]
      | none => []
    | _ => []
  | .block _ => match s.pc with
    | .run _ _ now => [.waits now]
    | _ => []
  | _ => []

/-- The states reached from a new object by steps in any order, with what happened to timers. -/
inductive PReach : PSys → List Spec.TEv → Prop
  | start {n pipe : Nat} {p : TPoll} : TPoll.create n pipe = some p → PReach ⟨p, .idle⟩ []
  | step {s : PSys} {h : List Spec.TEv} {a : PAct} {o : POut} : PReach s h → s.enabled a = true → s.step a = some o → PReach o.s (h ++ s.evs a)

/-- What a step means for descriptors: calls that change interests and succeed. -/
def PSys.fdEvs (s : PSys) : PAct → List Spec.FOp
  | .op (.set fd ev mem) => match s.p.set fd ev mem with
    | some (_, 0) => [.set fd ev]
    | _ => []
  | .op (.clear fd ev) => [.clear fd ev]
  | .op (.zero true _) => [.zero]
  | _ => []

/-- A caller uses descriptors the system gave it (fewer than 2^30), not the module's pipe. -/
def PSys.ownFd (s : PSys) : PAct → Prop
  | .op (.set fd _ _) => fd ≠ s.p.pipe ∧ fd < 1073741824
  | .op (.clear fd _) => fd ≠ s.p.pipe
  | _ => True

/-- The states reached by such steps, with what was asked of the table. -/
inductive FReach : PSys → List Spec.FOp → Prop
  | start {n pipe : Nat} {p : TPoll} : TPoll.create n pipe = some p → FReach ⟨p, .idle⟩ []
  | step {s : PSys} {h : List Spec.FOp} {a : PAct} {o : POut} : FReach s h → s.enabled a = true → s.ownFd a → s.step a = some o →
    FReach o.s (h ++ s.fdEvs a)

end Conman
