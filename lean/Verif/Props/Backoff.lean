import Verif.Lemma.Backoff
import Verif.Lemma.Telnet

/-
C37 and C61: reconnecting consoles.
The parameters (`ConnKind.par`): telnet and process consoles retry at once after
a stable connection, else after 15 s (60 s) doubling to 1800 s; IPMI consoles
after 60 s doubling to 1800 s; unix sockets after 1 s doubling to 60 s.
-/
namespace Conman
open Spec

/-- C37. For every console type and every history of opens, shutdowns, timer
expirations, connecting clients, library callbacks and file-system events with
arbitrary results of the connect attempts: the reconnect delays follow the
backoff rule — each delay after a failure is double the one before up to the
cap, and the delay returns to its base exactly after a connection was stable, or
to its floor when a client connects to a telnet console that is not up or a
file-system event for a unix socket did not lead to a connection. -/
theorem C37_backoff_rule (k : ConnKind) (steps : List ConnStep) (hk : ∀ s ∈ steps, s.kind = k) :
    k.par.follows k.par.first ((steps.foldl ConnStep.run k.init).hist.map ConnEv.toSpec) :=
  (steps_inv steps hk (ConnInv.init k) (NP.init k)).1.fol

/-- C37. Every reconnect delay lies between the documented floor and cap, or is
0 (telnet and process, after a stable connection). -/
theorem C37_delay_range (k : ConnKind) (steps : List ConnStep) (hk : ∀ s ∈ steps, s.kind = k)
    (d : Nat) (hd : .retry d ∈ (steps.foldl ConnStep.run k.init).hist) :
    (d = 0 ∧ k.par.afterStable = 0) ∨ (k.par.floor ≤ d ∧ d ≤ k.par.cap) := by
  have hf := C37_backoff_rule k steps hk
  refine follows_range k _ (by cases k <;> simp [ConnKind.par]) _ hf d ?_
  exact List.mem_map.2 ⟨_, hd, rfl⟩

/-- C37. The delay is reset only by a timer that was armed when the connection
came up, with the documented time, and only while it is still up. -/
theorem C37_reset_only_when_stable (k : ConnKind) (steps : List ConnStep)
    (hk : ∀ s ∈ steps, s.kind = k) (d : Nat)
    (ht : (steps.foldl ConnStep.run k.init).timer = some (.stable d)) :
    (steps.foldl ConnStep.run k.init).state = .up ∧ d = k.stableSecs :=
  (steps_inv steps hk (ConnInv.init k) (NP.init k)).1.stab d ht

/-- Non-vacuity: a telnet console that fails three times, connects, is stable,
is disconnected, fails again. -/
example :
    let bad : TelEnv := ⟨true, .fail, false⟩
    let good : TelEnv := ⟨true, .ok, false⟩
    let steps : List ConnStep := [.telOpen bad, .telTimer bad, .telTimer bad, .telTimer good,
      .telTimer good, .telOpen bad, .telTimer bad]
    (∀ s ∈ steps, s.kind = .telnet) ∧
    (steps.foldl ConnStep.run ConnKind.telnet.init).hist =
      [.retry 15, .retry 30, .retry 60, .stable, .retry 0, .retry 15] := by
  refine ⟨?_, by decide⟩
  intro s hs
  simp only [List.mem_cons, List.not_mem_nil, or_false] at hs
  rcases hs with rfl | rfl | rfl | rfl | rfl | rfl | rfl <;> rfl

/-- C61. Once opened, a console that is not connected always has a connect
attempt under way or scheduled: it is never forgotten. (`pending`: a telnet
connect completes through the descriptor, an IPMI connect also has a timer.) -/
theorem C61_reconnect_scheduled (k : ConnKind) (first : ConnStep) (steps : List ConnStep)
    (hk : ∀ s ∈ first :: steps, s.kind = k)
    (hopen : (∃ e, first = .telOpen e) ∨ (∃ e, first = .procOpen e) ∨ (∃ e, first = .ipmiOpen e) ∨
      (∃ e, first = .unixOpen e)) :
    let c := (first :: steps).foldl ConnStep.run k.init
    (c.state = .down → ∃ d, c.timer = some (.connect d)) ∧
    (c.state = .pending → k = .telnet ∨ (k = .ipmi ∧ ∃ d, c.timer = some (.connect d))) := by
  have h0 := ConnInv.init k
  have hn := NP.init k
  have hfk := hk first (by simp)
  have hs : Started k (first.run k.init) := by
    rcases hopen with ⟨e, rfl⟩ | ⟨e, rfl⟩ | ⟨e, rfl⟩ | ⟨e, rfl⟩
    · simp only [ConnStep.kind] at hfk; subst hfk; exact (telnetOpen_inv e h0).2
    · simp only [ConnStep.kind] at hfk; subst hfk
      exact (processOpen_inv e h0 (hn (Or.inl rfl))).2.1
    · simp only [ConnStep.kind] at hfk; subst hfk
      exact (ipmiOpen_inv e h0).2 (Or.inr (by simp [ConnKind.init, ipmiInit]))
    · simp only [ConnStep.kind] at hfk; subst hfk; exact (unixsockOpen_inv e h0).2
  have h1 := step_inv first hfk h0 hn
  have h2 := steps_inv steps (fun s hs => hk s (by simp [hs])) h1.1 h1.2.1
  have := h2.2.2 hs
  exact ⟨this.1, this.2⟩

example : ∃ first steps, (∀ s ∈ (first :: steps : List ConnStep), s.kind = .telnet) ∧
    ((first :: steps).foldl ConnStep.run ConnKind.telnet.init).state = .down :=
  ⟨.telOpen ⟨true, .fail, false⟩, [], by simp [ConnStep.kind], by decide⟩

/-- Finding (C35). The telnet decoder state survives a reconnect: if the old
connection broke off after `IAC WILL`, the first byte of the new connection is
swallowed and answered as an option. -/
theorem C35_decoder_stale_after_reconnect (c : Conn) (b : UInt8) (hup : c.state = .up)
    (e : TelEnv) (hres : e.resolved = true) (hc : e.conn = .ok)
    (hb : b ≠ 0 ∧ b ≠ 1 ∧ b ≠ 3)
    (hiac : c.iac = some 251) :
    let c' := telnetTimer e (telnetOpen e c)
    c'.state = .up ∧ telChunks c'.iac [[b]] = some (none, [], [255, 254, b]) := by
  have hd : telnetOpen e c = telnetDisconnect c := by unfold telnetOpen; rw [if_pos hup]
  have h1 : (telnetDisconnect c).state = .down ∧ (telnetDisconnect c).iac = c.iac ∧
      (telnetDisconnect c).timer = some (.connect c.delay) := by
    unfold telnetDisconnect Conn.arm
    simp only
    split
    · simp
    · split <;> simp
  have h2 : (telnetTimer e (telnetOpen e c)).state = .up ∧
      (telnetTimer e (telnetOpen e c)).iac = c.iac := by
    rw [hd]; unfold telnetTimer; rw [h1.2.2]
    unfold telnetConnect
    simp [h1.1, hres, hc, h1.2.1]
  refine ⟨h2.1, ?_⟩
  rw [h2.2, hiac, telChunks_eq]
  simp [telRef, telByte, telPre, Tel.IAC, Tel.DONT, Tel.DO, Tel.WONT, Tel.WILL,
    processTelnetCmd, sendTelnetCmd, Tel.cmdOk, Tel.BINARY, Tel.ECHO, Tel.SGA, hb]

example : ∃ c : Conn, c.state = .up ∧ c.iac = some 251 ∧ c.timer = some (.stable 15) :=
  ⟨{ state := .up, iac := some 251, delay := 15, timer := some (.stable 15) }, rfl, rfl, rfl⟩

/-- Finding (unix socket consoles). A file-system event for the socket path
while the console is connected drops the working connection. -/
theorem C61_inotify_drops_connection (c : Conn) (e : UnixEnv) (h : c.state = .up) :
    (unixsockInotify e c).state = .down := by
  simp [unixsockInotify, unixsockOpen, h, unix_np_disc]

example : ((([.unixOpen ⟨true, true⟩] : List ConnStep).foldl ConnStep.run unixsockInit).state) = .up := by
  decide

/-! ### How long a console waits -/

/-- A timer for an attempt: the delay of the rule of C37, or the constants for names that are not resolved (telnet) and attempts under way (IPMI). -/
def TB (k : ConnKind) (c : Conn) : Prop := ∀ d, c.timer = some (.connect d) →
  (c.state = .down ∧ (ConnEv.retry d ∈ c.hist ∨ (k = .telnet ∧ d = 1800))) ∨ (k = .ipmi ∧ c.state = .pending ∧ d = 300)

theorem tb_none {k : ConnKind} {c : Conn} (h : c.timer = none) : TB k c := by
  intro d hd; rw [h] at hd; cases hd

theorem tb_stable {k : ConnKind} {c : Conn} {n : Nat} (h : c.timer = some (.stable n)) : TB k c := by
  intro d hd; rw [h] at hd; cases hd

theorem tb_arm {k : ConnKind} {c : Conn} (h : c.state = .down) (n : Nat) : TB k { c.arm with delay := n } := by
  intro d hd
  simp only [Conn.arm, Option.some.injEq, ConnTimer.connect.injEq] at hd
  subst hd
  exact .inl ⟨h, .inl (by simp [Conn.arm])⟩

theorem telnetDisconnect_tb {k : ConnKind} (c : Conn) : TB k (telnetDisconnect c) := by
  unfold telnetDisconnect
  dsimp only
  split
  · exact tb_arm rfl _
  · split
    · exact tb_arm rfl _
    · exact tb_arm (c := { c with timer := none, fd := false, state := .down }) rfl c.delay

theorem telnetConnect_tb (e : TelEnv) {c : Conn} : TB .telnet (telnetConnect e c) := by
  unfold telnetConnect
  dsimp only
  split
  · rename_i hs
    split
    · intro d hd
      cases hd
      exact .inl ⟨hs, .inr ⟨rfl, rfl⟩⟩
    · split
      · exact tb_none rfl
      · exact telnetDisconnect_tb _
      · exact tb_stable rfl
  · split
    · exact telnetDisconnect_tb _
    · exact tb_stable rfl
  · exact tb_none rfl

theorem telnetOpen_tb (e : TelEnv) {c : Conn} : TB .telnet (telnetOpen e c) := by
  unfold telnetOpen
  split
  · exact telnetDisconnect_tb _
  · exact telnetConnect_tb e

theorem processOpen_tb (ok : Bool) {c : Conn} (hn : c.state ≠ .pending) : TB .process (processOpen ok c) := by
  unfold processOpen
  cases hs : c.state with
  | up => exact tb_arm (c := { c with timer := none, fd := false, state := .down }) rfl _
  | down =>
    cases ok
    · exact tb_arm (c := { c with timer := none, state := .down }) rfl _
    · exact tb_stable rfl
  | pending => exact absurd hs hn

theorem ipmiFail_tb (c : Conn) : TB .ipmi (ipmiFail c) := by
  unfold ipmiFail
  dsimp only
  split
  · exact tb_arm rfl _
  · exact tb_arm (c := { c with state := .down }) rfl c.delay

theorem ipmiConnect_tb (e : IpmiEnv) {c : Conn} (h : TB .ipmi c) : TB .ipmi (ipmiConnect e c) := by
  unfold ipmiConnect
  split
  · exact h
  · dsimp only
    split
    · intro d hd
      cases hd
      exact .inr ⟨rfl, rfl, rfl⟩
    · exact ipmiFail_tb _
  · dsimp only
    split
    · exact tb_stable rfl
    · exact ipmiFail_tb _

theorem ipmiOpen_tb (e : IpmiEnv) {c : Conn} (h : TB .ipmi c) : TB .ipmi (ipmiOpen e c) := by
  unfold ipmiOpen
  split
  · exact ipmiConnect_tb e (tb_none rfl)
  · exact ipmiConnect_tb e h
  · exact h

theorem unixsockDisconnect_tb {k : ConnKind} (c : Conn) : TB k (unixsockDisconnect c) := by
  unfold unixsockDisconnect
  dsimp only
  split
  · exact tb_arm rfl _
  · exact tb_arm (c := { c with timer := none, fd := false, state := .down }) rfl c.delay

theorem unixsockConnect_tb {k : ConnKind} (e : UnixEnv) (c : Conn) : TB k (unixsockConnect e c) := by
  unfold unixsockConnect
  dsimp only
  split
  · exact unixsockDisconnect_tb _
  · split
    · exact tb_stable rfl
    · exact unixsockDisconnect_tb _

theorem unixsockOpen_tb {k : ConnKind} (e : UnixEnv) (c : Conn) : TB k (unixsockOpen e c) := by
  unfold unixsockOpen
  split
  · exact unixsockDisconnect_tb _
  · exact unixsockConnect_tb e _

theorem step_tb {k : ConnKind} {c : Conn} (s : ConnStep) (hk : s.kind = k) (h : TB k c) (hnp : NP k c) : TB k (s.run c) := by
  subst hk
  cases s with
  | telOpen e => exact telnetOpen_tb e
  | telTimer e =>
    simp only [ConnStep.run]
    unfold telnetTimer
    split
    · exact h
    · exact telnetConnect_tb e
    · exact tb_none rfl
  | procOpen ok => exact processOpen_tb ok (hnp (.inl rfl))
  | procTimer ok =>
    simp only [ConnStep.run]
    unfold processTimer
    split
    · exact h
    · exact processOpen_tb ok (hnp (.inl rfl))
    · exact tb_none rfl
  | ipmiOpen e => exact ipmiOpen_tb e h
  | ipmiTimer e =>
    simp only [ConnStep.run]
    unfold Conman.ipmiTimer
    split
    · exact h
    · exact ipmiConnect_tb e h
    · exact tb_none rfl
  | ipmiCallback e => exact ipmiConnect_tb e h
  | unixOpen e => exact unixsockOpen_tb e c
  | unixTimer e =>
    simp only [ConnStep.run]
    unfold unixsockTimer
    split
    · exact h
    · exact unixsockConnect_tb e c
    · exact tb_none rfl
  | unixInotify e => exact unixsockOpen_tb e _
  | telCheck e =>
    simp only [ConnStep.run]
    unfold telnetCheck
    split
    · exact h
    · dsimp only
      split
      · exact telnetOpen_tb e
      · intro d hd
        rcases h d hd with ⟨h1, h2⟩ | h
        · exact .inl ⟨h1, h2.imp (fun h => List.mem_append_left _ h) id⟩
        · exact .inr h
  | procCheck ok =>
    simp only [ConnStep.run]
    unfold processCheck
    split
    · exact h
    · exact processOpen_tb ok (hnp (.inl rfl))
  | ipmiCheck e =>
    simp only [ConnStep.run]
    unfold Conman.ipmiCheck
    split
    · exact ipmiOpen_tb e h
    · exact h
  | unixCheck e =>
    simp only [ConnStep.run]
    unfold unixsockCheck
    split
    · exact h
    · exact unixsockOpen_tb e c

theorem steps_tb {k : ConnKind} : ∀ (steps : List ConnStep), (∀ s ∈ steps, s.kind = k) → ∀ {c : Conn}, ConnInv k c → NP k c → TB k c → TB k (steps.foldl ConnStep.run c)
  | [], _, _, _, _, h => h
  | s :: l, hk, _, hi, hn, h =>
    have h1 := step_inv s (hk s (by simp)) hi hn
    steps_tb l (fun x hx => hk x (by simp [hx])) h1.1 h1.2.1 (step_tb s (hk s (by simp)) h hn)

/-- C61. How long a console waits for the next attempt to connect: as long as the rule of C37 says, 1800 seconds if the name of a telnet host cannot be resolved, and 300
seconds for an IPMI connection that is under way; so never longer than half an hour. -/
theorem C61_wait (k : ConnKind) (steps : List ConnStep) (hk : ∀ s ∈ steps, s.kind = k) (d : Nat)
    (ht : (steps.foldl ConnStep.run k.init).timer = some (.connect d)) :
    (((steps.foldl ConnStep.run k.init).state = .down ∧ (.retry d ∈ (steps.foldl ConnStep.run k.init).hist ∨ (k = .telnet ∧ d = 1800))) ∨
      (k = .ipmi ∧ (steps.foldl ConnStep.run k.init).state = .pending ∧ d = 300)) ∧ d ≤ 1800 := by
  have h := steps_tb steps hk (ConnInv.init k) (NP.init k) (tb_none (by cases k <;> rfl)) d ht
  refine ⟨h, ?_⟩
  rcases h with ⟨_, hr | ⟨_, rfl⟩⟩ | ⟨_, _, rfl⟩
  · have := C37_delay_range k steps hk d hr
    have hc : k.par.cap ≤ 1800 := by cases k <;> decide
    omega
  · exact Nat.le_refl _
  · decide

example : (([.telOpen ⟨false, .ok, false⟩] : List ConnStep).foldl ConnStep.run ConnKind.telnet.init).timer = some (.connect 1800) ∧
    (([.ipmiOpen ⟨true, false⟩] : List ConnStep).foldl ConnStep.run ConnKind.ipmi.init).timer = some (.connect 300) ∧
    (([.telOpen ⟨true, .fail, false⟩, .telTimer ⟨true, .fail, false⟩] : List ConnStep).foldl ConnStep.run ConnKind.telnet.init).timer = some (.connect 30) := by decide

/-! ### A client connects to a console -/

/-- The descriptor of processes and sockets is there exactly while they are connected. -/
def FDI (c : Conn) : Prop := c.fd = true ↔ c.state = .up

theorem fdi_off {c : Conn} (h1 : c.fd = false) (h2 : c.state = .down) : FDI c := by
  unfold FDI; rw [h1, h2]; decide

theorem fdi_on {c : Conn} (h1 : c.fd = true) (h2 : c.state = .up) : FDI c := by
  unfold FDI; rw [h1, h2]; decide

theorem processOpen_fdi (ok : Bool) {c : Conn} (hn : c.state ≠ .pending) (h : FDI c) : FDI (processOpen ok c) := by
  unfold processOpen
  cases hs : c.state with
  | up => exact fdi_off rfl rfl
  | down =>
    have hf : c.fd = false := by
      cases hf : c.fd
      · rfl
      · exact absurd (h.mp hf) (by rw [hs]; decide)
    cases ok
    · exact fdi_off hf rfl
    · exact fdi_on rfl rfl
  | pending => exact absurd hs hn

theorem unixsockDisconnect_fdi (c : Conn) : FDI (unixsockDisconnect c) := by
  unfold unixsockDisconnect
  dsimp only
  split <;> exact fdi_off rfl rfl

theorem unixsockConnect_fdi (e : UnixEnv) (c : Conn) : FDI (unixsockConnect e c) := by
  unfold unixsockConnect
  dsimp only
  split
  · exact unixsockDisconnect_fdi _
  · split
    · exact fdi_on rfl rfl
    · exact unixsockDisconnect_fdi _

theorem unixsockOpen_fdi (e : UnixEnv) (c : Conn) : FDI (unixsockOpen e c) := by
  unfold unixsockOpen
  split
  · exact unixsockDisconnect_fdi _
  · exact unixsockConnect_fdi e _

theorem step_fdi {k : ConnKind} (hp : k = .process ∨ k = .unixsock) {c : Conn} (s : ConnStep) (hk : s.kind = k) (h : FDI c) (hnp : NP k c) : FDI (s.run c) := by
  subst hk
  cases s with
  | procOpen ok => exact processOpen_fdi ok (hnp (.inl rfl)) h
  | procTimer ok =>
    simp only [ConnStep.run]
    unfold processTimer
    split
    · exact h
    · exact processOpen_fdi ok (hnp (.inl rfl)) h
    · exact h
  | unixOpen e => exact unixsockOpen_fdi e c
  | unixTimer e =>
    simp only [ConnStep.run]
    unfold unixsockTimer
    split
    · exact h
    · exact unixsockConnect_fdi e c
    · exact h
  | unixInotify e => exact unixsockOpen_fdi e _
  | procCheck ok =>
    simp only [ConnStep.run]
    unfold processCheck
    split
    · exact h
    · exact processOpen_fdi ok (hnp (.inl rfl)) h
  | unixCheck e =>
    simp only [ConnStep.run]
    unfold unixsockCheck
    split
    · exact h
    · exact unixsockOpen_fdi e c
  | _ => simp [ConnStep.kind] at hp

theorem steps_fdi {k : ConnKind} (hp : k = .process ∨ k = .unixsock) : ∀ (steps : List ConnStep), (∀ s ∈ steps, s.kind = k) → ∀ {c : Conn}, ConnInv k c → NP k c → FDI c →
    FDI (steps.foldl ConnStep.run c)
  | [], _, _, _, _, h => h
  | s :: l, hk, _, hi, hn, h =>
    have h1 := step_inv s (hk s (by simp)) hi hn
    steps_fdi hp l (fun x hx => hk x (by simp [hx])) h1.1 h1.2.1 (step_fdi hp s (hk s (by simp)) h hn)

/-- A client connects to the console. -/
def Spec.ClientStep : ConnStep → Prop
  | .telCheck _ | .procCheck _ | .ipmiCheck _ | .unixCheck _ => True
  | _ => False

/-- An attempt made now is successful: the console is connected then, or (IPMI) the connection is under way. -/
def Spec.Succeeds : ConnStep → ConnState → Prop
  | .telCheck e, s => e.resolved = true ∧ e.conn = .ok ∧ s = .up
  | .procCheck ok, s => ok = true ∧ s = .up
  | .ipmiCheck e, s => e.submitted = true ∧ s = .pending
  | .unixCheck e, s => e.usable = true ∧ e.connected = true ∧ s = .up
  | _, _ => False

/-- C61. A client that connects to a console leaves its connection alone if there is one. -/
theorem C61_client_up (k : ConnKind) (steps : List ConnStep) (hk : ∀ s ∈ steps, s.kind = k) (hu : (steps.foldl ConnStep.run k.init).state = .up)
    (s : ConnStep) (hs : s.kind = k) (hc : ClientStep s) : s.run (steps.foldl ConnStep.run k.init) = steps.foldl ConnStep.run k.init := by
  have hf : k = .process ∨ k = .unixsock → (steps.foldl ConnStep.run k.init).fd = true := by
    intro hp
    exact (steps_fdi hp steps hk (ConnInv.init k) (NP.init k) (by rcases hp with rfl | rfl <;> exact fdi_off rfl rfl)).mpr hu
  revert hf hu
  generalize steps.foldl ConnStep.run k.init = c
  intro hu hf
  cases s with
  | telCheck e => simp only [ConnStep.run]; unfold telnetCheck; rw [if_pos hu]
  | procCheck ok => simp only [ConnStep.run]; unfold processCheck; rw [if_pos (hf (.inl (by rw [← hs]; rfl)))]
  | ipmiCheck e => simp only [ConnStep.run]; unfold Conman.ipmiCheck; rw [if_neg (by rw [hu]; decide)]
  | unixCheck e => simp only [ConnStep.run]; unfold unixsockCheck; rw [if_pos (hf (.inr (by rw [← hs]; rfl)))]
  | _ => exact absurd hc id

/-- C61. A client that connects to a console that is not connected makes the daemon try at once. -/
theorem C61_client_down (k : ConnKind) (steps : List ConnStep) (hk : ∀ s ∈ steps, s.kind = k) (hd : (steps.foldl ConnStep.run k.init).state = .down)
    (s : ConnStep) (hs : s.kind = k) (st : ConnState) (hok : Succeeds s st) : (s.run (steps.foldl ConnStep.run k.init)).state = st := by
  have hf : k = .process ∨ k = .unixsock → (steps.foldl ConnStep.run k.init).fd ≠ true := by
    intro hp hf
    exact absurd ((steps_fdi hp steps hk (ConnInv.init k) (NP.init k) (by rcases hp with rfl | rfl <;> exact fdi_off rfl rfl)).mp hf) (by rw [hd]; decide)
  revert hf hd
  generalize steps.foldl ConnStep.run k.init = c
  intro hd hf
  cases s with
  | telCheck e =>
    obtain ⟨h1, h2, rfl⟩ := hok
    simp only [ConnStep.run]; unfold telnetCheck; rw [if_neg (by rw [hd]; decide)]
    dsimp only
    rw [if_pos hd]
    unfold telnetOpen telnetConnect
    simp [hd, h1, h2]
  | procCheck ok =>
    obtain ⟨h1, rfl⟩ := hok
    simp only [ConnStep.run]; unfold processCheck; rw [if_neg (hf (.inl (by rw [← hs]; rfl)))]
    unfold processOpen
    simp [hd, h1]
  | ipmiCheck e =>
    obtain ⟨h1, rfl⟩ := hok
    simp only [ConnStep.run]; unfold Conman.ipmiCheck; rw [if_pos hd]
    unfold Conman.ipmiOpen ipmiConnect
    simp [hd, h1]
  | unixCheck e =>
    obtain ⟨h1, h2, rfl⟩ := hok
    simp only [ConnStep.run]; unfold unixsockCheck; rw [if_neg (hf (.inr (by rw [← hs]; rfl)))]
    unfold unixsockOpen unixsockConnect
    simp [hd, h1, h2]
  | _ => exact absurd hok id

example : let up : List ConnStep := [.ipmiOpen ⟨true, false⟩, .ipmiCallback ⟨true, true⟩]
    (up.foldl ConnStep.run ConnKind.ipmi.init).state = .up ∧ (([.procOpen true, .procOpen true] : List ConnStep).foldl ConnStep.run ConnKind.process.init).state = .down ∧
    (([.procOpen true, .procOpen true, .procCheck true] : List ConnStep).foldl ConnStep.run ConnKind.process.init).state = .up := by decide

end Conman
