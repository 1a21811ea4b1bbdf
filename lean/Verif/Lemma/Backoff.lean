import Verif.Model.Backoff
import Verif.Spec.Backoff

namespace Conman
open Spec

/-- The model's ghost record as a specification history. -/
def ConnEv.toSpec : ConnEv → BackoffEv
  | .retry d => .retry d
  | .stable => .stable
  | .hint => .hint

/-- Documented parameters of the four console types. -/
def ConnKind.par : ConnKind → BackoffPar
  | .telnet => { first := 15, floor := 15, cap := 1800, afterStable := 0 }
  | .process => { first := 60, floor := 60, cap := 1800, afterStable := 0 }
  | .ipmi => { first := 60, floor := 60, cap := 1800, afterStable := 60 }
  | .unixsock => { first := 1, floor := 1, cap := 60, afterStable := 1 }

/-- Seconds a connection must be up to count as stable. -/
def ConnKind.stableSecs : ConnKind → Nat
  | .telnet => 15
  | .process => 60
  | .ipmi => 60
  | .unixsock => 60

def due (p : BackoffPar) (d : Nat) : List BackoffEv → Nat
  | [] => d
  | .retry _ :: h => due p (p.next d) h
  | .stable :: h => due p p.afterStable h
  | .hint :: h => due p p.floor h

theorem follows_snoc (p : BackoffPar) (d : Nat) (h : List BackoffEv) (e : BackoffEv) :
    (p.follows d (h ++ [e]) ↔ p.follows d h ∧ ∀ x, e = .retry x → x = due p d h) := by
  induction h generalizing d with
  | nil => cases e <;> simp [BackoffPar.follows, due]
  | cons a h ih => cases a <;> simp [BackoffPar.follows, due, ih, and_assoc]

theorem due_snoc (p : BackoffPar) (d : Nat) (h : List BackoffEv) (e : BackoffEv) :
    due p d (h ++ [e]) = match e with
      | .retry _ => p.next (due p d h)
      | .stable => p.afterStable
      | .hint => p.floor := by
  induction h generalizing d with
  | nil => cases e <;> simp [due]
  | cons a h ih => cases a <;> simp [due, ih]

structure ConnInv (k : ConnKind) (c : Conn) : Prop where
  fol : (k.par).follows k.par.first (c.hist.map ConnEv.toSpec)
  due : due k.par k.par.first (c.hist.map ConnEv.toSpec) = c.delay
  range : (c.delay = 0 ∧ k.par.afterStable = 0) ∨ (k.par.floor ≤ c.delay ∧ c.delay ≤ k.par.cap)
  stab : ∀ d, c.timer = some (.stable d) → c.state = .up ∧ d = k.stableSecs
  conn : ∀ d, c.timer = some (.connect d) → c.state ≠ .up

/-- A reconnect is due. -/
def Started (k : ConnKind) (c : Conn) : Prop :=
  (c.state = .down → ∃ d, c.timer = some (.connect d)) ∧
  (c.state = .pending → k = .telnet ∨ (k = .ipmi ∧ ∃ d, c.timer = some (.connect d)))

theorem ConnInv.init (k : ConnKind) : ConnInv k k.init := by
  cases k <;> constructor <;>
    simp [ConnKind.init, telnetInit, processInit, ipmiInit, unixsockInit, ConnKind.par, BackoffPar.follows, Conman.due,
      telnetMin, processMin, ipmiMin, unixsockMin]

/-- The effect of arming the reconnect timer and growing the delay. -/
theorem ConnInv.grow {k : ConnKind} {c : Conn} (h : ConnInv k c) (c' : Conn)
    (hh : c'.hist = c.hist ++ [.retry c.delay])
    (hd : c'.delay = k.par.next c.delay) (hs : c'.state ≠ .up)
    (ht : ∃ d, c'.timer = some (.connect d)) : ConnInv k c' := by
  obtain ⟨d, ht⟩ := ht
  have hr := h.range
  constructor
  · rw [hh, List.map_append, List.map_singleton, follows_snoc]
    refine ⟨h.fol, ?_⟩
    intro x hx
    simp only [ConnEv.toSpec, BackoffEv.retry.injEq] at hx
    rw [← hx, h.due]
  · rw [hh, List.map_append, List.map_singleton, due_snoc]
    simp only [ConnEv.toSpec]
    rw [h.due, hd]
  · right
    rw [hd]
    unfold BackoffPar.next
    split
    · cases k <;> simp [ConnKind.par]
    · rcases hr with hr | hr
      · omega
      · cases k <;> simp only [ConnKind.par] at hr ⊢ <;> omega
  · intro x hx; rw [ht] at hx; simp at hx
  · intro x hx; exact hs

/-- The delay returns to its base after a stable connection. -/
theorem ConnInv.reset {k : ConnKind} {c : Conn} (h : ConnInv k c) (c' : Conn)
    (hh : c'.hist = c.hist ++ [.stable]) (hd : c'.delay = k.par.afterStable) (ht : c'.timer = none) : ConnInv k c' := by
  constructor
  · rw [hh, List.map_append, List.map_singleton, follows_snoc]
    exact ⟨h.fol, by simp [ConnEv.toSpec]⟩
  · rw [hh, List.map_append, List.map_singleton, due_snoc]
    simp only [ConnEv.toSpec]; rw [hd]
  · rw [hd]; cases k <;> simp [ConnKind.par]
  · simp [ht]
  · simp [ht]

/-- Steps that leave delay and record alone. -/
theorem ConnInv.same {k : ConnKind} {c : Conn} (h : ConnInv k c) (c' : Conn)
    (hh : c'.hist = c.hist) (hd : c'.delay = c.delay)
    (hs : ∀ d, c'.timer = some (.stable d) → c'.state = .up ∧ d = k.stableSecs)
    (hc : ∀ d, c'.timer = some (.connect d) → c'.state ≠ .up) : ConnInv k c' :=
  ⟨by rw [hh]; exact h.fol, by rw [hh, hd]; exact h.due, by rw [hd]; exact h.range, hs, hc⟩

theorem telnetDisconnect_inv {c : Conn} (h : ConnInv .telnet c) :
    ConnInv .telnet (telnetDisconnect c) ∧ Started .telnet (telnetDisconnect c) := by
  have hr := h.range
  simp only [ConnKind.par] at hr
  have e : telnetDisconnect c = { c with timer := some (.connect c.delay), fd := false, state := .down, hist := c.hist ++ [.retry c.delay], delay := ConnKind.telnet.par.next c.delay } := by
    unfold telnetDisconnect Conn.arm
    simp only [BackoffPar.next, ConnKind.par, telnetMin, telnetMax]
    by_cases h0 : c.delay = 0
    · simp [h0]
    · by_cases h1 : c.delay < 1800
      · simp only [h0, h1, if_true, if_false]; rw [Nat.mul_comm]
      · have : c.delay = 1800 := by omega
        simp [this]
  rw [e]
  exact ⟨h.grow _ rfl rfl (by simp) ⟨_, rfl⟩, by simp [Started]⟩

theorem telnetConnect_inv {c : Conn} (e : TelEnv) (h : ConnInv .telnet c) (hup : c.state ≠ .up) :
    ConnInv .telnet (telnetConnect e c) ∧ Started .telnet (telnetConnect e c) := by
  have h0 : ConnInv .telnet { c with timer := none } := h.same _ rfl rfl (by simp) (by simp)
  unfold telnetConnect
  obtain ⟨st, tm, dl, fd, iac, via, hist⟩ := c
  cases st with
  | up => exact absurd rfl hup
  | down =>
    simp only
    split
    · exact ⟨h.same _ rfl rfl (by simp) (by simp), by simp [Started]⟩
    · cases e.conn with
      | inProgress => exact ⟨h.same _ rfl rfl (by simp) (by simp), by simp [Started]⟩
      | fail => exact telnetDisconnect_inv (h.same _ rfl rfl (by simp) (by simp))
      | ok => exact ⟨h.same _ rfl rfl (by simp [ConnKind.stableSecs, telnetMin]) (by simp), by simp [Started]⟩
  | pending =>
    simp only
    split
    · exact telnetDisconnect_inv (h.same _ rfl rfl (by simp) (by simp))
    · exact ⟨h.same _ rfl rfl (by simp [ConnKind.stableSecs, telnetMin]) (by simp), by simp [Started]⟩

theorem telnetOpen_inv {c : Conn} (e : TelEnv) (h : ConnInv .telnet c) :
    ConnInv .telnet (telnetOpen e c) ∧ Started .telnet (telnetOpen e c) := by
  unfold telnetOpen
  split
  · exact telnetDisconnect_inv h
  · exact telnetConnect_inv e h (by assumption)

theorem processOpen_inv {c : Conn} (ok : Bool) (h : ConnInv .process c) (hp : c.state ≠ .pending) :
    ConnInv .process (processOpen ok c) ∧ Started .process (processOpen ok c) ∧ (processOpen ok c).state ≠ .pending := by
  have hn : ∀ d, (if d = 0 then processMin else min (d * 2) processMax) = ConnKind.process.par.next d := by
    intro d; simp [BackoffPar.next, ConnKind.par, processMin, processMax, Nat.mul_comm]
  unfold processOpen
  obtain ⟨st, tm, dl, fd, iac, via, hist⟩ := c
  cases st with
  | pending => exact absurd rfl hp
  | up =>
    simp only [if_true, Conn.arm]
    exact ⟨h.grow _ rfl (hn dl) (by simp) ⟨_, rfl⟩, by simp [Started], by simp⟩
  | down =>
    cases ok with
    | true =>
      refine ⟨h.same _ rfl rfl (by simp [ConnKind.stableSecs, processMin]) (by simp), by simp [Started], by simp⟩
    | false =>
      simp only [Bool.false_eq_true, if_false, if_true, Conn.arm, hn]
      exact ⟨h.grow _ rfl rfl (by simp) ⟨_, rfl⟩, by simp [Started], by simp⟩

theorem ipmiFail_inv {c : Conn} (h : ConnInv .ipmi c) :
    ConnInv .ipmi (ipmiFail c) ∧ Started .ipmi (ipmiFail c) := by
  have hr := h.range
  simp only [ConnKind.par] at hr
  have e : ipmiFail c = { c with timer := some (.connect c.delay), state := .down, hist := c.hist ++ [.retry c.delay], delay := ConnKind.ipmi.par.next c.delay } := by
    unfold ipmiFail Conn.arm
    simp only [BackoffPar.next, ConnKind.par, ipmiMax]
    have h0 : ¬ c.delay = 0 := by omega
    by_cases h1 : c.delay < 1800
    · simp only [h0, h1, if_true, if_false]; rw [Nat.mul_comm]
    · have : c.delay = 1800 := by omega
      simp [this]
  rw [e]
  exact ⟨h.grow _ rfl rfl (by simp) ⟨_, rfl⟩, by simp [Started]⟩

theorem ipmiConnect_inv {c : Conn} (e : IpmiEnv) (h : ConnInv .ipmi c) :
    ConnInv .ipmi (ipmiConnect e c) ∧ Started .ipmi (ipmiConnect e c) := by
  unfold ipmiConnect
  obtain ⟨st, tm, dl, fd, iac, via, hist⟩ := c
  cases st with
  | up => exact ⟨h, by simp [Started]⟩
  | down =>
    simp only
    split
    · exact ⟨h.same _ rfl rfl (by simp) (by simp), by simp [Started]⟩
    · exact ipmiFail_inv (h.same _ rfl rfl (by simp) (by simp))
  | pending =>
    simp only
    split
    · exact ⟨h.same _ rfl rfl (by simp [ConnKind.stableSecs, ipmiMin]) (by simp), by simp [Started]⟩
    · exact ipmiFail_inv (h.same _ rfl rfl (by simp) (by simp))

theorem ipmiOpen_inv {c : Conn} (e : IpmiEnv) (h : ConnInv .ipmi c) :
    ConnInv .ipmi (ipmiOpen e c) ∧ ((Started .ipmi c ∨ c.state ≠ .pending) → Started .ipmi (ipmiOpen e c)) := by
  unfold ipmiOpen
  cases hs : c.state with
  | up =>
    have := ipmiConnect_inv (c := ipmiDisconnect c) e (h.same _ rfl rfl (by simp [ipmiDisconnect]) (by simp [ipmiDisconnect]))
    exact ⟨this.1, fun _ => this.2⟩
  | down => exact ⟨(ipmiConnect_inv e h).1, fun _ => (ipmiConnect_inv e h).2⟩
  | pending => exact ⟨h, fun hh => by rcases hh with hh | hh; exact hh; simp at hh⟩

theorem unixsockDisconnect_inv {c : Conn} (h : ConnInv .unixsock c) :
    ConnInv .unixsock (unixsockDisconnect c) ∧ Started .unixsock (unixsockDisconnect c) := by
  have hr := h.range
  simp only [ConnKind.par] at hr
  have e : unixsockDisconnect c = { c with timer := some (.connect c.delay), state := .down, fd := false, hist := c.hist ++ [.retry c.delay], delay := ConnKind.unixsock.par.next c.delay } := by
    unfold unixsockDisconnect Conn.arm
    simp only [BackoffPar.next, ConnKind.par, unixsockMax]
    have h0 : ¬ c.delay = 0 := by omega
    by_cases h1 : c.delay < 60
    · simp only [h0, h1, if_true, if_false]; rw [Nat.mul_comm]
    · have : c.delay = 60 := by omega
      simp [this]
  rw [e]
  exact ⟨h.grow _ rfl rfl (by simp) ⟨_, rfl⟩, by simp [Started]⟩

theorem ConnInv.hint {k : ConnKind} {c : Conn} (h : ConnInv k c) (c' : Conn)
    (hh : c'.hist = c.hist ++ [.hint]) (hd : c'.delay = k.par.floor)
    (hs : ∀ d, c'.timer = some (.stable d) → c'.state = .up ∧ d = k.stableSecs)
    (hc : ∀ d, c'.timer = some (.connect d) → c'.state ≠ .up) : ConnInv k c' := by
  constructor
  · rw [hh, List.map_append, List.map_singleton, follows_snoc]
    exact ⟨h.fol, by simp [ConnEv.toSpec]⟩
  · rw [hh, List.map_append, List.map_singleton, due_snoc]
    simp only [ConnEv.toSpec]; rw [hd]
  · rw [hd]; cases k <;> simp [ConnKind.par]
  · exact hs
  · exact hc

theorem unixsockConnect_inv {c : Conn} (e : UnixEnv) (h : ConnInv .unixsock c) :
    ConnInv .unixsock (unixsockConnect e c) ∧ Started .unixsock (unixsockConnect e c) := by
  unfold unixsockConnect
  simp only
  split
  · exact unixsockDisconnect_inv (h.same _ rfl rfl (by simp) (by simp))
  split
  · exact ⟨h.same _ rfl rfl (by simp [ConnKind.stableSecs, minConnectSecs]) (by simp), by simp [Started]⟩
  · split
    · exact unixsockDisconnect_inv (h.hint _ rfl rfl (by simp) (by simp))
    · exact unixsockDisconnect_inv (h.same _ rfl rfl (by simp) (by simp))

theorem unixsockOpen_inv {c : Conn} (e : UnixEnv) (h : ConnInv .unixsock c) :
    ConnInv .unixsock (unixsockOpen e c) ∧ Started .unixsock (unixsockOpen e c) := by
  unfold unixsockOpen
  split
  · exact unixsockDisconnect_inv h
  · exact unixsockConnect_inv e h

/-- Process objects are never pending. -/
def NP (k : ConnKind) (c : Conn) : Prop := k = .process ∨ k = .unixsock → c.state ≠ .pending

theorem unix_np_disc (c : Conn) : (unixsockDisconnect c).state = .down := by
  unfold unixsockDisconnect Conn.arm
  simp only
  split <;> rfl

theorem unix_np (e : UnixEnv) (c : Conn) : (unixsockConnect e c).state ≠ .pending := by
  unfold unixsockConnect
  simp only
  split
  · simp [unix_np_disc]
  split
  · simp
  · simp [unix_np_disc]

theorem step_inv {k : ConnKind} {c : Conn} (s : ConnStep) (hk : s.kind = k) (h : ConnInv k c) (hnp : NP k c) :
    ConnInv k (s.run c) ∧ NP k (s.run c) ∧ (Started k c → Started k (s.run c)) := by
  subst hk
  cases s with
  | telOpen e => exact ⟨(telnetOpen_inv e h).1, by simp [NP, ConnStep.kind], fun _ => (telnetOpen_inv e h).2⟩
  | telTimer e =>
    refine ⟨?_, by simp [NP, ConnStep.kind], ?_⟩
    · simp only [ConnStep.run, telnetTimer]
      cases ht : c.timer with
      | none => exact h
      | some t => cases t with
        | connect d => exact (telnetConnect_inv e h (h.conn d ht)).1
        | stable d => exact h.reset _ rfl rfl rfl
    · intro hst
      simp only [ConnStep.run, telnetTimer]
      cases ht : c.timer with
      | none => exact hst
      | some t => cases t with
        | connect d => exact (telnetConnect_inv e h (h.conn d ht)).2
        | stable d => simp [Started, telnetResetDelay, (h.stab d ht).1]
  | procOpen ok =>
    have := processOpen_inv ok h (hnp (by simp [ConnStep.kind]))
    exact ⟨this.1, fun _ => this.2.2, fun _ => this.2.1⟩
  | procTimer ok =>
    have hop := processOpen_inv ok h (hnp (by simp [ConnStep.kind]))
    simp only [ConnStep.run, processTimer]
    cases ht : c.timer with
    | none => exact ⟨h, hnp, id⟩
    | some t => cases t with
      | connect d => exact ⟨hop.1, fun _ => hop.2.2, fun _ => hop.2.1⟩
      | stable d =>
        exact ⟨h.reset _ rfl rfl rfl, fun _ => by simp [processResetDelay, (h.stab d ht).1],
          fun _ => by simp [Started, processResetDelay, (h.stab d ht).1]⟩
  | ipmiOpen e =>
    exact ⟨(ipmiOpen_inv e h).1, by simp [NP, ConnStep.kind], fun hs => (ipmiOpen_inv e h).2 (Or.inl hs)⟩
  | ipmiTimer e =>
    simp only [ConnStep.run, ipmiTimer]
    refine ⟨?_, by simp [NP, ConnStep.kind], ?_⟩
    · cases ht : c.timer with
      | none => exact h
      | some t => cases t with
        | connect d => exact (ipmiConnect_inv e h).1
        | stable d => exact h.reset _ rfl rfl rfl
    · intro hst
      cases ht : c.timer with
      | none => exact hst
      | some t => cases t with
        | connect d => exact (ipmiConnect_inv e h).2
        | stable d => simp [Started, ipmiResetDelay, (h.stab d ht).1]
  | ipmiCallback e =>
    exact ⟨(ipmiConnect_inv e h).1, by simp [NP, ConnStep.kind], fun _ => (ipmiConnect_inv e h).2⟩
  | unixOpen e =>
    refine ⟨(unixsockOpen_inv e h).1, fun _ => ?_, fun _ => (unixsockOpen_inv e h).2⟩
    simp only [ConnStep.run, unixsockOpen]
    split
    · simp [unix_np_disc]
    · exact unix_np e c
  | unixTimer e =>
    simp only [ConnStep.run, unixsockTimer]
    cases ht : c.timer with
    | none => exact ⟨h, hnp, id⟩
    | some t => cases t with
      | connect d => exact ⟨(unixsockConnect_inv e h).1, fun _ => unix_np e c, fun _ => (unixsockConnect_inv e h).2⟩
      | stable d =>
        exact ⟨h.reset _ rfl rfl rfl, fun _ => by simp [unixsockResetDelay, (h.stab d ht).1],
          fun _ => by simp [Started, unixsockResetDelay, (h.stab d ht).1]⟩
  | unixInotify e =>
    have h' : ConnInv .unixsock { c with viaInotify := true } := h.same _ rfl rfl h.stab h.conn
    refine ⟨(unixsockOpen_inv e h').1, fun _ => ?_, fun _ => (unixsockOpen_inv e h').2⟩
    simp only [ConnStep.run, unixsockInotify, unixsockOpen]
    split
    · simp [unix_np_disc]
    · exact unix_np e _
  | telCheck e =>
    refine ⟨?_, by simp [NP, ConnStep.kind], ?_⟩
    · simp only [ConnStep.run, telnetCheck]
      split
      · exact h
      · have h' : ConnInv .telnet { c with delay := telnetMin, hist := c.hist ++ [.hint] } :=
          h.hint _ rfl rfl h.stab h.conn
        split
        · exact (telnetOpen_inv e h').1
        · exact h'
    · intro hst
      simp only [ConnStep.run, telnetCheck]
      split
      · exact hst
      · have h' : ConnInv .telnet { c with delay := telnetMin, hist := c.hist ++ [.hint] } :=
          h.hint _ rfl rfl h.stab h.conn
        split
        · exact (telnetOpen_inv e h').2
        · exact hst
  | procCheck ok =>
    have hop := processOpen_inv ok h (hnp (by simp [ConnStep.kind]))
    simp only [ConnStep.run, processCheck]
    split
    · exact ⟨h, hnp, id⟩
    · exact ⟨hop.1, fun _ => hop.2.2, fun _ => hop.2.1⟩
  | ipmiCheck e =>
    simp only [ConnStep.run, Conman.ipmiCheck]
    refine ⟨?_, by simp [NP, ConnStep.kind], ?_⟩
    · split
      · exact (ipmiOpen_inv e h).1
      · exact h
    · intro hs
      split
      · exact (ipmiOpen_inv e h).2 (Or.inl hs)
      · exact hs
  | unixCheck e =>
    simp only [ConnStep.run, unixsockCheck]
    split
    · exact ⟨h, hnp, id⟩
    · refine ⟨(unixsockOpen_inv e h).1, fun _ => ?_, fun _ => (unixsockOpen_inv e h).2⟩
      simp only [unixsockOpen]
      split
      · simp [unix_np_disc]
      · exact unix_np e c

theorem steps_inv {k : ConnKind} {c : Conn} (l : List ConnStep) (hk : ∀ s ∈ l, s.kind = k) (h : ConnInv k c)
    (hnp : NP k c) :
    ConnInv k (l.foldl ConnStep.run c) ∧ NP k (l.foldl ConnStep.run c) ∧
      (Started k c → Started k (l.foldl ConnStep.run c)) := by
  induction l generalizing c with
  | nil => exact ⟨h, hnp, id⟩
  | cons s l ih =>
    obtain ⟨h1, h2, h3⟩ := step_inv s (hk s (by simp)) h hnp
    obtain ⟨h4, h5, h6⟩ := ih (fun s hs => hk s (by simp [hs])) h1 h2
    exact ⟨h4, h5, fun hs => h6 (h3 hs)⟩

theorem NP.init (k : ConnKind) : NP k k.init := by
  cases k <;> simp [NP, ConnKind.init, telnetInit, processInit, ipmiInit, unixsockInit]

theorem follows_range (k : ConnKind) (d : Nat)
    (hd : (d = 0 ∧ k.par.afterStable = 0) ∨ (k.par.floor ≤ d ∧ d ≤ k.par.cap)) (h : List BackoffEv)
    (hf : k.par.follows d h) : ∀ x, .retry x ∈ h →
      (x = 0 ∧ k.par.afterStable = 0) ∨ (k.par.floor ≤ x ∧ x ≤ k.par.cap) := by
  have hnext : ∀ d, ((d = 0 ∧ k.par.afterStable = 0) ∨ (k.par.floor ≤ d ∧ d ≤ k.par.cap)) →
      k.par.floor ≤ k.par.next d ∧ k.par.next d ≤ k.par.cap := by
    intro d hd
    unfold BackoffPar.next
    cases k <;> simp only [ConnKind.par] at hd ⊢ <;> split <;> omega
  induction h generalizing d with
  | nil => simp
  | cons a h ih =>
    intro x hx
    cases a with
    | retry y =>
      simp only [BackoffPar.follows] at hf
      simp only [List.mem_cons, BackoffEv.retry.injEq] at hx
      rcases hx with rfl | hx
      · rw [hf.1]; exact hd
      · exact ih _ (Or.inr (hnext d hd)) hf.2 x hx
    | stable =>
      simp only [List.mem_cons, reduceCtorEq, false_or] at hx
      exact ih k.par.afterStable (by cases k <;> simp [ConnKind.par]) hf x hx
    | hint =>
      simp only [List.mem_cons, reduceCtorEq, false_or] at hx
      exact ih k.par.floor (by cases k <;> simp [ConnKind.par]) hf x hx

end Conman
