import Verif.Props.Backoff

/-
C37: what sets the delay back early.
-/
namespace Conman

/-- A client connects to a telnet console, or something happens in the directory of a unix socket. -/
def ConnStep.isHint : ConnStep → Bool
  | telCheck _ | unixInotify _ => true
  | _ => false

/-- Times the delay was set back early, and one more if it may yet be. -/
def hints (c : Conn) : Nat := c.hist.count .hint + if c.viaInotify then 1 else 0

theorem hints_arm (c : Conn) : hints c.arm = hints c := by
  unfold hints Conn.arm
  simp [List.count_append]

theorem hints_telnetDisconnect (c : Conn) : hints (telnetDisconnect c) = hints c := by
  unfold telnetDisconnect
  have h := hints_arm { c with timer := none, fd := false, state := .down }
  dsimp only
  split
  · exact h
  · split <;> exact h

theorem hints_telnetConnect (e : TelEnv) (c : Conn) : hints (telnetConnect e c) = hints c := by
  unfold telnetConnect
  dsimp only
  repeat' split
  all_goals first | rfl | exact hints_telnetDisconnect _

theorem hints_telnetOpen (e : TelEnv) (c : Conn) : hints (telnetOpen e c) = hints c := by
  unfold telnetOpen
  split
  · exact hints_telnetDisconnect c
  · exact hints_telnetConnect e c

theorem hints_stable (c : Conn) (d : Nat) : hints { c with delay := d, timer := none, hist := c.hist ++ [.stable] } = hints c := by
  unfold hints
  simp [List.count_append]

theorem hints_processOpen (ok : Bool) (c : Conn) : hints (processOpen ok c) = hints c := by
  unfold processOpen
  dsimp only
  cases c.state <;> cases ok <;>
    first
      | rfl
      | exact hints_arm { c with timer := none, fd := false, state := .down }
      | exact hints_arm { c with timer := none }

theorem hints_ipmiFail (c : Conn) : hints (ipmiFail c) = hints c := by
  unfold ipmiFail
  have h := hints_arm { c with state := .down }
  dsimp only
  split <;> exact h

theorem hints_ipmiConnect (e : IpmiEnv) (c : Conn) : hints (ipmiConnect e c) = hints c := by
  unfold ipmiConnect
  repeat' split
  all_goals first | rfl | exact hints_ipmiFail _

theorem hints_ipmiOpen (e : IpmiEnv) (c : Conn) : hints (ipmiOpen e c) = hints c := by
  unfold ipmiOpen
  split
  · rw [hints_ipmiConnect]; rfl
  · exact hints_ipmiConnect e c
  · rfl

theorem hints_unixsockDisconnect (c : Conn) : hints (unixsockDisconnect c) = hints c := by
  unfold unixsockDisconnect
  have h := hints_arm { c with timer := none, fd := false, state := .down }
  dsimp only
  split <;> exact h

theorem hints_unixsockConnect (e : UnixEnv) (c : Conn) : hints (unixsockConnect e c) ≤ hints c := by
  have h0 : hints { c with viaInotify := false, timer := none } ≤ hints c := by
    unfold hints; dsimp only; simp
  unfold unixsockConnect
  dsimp only
  split
  · rw [hints_unixsockDisconnect]; exact h0
  · split
    · exact h0
    · rw [hints_unixsockDisconnect]
      split
      · rename_i hv
        unfold hints
        simp [List.count_append, hv]
      · exact h0

theorem hints_unixsockOpen (e : UnixEnv) (c : Conn) : hints (unixsockOpen e c) ≤ hints c := by
  unfold unixsockOpen
  split
  · exact Nat.le_of_eq (hints_unixsockDisconnect c)
  · exact hints_unixsockConnect e c

theorem hints_step (c : Conn) (s : ConnStep) : hints (s.run c) ≤ hints c + if s.isHint then 1 else 0 := by
  cases s with
  | telOpen e => exact Nat.le_of_eq (hints_telnetOpen e c)
  | telTimer e =>
    simp only [ConnStep.run, telnetTimer]
    split
    · exact Nat.le_refl _
    · exact Nat.le_of_eq (hints_telnetConnect e c)
    · exact Nat.le_of_eq (hints_stable c 0)
  | procOpen ok => exact Nat.le_of_eq (hints_processOpen ok c)
  | procTimer ok =>
    simp only [ConnStep.run, processTimer]
    split
    · exact Nat.le_refl _
    · exact Nat.le_of_eq (hints_processOpen ok c)
    · exact Nat.le_of_eq (hints_stable c 0)
  | ipmiOpen e => exact Nat.le_of_eq (hints_ipmiOpen e c)
  | ipmiTimer e =>
    simp only [ConnStep.run, Conman.ipmiTimer]
    split
    · exact Nat.le_refl _
    · exact Nat.le_of_eq (hints_ipmiConnect e c)
    · exact Nat.le_of_eq (hints_stable c ipmiMin)
  | ipmiCallback e => exact Nat.le_of_eq (hints_ipmiConnect e c)
  | unixOpen e => exact hints_unixsockOpen e c
  | unixTimer e =>
    simp only [ConnStep.run, unixsockTimer]
    split
    · exact Nat.le_refl _
    · exact hints_unixsockConnect e c
    · exact Nat.le_of_eq (hints_stable c unixsockMin)
  | unixInotify e =>
    refine Nat.le_trans (hints_unixsockOpen e { c with viaInotify := true }) ?_
    unfold hints
    simp [ConnStep.isHint]
  | telCheck e =>
    have h : hints { c with delay := telnetMin, hist := c.hist ++ [.hint] } = hints c + 1 := by
      unfold hints; simp [List.count_append]; omega
    simp only [ConnStep.run, telnetCheck, ConnStep.isHint]
    split
    · exact Nat.le_add_right _ _
    · split
      · rw [hints_telnetOpen, h]; exact Nat.le_refl _
      · rw [h]; exact Nat.le_refl _
  | procCheck ok =>
    simp only [ConnStep.run, processCheck]
    split
    · exact Nat.le_refl _
    · exact Nat.le_of_eq (hints_processOpen ok c)
  | ipmiCheck e =>
    simp only [ConnStep.run, Conman.ipmiCheck]
    split
    · exact Nat.le_of_eq (hints_ipmiOpen e c)
    · exact Nat.le_refl _
  | unixCheck e =>
    simp only [ConnStep.run, unixsockCheck]
    split
    · exact Nat.le_refl _
    · exact hints_unixsockOpen e c

/-- C37. The delay is set back before a connection is stable at most as often as a client connects to the (telnet) console or something happens in the directory of the (unix) socket; never
by attempts of the daemon itself. -/
theorem C37_hints (k : ConnKind) (steps : List ConnStep) : (steps.foldl ConnStep.run k.init).hist.count .hint ≤ (steps.filter ConnStep.isHint).length := by
  have gen : ∀ (steps : List ConnStep) (c : Conn), hints (steps.foldl ConnStep.run c) ≤ hints c + (steps.filter ConnStep.isHint).length := by
    intro steps
    induction steps with
    | nil => intro c; exact Nat.le_refl _
    | cons s steps ih =>
      intro c
      have h1 := ih (s.run c)
      have h2 := hints_step c s
      rw [List.foldl_cons, List.filter_cons]
      split
      · rename_i g
        rw [if_pos g] at h2
        rw [List.length_cons]; omega
      · rename_i g
        rw [if_neg g] at h2
        omega
  have h := gen steps k.init
  have h0 : hints k.init = 0 := by cases k <;> rfl
  have h1 : (steps.foldl ConnStep.run k.init).hist.count .hint ≤ hints (steps.foldl ConnStep.run k.init) := Nat.le_add_right _ _
  omega

/-- C37. If something happens in the directory of a unix socket that is down, and the attempt made then fails because nobody listens yet, the next attempt is made after the minimal delay, however
long it was by then. -/
theorem C37_hint_soon (c : Conn) (e : UnixEnv) (hd : c.state = .down) (hu : e.usable = true) (hc : e.connected = false) :
    (unixsockInotify e c).timer = some (.connect 1) ∧ (unixsockInotify e c).state = .down ∧ (unixsockInotify e c).hist = c.hist ++ [.hint, .retry 1] := by
  unfold unixsockInotify unixsockOpen
  dsimp only
  rw [if_neg (by rw [hd]; decide)]
  unfold unixsockConnect
  dsimp only
  rw [if_neg (by rw [hu]; decide), if_neg (by rw [hc]; decide), if_pos rfl]
  unfold unixsockDisconnect Conn.arm
  dsimp only
  rw [if_pos (by decide)]
  exact ⟨rfl, rfl, by simp [unixsockMin]⟩

/-- Finding. The mark that an attempt is due to the directory is set also when the console is up; then the connection is dropped, the mark stays, and it is an attempt of the timer, at any later
time, that is treated as if something had happened just before. -/
theorem C37_hint_late (e e' e'' : UnixEnv) (hu : e'.usable = true) (hc : e'.connected = false) (c : Conn) (h : c.state = .up) :
    (unixsockTimer e' (unixsockInotify e c)).hist = c.hist ++ [.retry c.delay, .hint, .retry 1] ∧ (unixsockInotify e c).viaInotify = true ∧
    (unixsockCheck e'' (unixsockInotify e c)) = unixsockConnect e'' (unixsockInotify e c) := by
  obtain ⟨st, tm, dl, fd, iac, via, hi⟩ := c
  dsimp only at h
  subst h
  have e1 : unixsockInotify e ⟨.up, tm, dl, fd, iac, via, hi⟩ =
      ⟨.down, some (.connect dl), if dl < unixsockMax then min (dl * 2) unixsockMax else dl, false, iac, true, hi ++ [.retry dl]⟩ := by
    unfold unixsockInotify unixsockOpen unixsockDisconnect Conn.arm
    dsimp only
    rw [if_pos rfl]
    split <;> rfl
  rw [e1]
  refine ⟨?_, rfl, ?_⟩
  · unfold unixsockTimer unixsockConnect
    dsimp only
    rw [if_neg (by rw [hu]; decide), if_neg (by rw [hc]; decide), if_pos rfl]
    unfold unixsockDisconnect Conn.arm
    dsimp only
    rw [if_pos (by decide)]
    simp [unixsockMin]
  · unfold unixsockCheck unixsockOpen
    dsimp only
    rw [if_neg (by decide), if_neg (by decide)]

/-- A socket that fails three times, then is made anew; and one that is up when something happens. -/
example :
    let bad : UnixEnv := ⟨false, false⟩
    let bound : UnixEnv := ⟨true, false⟩
    let ok : UnixEnv := ⟨true, true⟩
    (([.unixOpen bad, .unixTimer bad, .unixTimer bad, .unixInotify bound] : List ConnStep).foldl ConnStep.run unixsockInit).hist = [.retry 1, .retry 2, .retry 4, .hint, .retry 1] ∧
    (([.unixOpen bad, .unixTimer bad, .unixTimer ok, .unixInotify ok, .unixTimer bound] : List ConnStep).foldl ConnStep.run unixsockInit).hist = [.retry 1, .retry 2, .retry 4, .hint, .retry 1] := by
  decide

end Conman
