import Verif.Lemma.Startup

/-
C78: what the command that starts the daemon reports.
-/
namespace Conman
open Spec

/-- C78. If the daemon gives up with a message before the command returns, the command fails, whatever the message. -/
theorem C78_failed (target : Option (Int × Bool)) (syslog : Bool) (out : SStage → StageRes) (buf ebuf stamp : List UInt8) (x : SStage) (c : LogCall)
    (hb : buf.length = 1024) (he : ebuf.length = 1024) (hs : stamp ≠ [] ∧ stamp.length ≤ 1000 ∧ (0 : UInt8) ∉ stamp)
    (hx : firstBad out x) (hc : out x = .fail c) (ho : c.ok) (hxe : x ∈ SStage.early) :
    ∃ seen, startDaemon target syslog {} out buf ebuf stamp = some seen ∧ seen.status = 1 ∧ seen.runs = false := by
  obtain ⟨a1, a2, a3, a4, a5⟩ := Starter.at_pipe target syslog x
  obtain ⟨s', e, hp, _, _⟩ := logErr_eq (s := Starter.at target syslog x) hb ho
  have hg := (go_bad (target := target) (syslog := syslog) (buf := buf) hx).1 c hc
  rw [a1, a3.2 hxe, List.nil_append, if_pos rfl] at hp
  have zl : (0 : UInt8) ∉ ({ c with prio := 3 } : LogCall).line := (logFill_eq hb (c := { c with prio := 3 }) ho).choose_spec.2
  have ll : ({ c with prio := 3 } : LogCall).line.length ≤ 1023 := by
    unfold LogCall.line
    rw [List.length_append, List.length_take]
    split <;> simp <;> omega
  generalize hm : (({ c with prio := 3 } : LogCall).line.drop (c.stamp.length + 11)) = m at hp
  have mz : (0 : UInt8) ∉ m.takeWhile (· ≠ 0x0A) := by
    intro h
    apply zl
    apply List.mem_of_mem_drop (i := c.stamp.length + 11)
    rw [hm]
    exact (List.takeWhile_prefix _).subset h
  have ml : (m.takeWhile (· ≠ 0x0A)).length ≤ 1023 := by
    have h1 := (List.takeWhile_prefix (l := m) (fun x => decide (x ≠ 0x0A))).length_le
    have h2 : m.length ≤ 1023 := by rw [← hm, List.length_drop]; omega
    omega
  obtain ⟨q1, q2⟩ := parentEnd_msg hb he (stamp := stamp) (m := m.takeWhile (· ≠ 0x0A)) ⟨hs.1, hs.2.1, hs.2.2, mz, by simp⟩ ml
  unfold startDaemon
  dsimp only
  rw [hg, e, Option.map_some, Option.bind_some]
  dsimp only
  rw [hp]
  by_cases g1 : (Starter.at target syslog x).stderr = true
  · rw [if_pos g1, q1]
    exact ⟨_, rfl, rfl, rfl⟩
  · rw [if_neg g1]
    by_cases g2 : m = []
    · rw [if_neg (fun h => h g2), q1]
      exact ⟨_, rfl, rfl, rfl⟩
    · rw [if_pos g2, q2]
      exact ⟨_, rfl, rfl, rfl⟩

/-- C78: and the terminal shows the message, whether the daemon already logs to a file, to syslog, or to nothing. -/
theorem C78_message (target : Option (Int × Bool)) (syslog : Bool) (out : SStage → StageRes) (buf ebuf stamp : List UInt8) (x : SStage) (c : LogCall)
    (hb : buf.length = 1024) (he : ebuf.length = 1024) (hs : stamp ≠ [] ∧ stamp.length ≤ c.stamp.length ∧ (0 : UInt8) ∉ stamp)
    (hx : firstBad out x) (hc : out x = .fail c) (ho : c.short) (hxe : x ∈ SStage.early) :
    startDaemon target syslog {} out buf ebuf stamp = some ⟨1, c.shown, false⟩ := by
  obtain ⟨a1, a2, a3, a4, a5⟩ := Starter.at_pipe target syslog x
  obtain ⟨s', e, hp, ht1, ht2⟩ := logErr_eq (s := Starter.at target syslog x) hb ho.1
  have hg := (go_bad (target := target) (syslog := syslog) (buf := buf) hx).1 c hc
  obtain ⟨l1, l2, l3⟩ := line3 c ho
  rw [a1, a3.2 hxe, List.nil_append, if_pos rfl, l2, l3] at hp
  rw [a2, l2] at ht2
  rw [a2] at ht1
  -- the text of the message
  generalize hm : c.text ++ c.errText = m
  have hsh : c.shown = bs "ERROR:     " ++ (m ++ [0x0A]) := by
    unfold LogCall.shown
    rw [← hm]
    simp only [List.append_assoc]
  obtain ⟨ok, s1, s2, s3, s4, s5, s6⟩ := ho
  have hfl : c.full = c.stamp ++ bs "ERROR:     " ++ m := by
    unfold LogCall.full
    have : logHead 3 = bs "ERROR:     " := rfl
    rw [s1, s2, this, ← hm]
    simp
  have l11 : (bs "ERROR:     ").length = 11 := by decide
  have hml : c.stamp.length + 11 + m.length ≤ 1022 := by
    rw [hfl] at s3
    simpa only [List.length_append, l11] using s3
  have mne : m ≠ [] := by
    rw [← hm]
    intro h
    exact s6 (List.append_eq_nil_iff.1 h).1
  have mnl : (0x0A : UInt8) ∉ m := by
    rw [← hm, List.mem_append, not_or]
    refine ⟨s4, ?_⟩
    unfold LogCall.errText
    cases hce : c.err with
    | none => simp
    | some e =>
      dsimp only
      rw [List.mem_append, not_or]
      exact ⟨by decide, s5 e (by rw [hce]; rfl)⟩
  have mz : (0 : UInt8) ∉ m := by
    obtain ⟨_, _, _, o4, o5⟩ := ok
    rw [← hm, List.mem_append, not_or]
    refine ⟨o4, ?_⟩
    unfold LogCall.errText
    cases hce : c.err with
    | none => simp
    | some e =>
      dsimp only
      rw [List.mem_append, not_or]
      exact ⟨by decide, o5 e (by rw [hce]; rfl)⟩
  have hd : c.shown.drop 11 = m ++ [0x0A] := by rw [hsh]; exact List.drop_left' l11
  have htw : (m ++ [0x0A]).takeWhile (· ≠ 0x0A) = m := by
    rw [List.takeWhile_append_of_pos (by
      intro y hy
      simpa using fun e : y = 0x0A => mnl (e ▸ hy))]
    simp
  rw [hd, htw] at hp
  have hok : LogCall.ok { stamp := stamp, prio := 3, text := m } := ⟨hs.1, by have := ok.2.1; dsimp only; omega, hs.2.2, mz, by simp⟩
  obtain ⟨q1, q2⟩ := parentEnd_msg hb he (stamp := stamp) (m := m) hok (by omega)
  have hpl : (LogCall.line { stamp := stamp, prio := 3, text := m }).drop stamp.length = c.shown := by
    have et : LogCall.errText { stamp := stamp, prio := 3, text := m } = [] := rfl
    have := (C79_shape { stamp := stamp, prio := 3, text := m } hok rfl).2.2.2 (by
      unfold LogCall.full
      have : logHead 3 = bs "ERROR:     " := rfl
      dsimp only
      rw [this, if_neg (by decide), et]
      simp only [List.length_append, l11, List.length_nil]
      omega)
    rw [this, hsh]
    unfold LogCall.full
    have : logHead 3 = bs "ERROR:     " := rfl
    dsimp only
    rw [this, if_neg (by decide), et]
    simp only [List.append_assoc, List.nil_append]
    exact List.drop_left' rfl
  unfold startDaemon
  dsimp only
  rw [hg, e, Option.map_some, Option.bind_some]
  dsimp only
  rw [hp]
  by_cases g1 : (Starter.at target syslog x).stderr = true
  · rw [if_pos g1, q1, ht2 g1 (a4 g1), l1, List.drop_left' rfl]
    simp
  · rw [if_neg g1, if_pos (by simp), q2, if_neg mne, hpl, ht1 (by simpa using g1)]
    rfl

/-- C78: if all goes well, the command succeeds silently. -/
theorem C78_ok (target : Option (Int × Bool)) (syslog : Bool) (out : SStage → StageRes) (buf ebuf stamp : List UInt8) (h : ∀ x, out x = .ok) :
    startDaemon target syslog {} out buf ebuf stamp = some ⟨0, [], true⟩ := by
  unfold startDaemon
  dsimp only
  have e := Starter.go_ok target syslog out buf [] SStage.all {} (fun y _ => h y)
  rw [List.append_nil] at e
  rw [e, Starter.go, Option.bind_some]
  rfl

theorem firstBad_or (out : SStage → StageRes) : (∀ x, out x = .ok) ∨ ∃ x, firstBad out x := by
  have key : ∀ l : List SStage, (∀ x ∈ l, out x = .ok) ∨ ∃ x a b, l = a ++ x :: b ∧ (∀ y ∈ a, out y = .ok) ∧ out x ≠ .ok := by
    intro l
    induction l with
    | nil => exact Or.inl (by simp)
    | cons x l ih =>
      by_cases g : out x = .ok
      · rcases ih with h | ⟨y, a, b, h1, h2, h3⟩
        · exact Or.inl (by simpa [g] using h)
        · exact Or.inr ⟨y, x :: a, b, by rw [h1]; rfl, by simpa [g] using h2, h3⟩
      · exact Or.inr ⟨x, [], l, rfl, by simp, g⟩
  rcases key SStage.all with h | ⟨x, a, b, h⟩
  · exact Or.inl fun x => h x (by cases x <;> decide)
  · exact Or.inr ⟨x, a, b, h⟩

/-- C78 (partial): the exit status says whether the daemon runs, if no process is killed and nothing fails after the command has returned.
Missing: these two cases, `C78_killed` and `C78_late`, and system calls that fail in the command itself, `C78_parent`. -/
theorem C78_status_partial (target : Option (Int × Bool)) (syslog : Bool) (out : SStage → StageRes) (buf ebuf stamp : List UInt8)
    (hb : buf.length = 1024) (he : ebuf.length = 1024) (hs : stamp ≠ [] ∧ stamp.length ≤ 1000 ∧ (0 : UInt8) ∉ stamp)
    (hk : ∀ x, out x ≠ .killed) (hl : ∀ x, x ∉ SStage.early → out x = .ok) (ho : ∀ x c, out x = .fail c → c.ok) :
    ∃ seen, startDaemon target syslog {} out buf ebuf stamp = some seen ∧ (seen.status = 0 ↔ seen.runs = true) ∧ (seen.status = 0 ∨ seen.status = 1) := by
  rcases firstBad_or out with h | ⟨x, hx⟩
  · exact ⟨_, C78_ok target syslog out buf ebuf stamp h, by simp, Or.inl rfl⟩
  · have hne : out x ≠ .ok := hx.choose_spec.choose_spec.2.2
    cases hc : out x with
    | ok => exact absurd hc hne
    | killed => exact absurd hc (hk x)
    | fail c =>
      have hxe : x ∈ SStage.early := Classical.byContradiction fun g => hne (hl x g)
      obtain ⟨seen, e, h1, h2⟩ := C78_failed target syslog out buf ebuf stamp x c hb he hs hx hc (ho x c hc) hxe
      exact ⟨seen, e, by rw [h1, h2]; simp, Or.inr h1⟩

/-- C78 is false if a process is killed on the way: the command succeeds silently, and there is no daemon. -/
theorem C78_killed (target : Option (Int × Bool)) (syslog : Bool) (out : SStage → StageRes) (buf ebuf stamp : List UInt8) (x : SStage)
    (hx : firstBad out x) (hc : out x = .killed) : startDaemon target syslog {} out buf ebuf stamp = some ⟨0, [], false⟩ := by
  obtain ⟨a1, a2, a3, a4, a5⟩ := Starter.at_pipe target syslog x
  have hg := (go_bad (target := target) (syslog := syslog) (buf := buf) hx).2 hc
  unfold startDaemon
  dsimp only
  rw [hg, Option.bind_some]
  dsimp only
  rw [a1, a2]
  rfl

/-- C78 is false of what is left to do when the command returns: the limit of open files, the consoles. -/
theorem C78_late (target : Option (Int × Bool)) (syslog : Bool) (out : SStage → StageRes) (buf ebuf stamp : List UInt8) (x : SStage) (c : LogCall)
    (hb : buf.length = 1024) (hx : firstBad out x) (hc : out x = .fail c) (ho : c.ok) (hxe : x ∉ SStage.early) :
    startDaemon target syslog {} out buf ebuf stamp = some ⟨0, [], false⟩ := by
  obtain ⟨a1, a2, a3, a4, a5⟩ := Starter.at_pipe target syslog x
  have ep : (Starter.at target syslog x).errPipe = false := by
    cases g : (Starter.at target syslog x).errPipe with
    | false => rfl
    | true => exact absurd (a3.1 g) hxe
  obtain ⟨s', e, hp, ht1, ht2⟩ := logErr_eq (s := Starter.at target syslog x) hb ho
  have hg := (go_bad (target := target) (syslog := syslog) (buf := buf) hx).1 c hc
  rw [a1, ep, if_neg (by decide)] at hp
  have ht := ht1 (a5 ep)
  unfold startDaemon
  dsimp only
  rw [hg, e, Option.map_some, Option.bind_some]
  dsimp only
  rw [hp, ht, a2]
  rfl

/-- C78 is false if a call fails in the command itself: it fails, and the daemon runs. -/
theorem C78_parent : ∃ p : ParentRes, ∀ buf ebuf stamp : List UInt8, buf.length = 1024 →
    ∃ seen, startDaemon none false p (fun _ => .ok) buf ebuf stamp = some seen ∧ seen.status = 1 ∧ seen.runs = true := by
  refine ⟨{ close := some { stamp := bs "T ", prio := 3, text := bs "Unable to close write-pipe in parent process", err := some (bs "Interrupted system call") } }, ?_⟩
  intro buf ebuf stamp hb
  obtain ⟨s', o, e, _⟩ := C79_line { file := some (6, false) } buf { stamp := bs "T ", prio := 3, text := bs "Unable to close write-pipe in parent process", err := some (bs "Interrupted system call") } false hb
    (by unfold LogCall.ok; decide)
  unfold startDaemon
  dsimp only
  have e2 := Starter.go_ok none false (fun _ => .ok) buf [] SStage.all {} (fun y _ => rfl)
  rw [List.append_nil] at e2
  rw [e2, Starter.go, Option.bind_some]
  unfold parentEnd parentErr
  dsimp only
  rw [e]
  exact ⟨_, rfl, rfl, rfl⟩

/-- C78: what `nofile` does.  A positive number is the new limit; -1 raises it as far as allowed; 0 leaves it; the hard limit never falls.  The daemon ends (silently, by `C78_late`)
just if the number is larger than the hard limit and it is not privileged. -/
theorem C78_nofile (priv : Bool) (n : Int) (l : NLimit) (hl : l.1 ≤ l.2) :
    (setupNofile priv n l = none ↔ l.2 < n ∧ priv = false) ∧
    ∀ l', setupNofile priv n l = some l' → l'.1 ≤ l'.2 ∧ l.2 ≤ l'.2 ∧ (0 < n → (l'.1 : Int) = n) ∧ (n = 0 → l' = l) ∧ (n < 0 → l' = (l.2, l.2)) := by
  obtain ⟨cur, max⟩ := l
  dsimp only at hl
  unfold setupNofile
  dsimp only
  by_cases g0 : n = 0
  · subst g0
    simp only [Int.lt_irrefl, if_false, ne_eq, not_true_eq_false, reduceCtorEq, false_iff, Option.some.injEq]
    exact ⟨by omega, by rintro l' rfl; exact ⟨hl, Nat.le_refl _, (fun h => absurd h (by decide)), fun _ => rfl, (fun h => absurd h (by decide))⟩⟩
  · rw [if_pos g0]
    by_cases g1 : 0 < n
    · rw [if_pos g1]
      dsimp only
      by_cases g2 : max < n.toNat
      · rw [if_pos g2]
        cases priv with
        | true =>
          rw [if_neg (by rintro ⟨_, h⟩; cases h)]
          refine ⟨by simp, ?_⟩
          intro l' h
          simp only [Option.some.injEq] at h
          subst h
          exact ⟨Nat.le_refl _, by dsimp only; omega, fun _ => by dsimp only; omega, by omega, by omega⟩
        | false =>
          rw [if_pos ⟨by omega, rfl⟩]
          exact ⟨by simp; omega, by simp⟩
      · rw [if_neg g2, if_neg (by omega)]
        refine ⟨by simp; omega, ?_⟩
        intro l' h
        simp only [Option.some.injEq] at h
        subst h
        exact ⟨by dsimp only; omega, by dsimp only; omega, fun _ => by dsimp only; omega, by omega, by omega⟩
    · rw [if_neg g1, if_pos (show n < 0 by omega), if_neg (fun h => absurd h.1 (Nat.lt_irrefl _))]
      refine ⟨by simp; omega, ?_⟩
      intro l' h
      simp only [Option.some.injEq] at h
      subst h
      exact ⟨Nat.le_refl _, Nat.le_refl _, by omega, by omega, fun _ => rfl⟩

/-- A port that is in use, as seen by a user. -/
example : startDaemon none false {} (fun x => if x = .listen then .fail { stamp := bs "T ", prio := 3, text := bs "Unable to bind to port 7890", err := some (bs "Address already in use") } else .ok)
    (List.replicate 1024 7) (List.replicate 1024 7) (bs "T ") = some ⟨1, bs "ERROR:     Unable to bind to port 7890: Address already in use\n", false⟩ := by
  decide +kernel

/-- The same message once the log is a file. -/
example : startDaemon (some (6, true)) false {} (fun x => if x = .chdir then .fail { stamp := bs "T ", prio := 3, text := bs "Unable to change to root directory" } else .ok)
    (List.replicate 1024 7) (List.replicate 1024 7) (bs "T ") = some ⟨1, bs "ERROR:     Unable to change to root directory\n", false⟩ := by
  decide +kernel

/-- The hypotheses of `C78_failed` and `C78_message` are met. -/
example : firstBad (fun x => if x = .listen then .fail { stamp := bs "T ", prio := 3, text := bs "Unable to bind" } else .ok) .listen ∧
    LogCall.short { stamp := bs "T ", prio := 3, text := bs "Unable to bind" } ∧ SStage.listen ∈ SStage.early := by
  refine ⟨⟨[.closeRead, .setsid, .fork, .config, .coredump, .signals, .env, .consoles, .stamps], [.logs, .greet, .chdir, .openNull, .dupIn, .dupOut, .dupErr, .closeNull, .closePipe, .ipmi, .nofile, .objs],
    rfl, by decide, by decide⟩, ?_, by decide⟩
  unfold LogCall.short LogCall.ok
  decide

/-- The hypotheses of `C78_killed` and `C78_late` are met: a daemon without the privilege for its `nofile`. -/
example : firstBad (fun x => if x = .nofile then .fail { stamp := bs "T ", prio := 3, text := bs "Unable to set open file limit to 8192" } else .ok) .nofile ∧ SStage.nofile ∉ SStage.early ∧
    setupNofile false 8192 (1024, 4096) = none ∧ setupNofile false 4096 (1024, 4096) = some (4096, 4096) ∧ setupNofile false (-1) (1024, 4096) = some (4096, 4096) :=
  ⟨⟨[.closeRead, .setsid, .fork, .config, .coredump, .signals, .env, .consoles, .stamps, .listen, .logs, .greet, .chdir, .openNull, .dupIn, .dupOut, .dupErr, .closeNull, .closePipe, .ipmi],
    [.objs], rfl, by decide, by decide⟩, by decide, by decide, by decide, by decide⟩

end Conman
