import Verif.Lemma.Tty
import Verif.Props.Opts

/-
C81: the terminal of the client.  C82: the line of a serial device.
-/
namespace Conman
open Spec

/-- Modes that `get_tty_raw` leaves as they are although they change what is read. -/
def LeftAlone (t : Termios) : Prop := on t.iflag IGNCR = false ∧ on t.iflag INLCR = false ∧ on t.iflag PARMRK = false

instance (t : Termios) : Decidable (LeftAlone t) := by unfold LeftAlone; infer_instance

/-- In raw mode every byte arrives as it is and at once, no byte sends a signal or stops the output, and every byte goes out as it is, whatever the modes were before;
except for terminals that drop or change line ends or mark errors. -/
theorem C81_raw_partial (t : Termios) (h : LeftAlone t) :
    Transparent (ttyRaw t) ∧ plainOut (ttyRaw t) ∧ on (ttyRaw t).lflag ECHO = false ∧ (ttyRaw t).vmin = 1 ∧ (ttyRaw t).vtime = 0 := by
  refine ⟨transparent_of ?_ ?_ ?_ ?_ ?_ ?_ ?_ ?_ ?_, ?_, ?_, rfl, rfl⟩
  · exact on_clear (by decide)
  · exact on_clear (by decide)
  · exact on_clear (by decide)
  · exact (on_keep (by decide)).trans h.1
  · exact (on_keep (by decide)).trans h.2.1
  · exact (on_keep (by decide)).trans h.2.2
  · exact on_clear (by decide)
  · exact on_clear (by decide)
  · exact on_clear (by decide)
  · exact on_clear (by decide)
  · exact on_clear (by decide)

/-- With those modes it is not: carriage returns are lost, newlines changed, bytes of value 255 doubled. -/
theorem C81_not_raw (t : Termios) :
    (on t.iflag IGNCR = true → ∀ x, ttyIn x (ttyRaw t) 0x0D = .dropped) ∧
    (on t.iflag INLCR = true → ∀ x, ttyIn x (ttyRaw t) 0x0A = .bytes [0x0D]) ∧
    (on t.iflag PARMRK = true → ∀ x, ttyIn x (ttyRaw t) 0xFF = .bytes [0xFF, 0xFF]) := by
  have h1 : on (ttyRaw t).iflag ISTRIP = false := on_clear (by decide)
  have h2 : on (ttyRaw t).iflag IXON = false := on_clear (by decide)
  have h3 : on (ttyRaw t).iflag ICRNL = false := on_clear (by decide)
  have h4 : on (ttyRaw t).iflag IGNCR = on t.iflag IGNCR := on_keep (by decide)
  have h5 : on (ttyRaw t).iflag INLCR = on t.iflag INLCR := on_keep (by decide)
  have h6 : on (ttyRaw t).iflag PARMRK = on t.iflag PARMRK := on_keep (by decide)
  have h7 : on (ttyRaw t).lflag ISIG = false := on_clear (by decide)
  have h8 : on (ttyRaw t).lflag ICANON = false := on_clear (by decide)
  have h9 : on (ttyRaw t).lflag IEXTEN = false := on_clear (by decide)
  refine ⟨fun h x => ?_, fun h x => ?_, fun h x => ?_⟩
  all_goals
    unfold ttyIn stripped lineEnd
    simp [h1, h2, h3, h4, h5, h6, h7, h8, h9, h]

/-! ### Sessions -/

/-- Modes of running sessions. -/
def RunModes (P : Termios → Prop) (t : Termios) : Prop := ∃ m, P m ∧ (t = ttyRaw m ∨ t = ttyEcho (ttyRaw m))

theorem ttyEcho_twice (t : Termios) : ttyEcho (ttyEcho t) = t := by
  unfold ttyEcho
  have : t.lflag ^^^ ECHO ^^^ ECHO = t.lflag := by rw [BitVec.xor_assoc, BitVec.xor_self, BitVec.xor_zero]
  simp only [this]

theorem RunModes.echo {P} {t : Termios} (h : RunModes P t) : RunModes P (ttyEcho t) := by
  obtain ⟨m, hm, rfl | rfl⟩ := h
  · exact ⟨m, hm, Or.inr rfl⟩
  · rw [ttyEcho_twice]; exact ⟨m, hm, Or.inl rfl⟩

/-- What holds in a session that started with the modes `t0`. -/
structure SessInv (P : Termios → Prop) (t0 : Termios) (s : TSess) : Prop where
  saved : s.saved = t0
  stopped : s.phase = .stopped → s.tty = t0
  ended : s.phase = .ended → s.tty = t0
  running : s.phase = .running ∨ s.phase = .died → RunModes P s.tty

theorem SessInv.check {P} {t0} {s : TSess} (h : SessInv P t0 s) : SessInv P t0 s.check := by
  unfold TSess.check
  by_cases e : s.cs.done
  · rw [if_pos e]
    refine ⟨h.saved, ?_, ?_, ?_⟩
    · intro g; cases g
    · intro _; exact h.saved
    · rintro (g | g) <;> cases g
  · rw [if_neg e]; exact h

theorem SessInv.withCs {P} {t0} {s : TSess} (h : SessInv P t0 s) (c : CState) : SessInv P t0 { s with cs := c } := ⟨h.saved, h.stopped, h.ended, h.running⟩

theorem SessInv.step {P} {t0} {s : TSess} (h : SessInv P t0 s) (e : TEvent) (hP : ∀ t ok, e = .cont t ok → P t) : SessInv P t0 (s.step e) := by
  cases e with
  | key c =>
    rw [TSess.step]
    by_cases hr : s.phase = .running
    · rw [if_pos hr]
      simp only
      split
      · apply SessInv.check
        refine ⟨h.saved, ?_, ?_, fun _ => (h.running (Or.inl hr)).echo⟩
        · intro g; rw [hr] at g; cases g
        · intro g; rw [hr] at g; cases g
      · split
        · refine ⟨h.saved, fun _ => h.saved, ?_, ?_⟩
          · intro g; cases g
          · rintro (g | g) <;> cases g
        · exact (h.withCs _).check
    · rw [if_neg hr]; exact h
  | keyEof =>
    rw [TSess.step]
    split
    · exact (h.withCs _).check
    · exact h
  | data =>
    rw [TSess.step]
    split
    · exact h.check
    · exact h
  | sockEof =>
    rw [TSess.step]
    split
    · exact (h.withCs _).check
    · exact h
  | term w =>
    rw [TSess.step]
    split
    · cases w
      · exact h.withCs _
      · simp only [if_true]
        exact (h.withCs _).check
    · exact h
  | fail =>
    rw [TSess.step]
    split
    · rename_i hr
      refine ⟨h.saved, ?_, ?_, fun _ => h.running (Or.inl hr)⟩
      · intro g; cases g
      · intro g; cases g
    · exact h
  | cont t ok =>
    rw [TSess.step]
    split
    · apply SessInv.check
      refine ⟨h.saved, ?_, ?_, fun _ => ⟨t, hP t ok rfl, Or.inl rfl⟩⟩
      · intro g; cases g
      · intro g; cases g
    · exact h

theorem SessInv.run {P} {t0} (es : List TEvent) : ∀ {s : TSess}, SessInv P t0 s → (∀ t ok, TEvent.cont t ok ∈ es → P t) → SessInv P t0 (s.run es) := by
  induction es with
  | nil => intro s h _; exact h
  | cons e es ih =>
    intro s h hP
    exact ih (h.step e fun t ok g => hP t ok (by rw [g]; simp)) fun t ok g => hP t ok (by simp [g])

theorem sessInv_start {P : Termios → Prop} (cs : CState) (t : Termios) (h : P t) : SessInv P t (TSess.start cs t) :=
  ⟨rfl, (fun g => by cases g), (fun g => by cases g), fun _ => ⟨t, h, Or.inl rfl⟩⟩

/-- Whatever happens in a session: when the client has ended (unless a call failed), and while it is stopped, the terminal has the modes it had when the client was started. -/
theorem C81_restored_partial (cs : CState) (t : Termios) (es : List TEvent) :
    let s := (TSess.start cs t).run es
    (s.phase = .ended ∨ s.phase = .stopped) → s.tty = t := by
  intro s h
  have inv := SessInv.run (P := fun _ => True) es (sessInv_start cs t trivial) (fun _ _ _ => trivial)
  rcases h with h | h
  · exact inv.ended h
  · exact inv.stopped h

/-- Whatever happens in a session: while the client runs its terminal passes on every byte, also after it was stopped and other programs have changed the modes. -/
theorem C81_running_partial (cs : CState) (t : Termios) (es : List TEvent) (h : LeftAlone t) (hc : ∀ t ok, TEvent.cont t ok ∈ es → LeftAlone t) :
    let s := (TSess.start cs t).run es
    s.phase = .running → Transparent s.tty ∧ plainOut s.tty := by
  intro s hs
  have inv := SessInv.run (P := LeftAlone) es (sessInv_start cs t h) hc
  obtain ⟨m, hm, e | e⟩ := inv.running (Or.inl hs)
  · show Transparent ((TSess.start cs t).run es).tty ∧ plainOut ((TSess.start cs t).run es).tty
    rw [e]
    exact ⟨(C81_raw_partial m hm).1, (C81_raw_partial m hm).2.1⟩
  · show Transparent ((TSess.start cs t).run es).tty ∧ plainOut ((TSess.start cs t).run es).tty
    rw [e]
    refine ⟨transparent_of ?_ ?_ ?_ ?_ ?_ ?_ ?_ ?_ ?_, (C81_raw_partial m hm).2.1⟩
    · exact on_clear (by decide)
    · exact on_clear (by decide)
    · exact on_clear (by decide)
    · exact (on_keep (by decide)).trans hm.1
    · exact (on_keep (by decide)).trans hm.2.1
    · exact (on_keep (by decide)).trans hm.2.2
    · exact (on_xor (by decide)).trans (on_clear (by decide))
    · exact (on_xor (by decide)).trans (on_clear (by decide))
    · exact (on_xor (by decide)).trans (on_clear (by decide))

/-- The client ends when it should: with the end of its input, of the connection, or a signal while it waits. -/
theorem C81_ends (s : TSess) (h : s.phase = .running) (e : TEvent) (he : e = .keyEof ∨ e = .sockEof ∨ e = .term true) : (s.step e).phase = .ended := by
  rcases he with rfl | rfl | rfl
  all_goals
    rw [TSess.step, if_pos h]
    rfl

/-- A call that fails ends the client with the terminal in raw mode: for every terminal that echoes, it does not any more. -/
theorem C81_left_raw (cs : CState) (t : Termios) (h : on t.lflag ECHO = true) :
    let s := (TSess.start cs t).run [.fail]
    s.phase = .died ∧ s.tty ≠ t ∧ on s.tty.lflag ECHO = false ∧ on s.tty.lflag ICANON = false := by
  refine ⟨rfl, ?_, on_clear (by decide), on_clear (by decide)⟩
  intro e
  have e' : ttyRaw t = t := e
  have : on (ttyRaw t).lflag ECHO = false := on_clear (by decide)
  rw [e', h] at this
  cases this

/-- Modes that were changed while the client was stopped are lost when it ends. -/
theorem C81_changes_lost (cs : CState) (t t' : Termios) (h : cs.done = false) (h1 : cs.inEsc = true) (h2 : cs.wrClosed = false) (hne : t' ≠ t) :
    let s := (TSess.start cs t).run [.key 0x5A, .cont t' true, .sockEof]
    s.phase = .ended ∧ s.tty = t ∧ s.tty ≠ t' := by
  have : ((TSess.start cs t).run [.key 0x5A, .cont t' true, .sockEof]).phase = .ended := by
    have e1 : (TSess.start cs t).step (.key 0x5A) = { TSess.start cs t with cs := (cs.key 0x5A).1, tty := t, phase := .stopped } := by
      rw [TSess.step, if_pos (show (TSess.start cs t).phase = .running from rfl)]
      simp only
      rw [if_neg (by simp), if_pos ⟨h1, trivial, by rw [show (TSess.start cs t).cs = cs from rfl, h2]; decide, by rw [show (TSess.start cs t).cs = cs from rfl, h]; decide⟩]
      rfl
    have e2 : (cs.key 0x5A).1.done = false := by
      unfold CState.key CState.escape CState.send
      simp [h, h1, h2]
    show ((((TSess.start cs t).step (.key 0x5A)).step (.cont t' true)).step .sockEof).phase = .ended
    apply C81_ends
    · rw [e1, TSess.step, if_pos rfl]
      unfold TSess.check
      rw [if_neg (by simp [e2])]
    · exact Or.inr (Or.inl rfl)
  refine ⟨this, C81_restored_partial cs t _ (Or.inl this), ?_⟩
  rw [C81_restored_partial cs t _ (Or.inl this)]
  exact fun e => hne e.symm

/-! ### Echo -/

theorem key_echo (s : CState) (c : UInt8) : (s.key c).1.echo = if s.inEsc ∧ c = 0x45 ∧ s.cmd = .connect ∧ ¬ s.done then !s.echo else s.echo := by
  have send : ∀ (s : CState) o, (s.send o).1.echo = s.echo := by
    intro s o; unfold CState.send; split <;> rfl
  have sendEsc : ∀ (s : CState) o, (s.sendEsc o).1.echo = s.echo := by
    intro s o; unfold CState.sendEsc; exact send _ _
  have put : ∀ (s : CState) o, (s.put o).1.echo = s.echo := by
    intro s o; unfold CState.put; split
    · exact send _ _
    · rfl
  have esc : ∀ (q : CState) (c : UInt8) r, q.escape c = some r → r.1.echo = if c = 0x45 ∧ q.cmd = .connect then !q.echo else q.echo := by
    intro q c r hx
    unfold CState.escape at hx
    by_cases h42 : c = 0x42
    · rw [if_pos h42] at hx
      rw [← Option.some.inj hx]
      have hne : ¬ (c = 0x45 ∧ q.cmd = .connect) := fun g => absurd (g.1.symm.trans h42) (by decide)
      rw [if_neg hne]
      first | rfl | exact send _ _ | exact sendEsc _ _ | (split <;> first | rfl | exact sendEsc _ _)
    rw [if_neg h42] at hx
    by_cases h2e : c = 0x2E
    · rw [if_pos h2e] at hx
      rw [← Option.some.inj hx]
      have hne : ¬ (c = 0x45 ∧ q.cmd = .connect) := fun g => absurd (g.1.symm.trans h2e) (by decide)
      rw [if_neg hne]
    rw [if_neg h2e] at hx
    by_cases h44 : c = 0x44
    · rw [if_pos h44] at hx
      rw [← Option.some.inj hx]
      have hne : ¬ (c = 0x45 ∧ q.cmd = .connect) := fun g => absurd (g.1.symm.trans h44) (by decide)
      rw [if_neg hne]
      first | rfl | exact send _ _ | exact sendEsc _ _ | (split <;> first | rfl | exact sendEsc _ _)
    rw [if_neg h44] at hx
    by_cases h45 : c = 0x45
    · rw [if_pos h45] at hx
      rw [← Option.some.inj hx]
      by_cases hc : q.cmd = .connect
      · have hp : c = 0x45 ∧ q.cmd = .connect := ⟨h45, hc⟩
        rw [if_pos hc, if_pos hp]
      · have hn : ¬ (c = 0x45 ∧ q.cmd = .connect) := fun g => hc g.2
        rw [if_neg hc, if_neg hn]
    rw [if_neg h45] at hx
    by_cases h46 : c = 0x46
    · rw [if_pos h46] at hx
      rw [← Option.some.inj hx]
      have hne : ¬ (c = 0x45 ∧ q.cmd = .connect) := fun g => absurd (g.1.symm.trans h46) (by decide)
      rw [if_neg hne]
      first | rfl | exact send _ _ | exact sendEsc _ _ | (split <;> first | rfl | exact sendEsc _ _)
    rw [if_neg h46] at hx
    by_cases h3f : c = 0x3F
    · rw [if_pos h3f] at hx
      rw [← Option.some.inj hx]
      have hne : ¬ (c = 0x45 ∧ q.cmd = .connect) := fun g => absurd (g.1.symm.trans h3f) (by decide)
      rw [if_neg hne]
    rw [if_neg h3f] at hx
    by_cases h49 : c = 0x49
    · rw [if_pos h49] at hx
      rw [← Option.some.inj hx]
      have hne : ¬ (c = 0x45 ∧ q.cmd = .connect) := fun g => absurd (g.1.symm.trans h49) (by decide)
      rw [if_neg hne]
    rw [if_neg h49] at hx
    by_cases h4a : c = 0x4A
    · rw [if_pos h4a] at hx
      rw [← Option.some.inj hx]
      have hne : ¬ (c = 0x45 ∧ q.cmd = .connect) := fun g => absurd (g.1.symm.trans h4a) (by decide)
      rw [if_neg hne]
      first | rfl | exact send _ _ | exact sendEsc _ _ | (split <;> first | rfl | exact sendEsc _ _)
    rw [if_neg h4a] at hx
    by_cases h4c : c = 0x4C
    · rw [if_pos h4c] at hx
      rw [← Option.some.inj hx]
      have hne : ¬ (c = 0x45 ∧ q.cmd = .connect) := fun g => absurd (g.1.symm.trans h4c) (by decide)
      rw [if_neg hne]
      first | rfl | exact send _ _ | exact sendEsc _ _ | (split <;> first | rfl | exact sendEsc _ _)
    rw [if_neg h4c] at hx
    by_cases h4d : c = 0x4D
    · rw [if_pos h4d] at hx
      rw [← Option.some.inj hx]
      have hne : ¬ (c = 0x45 ∧ q.cmd = .connect) := fun g => absurd (g.1.symm.trans h4d) (by decide)
      rw [if_neg hne]
      first | rfl | exact send _ _ | exact sendEsc _ _ | (split <;> first | rfl | exact sendEsc _ _)
    rw [if_neg h4d] at hx
    by_cases h51 : c = 0x51
    · rw [if_pos h51] at hx
      rw [← Option.some.inj hx]
      have hne : ¬ (c = 0x45 ∧ q.cmd = .connect) := fun g => absurd (g.1.symm.trans h51) (by decide)
      rw [if_neg hne]
      first | rfl | exact send _ _ | exact sendEsc _ _ | (split <;> first | rfl | exact sendEsc _ _)
    rw [if_neg h51] at hx
    by_cases h52 : c = 0x52
    · rw [if_pos h52] at hx
      rw [← Option.some.inj hx]
      have hne : ¬ (c = 0x45 ∧ q.cmd = .connect) := fun g => absurd (g.1.symm.trans h52) (by decide)
      rw [if_neg hne]
      first | rfl | exact send _ _ | exact sendEsc _ _ | (split <;> first | rfl | exact sendEsc _ _)
    rw [if_neg h52] at hx
    by_cases h5a : c = 0x5A
    · rw [if_pos h5a] at hx
      rw [← Option.some.inj hx]
      have hne : ¬ (c = 0x45 ∧ q.cmd = .connect) := fun g => absurd (g.1.symm.trans h5a) (by decide)
      rw [if_neg hne]
      first | rfl | exact send _ _ | exact sendEsc _ _ | (split <;> first | rfl | exact sendEsc _ _)
    rw [if_neg h5a] at hx
    cases hx
  have esc0 : ∀ (q : CState) (c : UInt8), q.escape c = none → c ≠ 0x45 := by
    intro q c h e
    subst e
    unfold CState.escape at h
    simp at h
  unfold CState.key
  by_cases hd : s.done
  · rw [if_pos hd, if_neg (fun g => g.2.2.2 hd)]
  · rw [if_neg hd]
    simp only
    by_cases h1 : ¬ s.inEsc ∧ (c = s.esc ∧ s.esc < 0x80)
    · rw [if_pos h1, if_neg (fun g => h1.1 g.1)]
    · rw [if_neg h1]
      by_cases h2 : s.inEsc
      · rw [if_pos h2]
        have hcond : (s.inEsc ∧ c = 0x45 ∧ s.cmd = .connect ∧ ¬ s.done) ↔ (c = 0x45 ∧ s.cmd = .connect) := ⟨fun g => ⟨g.2.1, g.2.2.1⟩, fun g => ⟨h2, g.1, g.2, hd⟩⟩
        simp only [hcond]
        generalize hq : ({ s with inEsc := false } : CState) = q
        have hqe : q.echo = s.echo := by rw [← hq]
        have hqc : q.cmd = s.cmd := by rw [← hq]
        rw [← hqe, ← hqc]
        cases hx : q.escape c with
        | none =>
          rw [if_neg (c := c = 0x45 ∧ q.cmd = .connect) (fun g => esc0 q c hx g.1)]
          simp only
          split
          · exact put _ _
          · exact put _ _
        | some r => exact esc q c r hx
      · rw [if_neg h2, if_neg (fun g => h2 g.1)]
        exact put _ _

/-- The terminal echoes exactly if the client believes so, as long as the client has not been stopped. -/
theorem C81_echo_partial (cs : CState) (t : Termios) (h0 : cs.echo = false) (es : List TEvent) (hc : ∀ t ok, TEvent.cont t ok ∉ es) :
    let s := (TSess.start cs t).run es
    s.phase = .running → on s.tty.lflag ECHO = s.cs.echo := by
  have gen : ∀ (es : List TEvent) (s : TSess), (∀ t ok, TEvent.cont t ok ∉ es) → (s.phase = .running → on s.tty.lflag ECHO = s.cs.echo) →
      (s.run es).phase = .running → on (s.run es).tty.lflag ECHO = (s.run es).cs.echo := by
    have chk : ∀ s : TSess, (s.phase = .running → on s.tty.lflag ECHO = s.cs.echo) → (s.check.phase = .running → on s.check.tty.lflag ECHO = s.check.cs.echo) := by
      intro s hs
      unfold TSess.check
      split
      · intro g; cases g
      · exact hs
    intro es
    induction es with
    | nil => intro s _ h; exact h
    | cons e es ih =>
      intro s hes h
      refine ih (s.step e) (fun t ok g => hes t ok (by simp [g])) ?_
      cases e with
      | key c =>
        rw [TSess.step]
        by_cases hr : s.phase = .running
        · rw [if_pos hr]
          simp only
          split
          · rename_i hx
            apply chk
            intro _
            show on (s.tty.lflag ^^^ ECHO) ECHO = (s.cs.key c).1.echo
            rw [on_toggle_echo, key_echo, if_pos hx, h hr]
          · rename_i hx
            split
            · intro g; cases g
            · apply chk
              intro _
              show on s.tty.lflag ECHO = (s.cs.key c).1.echo
              rw [key_echo, if_neg hx, h hr]
        · rw [if_neg hr]; exact h
      | keyEof => rw [TSess.step]; split; exact chk _ (fun g => h g); exact h
      | data => rw [TSess.step]; split; exact chk _ h; exact h
      | sockEof => rw [TSess.step]; split; exact chk _ (fun g => h g); exact h
      | term w => rw [TSess.step]; split; (cases w; exact fun g => h g; simp only [if_true]; exact chk _ (fun g => h g)); exact h
      | fail => rw [TSess.step]; split; (intro g; cases g); exact h
      | cont t ok => exact absurd (List.mem_cons_self) (hes t ok)
  refine gen es _ hc ?_
  intro _
  show on (ttyRaw t).lflag ECHO = cs.echo
  rw [h0]
  exact on_clear (by decide)

/-- After it was stopped and goes on it may not: the terminal does not echo although the client believes it does, and the next `&E` switches echo on when it should
switch it off. -/
theorem C81_echo_after_stop (t t' : Termios) :
    let s := (TSess.start { esc := 0x26 } t).run [.key 0x26, .key 0x45, .key 0x26, .key 0x5A, .cont t' true]
    s.phase = .running ∧ s.cs.echo = true ∧ on s.tty.lflag ECHO = false ∧
    (let s := s.run [.key 0x26, .key 0x45]; s.cs.echo = false ∧ on s.tty.lflag ECHO = true) := by
  have h : on (ttyRaw t').lflag ECHO = false := on_clear (by decide)
  have e : (TSess.start { esc := 0x26 } t).run [.key 0x26, .key 0x45, .key 0x26, .key 0x5A, .cont t' true] =
      { cs := { esc := 0x26, echo := true }, tty := ttyRaw t', saved := t } := by
    simp [TSess.run, TSess.step, TSess.start, TSess.check, CState.key, CState.escape, CState.send]
  have e2 : ({ cs := { esc := 0x26, echo := true }, tty := ttyRaw t', saved := t } : TSess).run [.key 0x26, .key 0x45] =
      { cs := { esc := 0x26 }, tty := ttyEcho (ttyRaw t'), saved := t } := by
    simp [TSess.run, TSess.step, TSess.check, CState.key, CState.escape]
  intro s
  have es : s = { cs := { esc := 0x26, echo := true }, tty := ttyRaw t', saved := t } := e
  rw [es]
  refine ⟨rfl, rfl, h, ?_⟩
  intro s2
  have es2 : s2 = { cs := { esc := 0x26 }, tty := ttyEcho (ttyRaw t'), saved := t } := e2
  rw [es2]
  refine ⟨rfl, ?_⟩
  show on ((ttyRaw t').lflag ^^^ ECHO) ECHO = true
  rw [on_toggle_echo, h]
  rfl

/-! ### Serial lines -/

theorem serSize_keep (c f : TWord) (d : Int) (h : f &&& CSIZE = 0#32) : serSize c d &&& f = c &&& f := by
  have h5 : f &&& CS5 = 0#32 := by show f &&& 0#32 = 0#32; simp
  have sub : ∀ k : TWord, k &&& CSIZE = k → f &&& k = 0#32 := by
    intro k hk
    rw [← hk, BitVec.and_comm k, ← BitVec.and_assoc, h]; simp
  unfold serSize
  split
  · rw [or_keep h5, and_keep h]
  · split
    · rw [or_keep (sub _ (by decide)), and_keep h]
    · split
      · rw [or_keep (sub _ (by decide)), and_keep h]
      · rw [or_keep (sub _ (by decide)), and_keep h]

theorem serSize_bits (c : TWord) (d : Int) : serSize c d &&& CSIZE = if d = 5 then CS5 else if d = 6 then CS6 else if d = 7 then CS7 else CS8 := by
  have w1 : ∀ k : TWord, k &&& CSIZE = k → ((c &&& ~~~CSIZE) ||| k) &&& CSIZE = k := by
    intro k hk
    ext i hi
    have := congrArg (fun v : TWord => v[i]) hk
    simp only [BitVec.getElem_and, BitVec.getElem_or, BitVec.getElem_not] at this ⊢
    revert this
    cases c[i] <;> cases k[i] <;> cases (CSIZE)[i] <;> simp
  unfold serSize
  split
  · exact w1 _ (by decide)
  · split
    · exact w1 _ (by decide)
    · split
      · exact w1 _ (by decide)
      · exact w1 _ (by decide)

theorem serParity_keep (c f : TWord) (p : Int) (h : f &&& (PARENB ||| PARODD) = 0#32) (h1 : f &&& PARENB = 0#32) (h2 : f &&& PARODD = 0#32) :
    serParity c p &&& f = c &&& f := by
  unfold serParity
  split
  · rw [or_keep h]
  · split
    · rw [and_keep h2, or_keep h1]
    · rw [and_keep h]

theorem serStop_keep (c f : TWord) (p : Int) (h : f &&& CSTOPB = 0#32) : serStop c p &&& f = c &&& f := by
  unfold serStop
  split
  · rw [or_keep h]
  · rw [and_keep h]

/-- The line of a serial device is set to what the options say, whatever it was set to before. -/
theorem C82_line (t : Termios) (o : SerOpt) (hd : 5 ≤ o.databits ∧ o.databits ≤ 8) (hp : 0 ≤ o.parity ∧ o.parity ≤ 2) (hs : 1 ≤ o.stopbits ∧ o.stopbits ≤ 2) :
    let u := setSerial (ttyRaw t) o
    (dataBits u : Int) = o.databits ∧ (parityOf u : Int) = o.parity ∧ (stopBits u : Int) = o.stopbits ∧ u.ispeed = o.bps ∧ u.ospeed = o.bps ∧
    on u.cflag CLOCAL = true ∧ on u.cflag CREAD = on t.cflag CREAD := by
  intro u
  refine ⟨?_, ?_, ?_, rfl, rfl, ?_, ?_⟩
  · have hb : u.cflag &&& CSIZE = if o.databits = 5 then CS5 else if o.databits = 6 then CS6 else if o.databits = 7 then CS7 else CS8 := by
      show serStop (serParity (serSize (ttyRaw t).cflag o.databits) o.parity) o.stopbits &&& CSIZE = _
      rw [serStop_keep _ _ _ (by decide), serParity_keep _ _ _ (by decide) (by decide) (by decide), serSize_bits]
    unfold dataBits
    rw [hb]
    have hd' : o.databits = 5 ∨ o.databits = 6 ∨ o.databits = 7 ∨ o.databits = 8 := by omega
    rcases hd' with e | e | e | e <;> rw [e] <;> decide
  · have hb : ∀ f : TWord, f &&& CSTOPB = 0#32 → on u.cflag f = on (serParity (serSize (ttyRaw t).cflag o.databits) o.parity) f := by
      intro f hf
      unfold on
      rw [show u.cflag = serStop (serParity (serSize (ttyRaw t).cflag o.databits) o.parity) o.stopbits from rfl, serStop_keep _ _ _ hf]
    unfold parityOf
    rw [hb _ (by decide), hb _ (by decide)]
    generalize serSize (ttyRaw t).cflag o.databits = q
    have hp' : o.parity = 0 ∨ o.parity = 1 ∨ o.parity = 2 := by omega
    rcases hp' with e | e | e
    · rw [e, show serParity q 0 = q &&& ~~~(PARENB ||| PARODD) from rfl, on_clear (by decide)]; rfl
    · rw [e, show serParity q 1 = q ||| (PARENB ||| PARODD) from rfl, on_set (f := PARENB) (by decide) (by decide), on_set (f := PARODD) (by decide) (by decide)]; rfl
    · rw [e, show serParity q 2 = (q ||| PARENB) &&& ~~~PARODD from rfl, on_keep (f := PARENB) (by decide), on_set (f := PARENB) (by decide) (by decide), on_clear (f := PARODD) (by decide)]; rfl
  · have hs' : o.stopbits = 1 ∨ o.stopbits = 2 := by omega
    unfold stopBits
    rw [show u.cflag = serStop (serParity (serSize (ttyRaw t).cflag o.databits) o.parity) o.stopbits from rfl]
    generalize serParity (serSize (ttyRaw t).cflag o.databits) o.parity = q
    rcases hs' with e | e
    · rw [e, show serStop q 1 = q &&& ~~~CSTOPB from rfl, on_clear (by decide)]; rfl
    · rw [e, show serStop q 2 = q ||| CSTOPB from rfl, on_set (by decide) (by decide)]; rfl
  · have : on u.cflag CLOCAL = on (ttyRaw t).cflag CLOCAL := by
      unfold on
      rw [show u.cflag = serStop (serParity (serSize (ttyRaw t).cflag o.databits) o.parity) o.stopbits from rfl, serStop_keep _ _ _ (by decide),
        serParity_keep _ _ _ (by decide) (by decide) (by decide), serSize_keep _ _ _ (by decide)]
    rw [this]
    exact on_set (by decide) (by decide)
  · have : on u.cflag CREAD = on (ttyRaw t).cflag CREAD := by
      unfold on
      rw [show u.cflag = serStop (serParity (serSize (ttyRaw t).cflag o.databits) o.parity) o.stopbits from rfl, serStop_keep _ _ _ (by decide),
        serParity_keep _ _ _ (by decide) (by decide) (by decide), serSize_keep _ _ _ (by decide)]
    rw [this]
    show on (((((t.cflag &&& ~~~CSIZE) ||| CS8) &&& ~~~PARENB) ||| CLOCAL)) CREAD = _
    rw [on_or (by decide), on_keep (by decide), on_or (by decide), on_keep (by decide)]

/-- Every byte passes a serial line as it is, in both directions, whatever its modes were before; except for the modes that are left alone. -/
theorem C82_clean_partial (t : Termios) (o : SerOpt) (h : LeftAlone t) : Transparent (setSerial (ttyRaw t) o) ∧ plainOut (setSerial (ttyRaw t) o) ∧
    on (setSerial (ttyRaw t) o).lflag ECHO = false :=
  ⟨fun x c => (C81_raw_partial t h).1 x c, (C81_raw_partial t h).2.1, (C81_raw_partial t h).2.2.1⟩

/-- With them console output is lost or changed. -/
theorem C82_not_clean (t : Termios) (o : SerOpt) :
    (on t.iflag IGNCR = true → ∀ x, ttyIn x (setSerial (ttyRaw t) o) 0x0D = .dropped) ∧
    (on t.iflag INLCR = true → ∀ x, ttyIn x (setSerial (ttyRaw t) o) 0x0A = .bytes [0x0D]) ∧
    (on t.iflag PARMRK = true → ∀ x, ttyIn x (setSerial (ttyRaw t) o) 0xFF = .bytes [0xFF, 0xFF]) := C81_not_raw t

/-- A device is closed with the modes it had when it was first opened, however often it was opened again, with or without success. -/
theorem C82_restored (o : SerOpt) (t : Termios) (es : List SerEvent) :
    let d := es.foldl (SerDev.step o) { tty := t }
    (d.isOpen = false → d.tty = t) ∧ (d.isOpen = true → d.tty = setSerial (ttyRaw t) o) := by
  have gen : ∀ (es : List SerEvent) (d : SerDev), ((d.isOpen = false → d.tty = t) ∧ (d.isOpen = true → d.saved = some t ∧ d.tty = setSerial (ttyRaw t) o)) →
      ((es.foldl (SerDev.step o) d).isOpen = false → (es.foldl (SerDev.step o) d).tty = t) ∧
      ((es.foldl (SerDev.step o) d).isOpen = true → (es.foldl (SerDev.step o) d).saved = some t ∧ (es.foldl (SerDev.step o) d).tty = setSerial (ttyRaw t) o) := by
    intro es
    induction es with
    | nil => intro d h; exact h
    | cons e es ih =>
      intro d h
      refine ih (d.step o e) ?_
      cases e with
      | opened ok =>
        have ht : (if d.isOpen then d.saved.getD d.tty else d.tty) = t := by
          cases ho : d.isOpen with
          | true => rw [if_pos rfl, (h.2 ho).1]; rfl
          | false => rw [if_neg (by decide)]; exact h.1 ho
        rw [SerDev.step]
        simp only [ht]
        cases ok with
        | true => exact ⟨(fun g => by cases g), fun _ => ⟨rfl, rfl⟩⟩
        | false => exact ⟨fun _ => rfl, (fun g => by cases g)⟩
      | destroyed =>
        rw [SerDev.step]
        cases ho : d.isOpen with
        | true =>
          rw [if_pos rfl]
          refine ⟨fun _ => ?_, (fun g => by cases g)⟩
          show d.saved.getD d.tty = t
          rw [(h.2 ho).1]; rfl
        | false => rw [if_neg (by decide)]; exact h
  have := gen es { tty := t } ⟨fun _ => rfl, (fun g => by cases g)⟩
  exact ⟨this.1, fun g => (this.2 g).2⟩

/-- From the text of the configuration to the line: options that are accepted are what the line is set to. -/
theorem C82_configured (o o' : SerOpt) (s : Option (List UInt8)) (t : Termios) (hv : Spec.SerOpt.Valid o) (h : parseSerOpts o s = some (o', 0)) :
    let u := setSerial (ttyRaw t) o'
    (dataBits u : Int) = o'.databits ∧ (parityOf u : Int) = o'.parity ∧ (stopBits u : Int) = o'.stopbits ∧ u.ispeed = o'.bps ∧ u.ospeed = o'.bps := by
  have hv' : Spec.SerOpt.Valid o' := by
    rcases C44_serial_all_or_none o s h with ⟨g, _⟩ | ⟨_, g⟩
    · cases g
    · exact g hv
  have := C82_line t o' ⟨hv'.2.1, hv'.2.2.1⟩ ⟨hv'.2.2.2.1, hv'.2.2.2.2.1⟩ hv'.2.2.2.2.2
  exact ⟨this.1, this.2.1, this.2.2.1, this.2.2.2.1, this.2.2.2.2.1⟩

/-! Cases that meet the hypotheses. -/

/-- A terminal as set up by a shell. -/
def exTerm : Termios := { iflag := 0x500#32, oflag := 0x5#32, cflag := 0xBF#32, lflag := 0x8A3B#32, vmin := 1, vtime := 0, cc := [], ispeed := 38400, ospeed := 38400 }

example : LeftAlone exTerm ∧ on exTerm.lflag ECHO = true := by decide

example : (ttyRaw exTerm).iflag = 0#32 ∧ (ttyRaw exTerm).lflag = 0x0830#32 ∧ (ttyRaw exTerm).cflag = 0x8BF#32 := by decide

example : ((TSess.start { esc := 0x26 } exTerm).run [.key 0x61, .key 0x26, .key 0x45, .data, .key 0x26, .key 0x5A, .cont exTerm true, .key 0x26, .key 0x2E, .sockEof]).phase = .ended ∧
    ((TSess.start { esc := 0x26 } exTerm).run [.key 0x61, .key 0x26, .key 0x5A]).phase = .stopped ∧
    ((TSess.start { esc := 0x26 } exTerm).run [.key 0x61, .key 0x26, .key 0x5A, .cont exTerm true]).phase = .running := by decide +kernel

example : ttyIn ⟨fun _ => false, fun c => c = 3⟩ exTerm 3 = .signal ∧ ttyIn ⟨fun _ => false, fun c => c = 3⟩ (ttyRaw exTerm) 3 = .bytes [3] ∧
    ttyIn ⟨fun _ => false, fun _ => false⟩ exTerm 0x0D = .line 0x0A := by decide +kernel

example : let u := setSerial (ttyRaw exTerm) { bps := 9600, databits := 7, parity := 2, stopbits := 2 }
    dataBits u = 7 ∧ parityOf u = 2 ∧ stopBits u = 2 ∧ u.ospeed = 9600 := by decide +kernel

example : ([SerEvent.opened true, .opened true, .opened false, .opened true, .destroyed].foldl (SerDev.step { bps := 9600, databits := 8, parity := 0, stopbits := 1 }) { tty := exTerm }).tty = exTerm := by
  decide +kernel

end Conman
