import Verif.Lemma.LogFiles

/-
C88.  Files of logs: what is in them, over openings, renaming, SIGHUP and `-z`.
-/
namespace Conman
open Spec

variable {fs : LDir} {held lock : Nat → Bool} {zero : Bool}

/-- Files at the start of examples: number 0 is `a`, with data; number 1 is `d`. -/
def demoDir : LDir :=
  { ino := fun x => if x = bs "a" then some 0 else if x = bs "d" then some 1 else none, data := fun i => if i = 0 then bs "old\n" else if i = 1 then bs "D\n" else [], next := 2 }

theorem demoDir_ok : demoDir.Ok := by
  refine ⟨fun nm i h => ?_, fun i h => ?_⟩
  · show i < 2
    unfold demoDir at h
    dsimp only at h
    split at h
    · cases h; decide
    · split at h
      · cases h; decide
      · cases h
  · have h : 2 ≤ i := h
    unfold demoDir
    dsimp only
    rw [if_neg (by omega), if_neg (by omega)]

/-- An opening by the name `n`. -/
def openAs (n : String) : LogOpen := { name := some (bs n), msg := bs "<opened>\n" }

/-- **C88 (contents).**  Without `-z`, a file holds what it held at the start and, behind it, everything that was written to it, by whomever, in this order; whatever is renamed,
opened again, or fails in between. -/
theorem C88_contents (hf : fs.Ok) (h : List FEv) (i : Nat) :
    ((LogSys.init fs held lock false).run h).fs.data i = fs.data i ++ wroteTo i ((LogSys.init fs held lock false).run h).trace := by
  induction h using snocInd with
  | nil => exact (List.append_nil _).symm
  | snoc h e ih =>
    have inv := (LogInv.init hf held lock false).run h
    rw [LogSys.run_snoc]
    obtain ⟨t, _, ht, hd⟩ := step_data inv e
    rw [ht, wroteTo_append, ← List.append_assoc, ← ih]
    rcases hd i with hd | ⟨_, _, _, hd | hd⟩
    · exact hd
    · obtain ⟨l, o, nm, _, _, q, _⟩ := hd
      have := (run_flags fs held lock false h l).2.2.2.2.2.1 q
      cases this
    · obtain ⟨o, nm, _, _, _, q, _⟩ := hd
      rw [(run_flags fs held lock false h 0).1] at q
      cases q

/-- **C88 (only the first opening empties).**  After the history `a`, the history `b` only adds to files, also with `-z`, if every log that `b` opens was opened before, or the attempt
was made. -/
theorem C88_grows (hf : fs.Ok) (a b : List FEv) (i : Nat)
    (hl : ∀ l o, .openLog l o ∈ b → o.name ≠ none → TriedLog l a) (hd : ∀ o, .openDaemon o ∈ b → TriedDaemon a) :
    ∃ t, ((LogSys.init fs held lock zero).run (a ++ b)).trace = ((LogSys.init fs held lock zero).run a).trace ++ t ∧
      ((LogSys.init fs held lock zero).run (a ++ b)).fs.data i = ((LogSys.init fs held lock zero).run a).fs.data i ++ wroteTo i t := by
  induction b using snocInd with
  | nil => exact ⟨[], by rw [List.append_nil, List.append_nil], by rw [List.append_nil]; exact (List.append_nil _).symm⟩
  | snoc b e ih =>
    obtain ⟨t, t1, t2⟩ := ih (fun l o q => hl l o (List.mem_append_left _ q)) (fun o q => hd o (List.mem_append_left _ q))
    have inv := (LogInv.init hf held lock zero).run (a ++ b)
    rw [← List.append_assoc, LogSys.run_snoc]
    obtain ⟨t', _, ht, hd'⟩ := step_data inv e
    refine ⟨t ++ t', by rw [ht, t1, List.append_assoc], ?_⟩
    rw [wroteTo_append, ← List.append_assoc, ← t2]
    rcases hd' i with g | ⟨_, _, ha, g | g⟩
    · exact g
    · obtain ⟨l, o, nm, q1, q2, q3, _⟩ := g
      obtain ⟨o', q4, q5⟩ := hl l o (by rw [q1]; simp) (by rw [q2]; simp)
      rw [(run_flags fs held lock zero (a ++ b) l).2.2.2.2.1 ha ⟨o', List.mem_append_left _ q4, q5⟩] at q3
      cases q3
    · obtain ⟨o, nm, q1, _, q3, _, _⟩ := g
      obtain ⟨o', q4⟩ := hd o (by rw [q1]; simp)
      rw [(run_flags fs held lock zero (a ++ b) 0).2.2.2.2.2.2.2 ha ⟨o', List.mem_append_left _ q4⟩] at q3
      cases q3

/-- **C88 (SIGHUP keeps).**  A daemon that has started with logs 0 to n-1 loses nothing of any file when it gets SIGHUP, whatever has happened since: also with `-z`, which counts only at the
start. -/
theorem C88_hup_keeps (hf : fs.Ok) (n : Nat) (o o' : Nat → LogOpen) (dm dm' : LogOpen) (ho : ∀ l, (o l).name ≠ none) (h : List FEv) (i : Nat) :
    ((LogSys.init fs held lock zero).run (startEvs n o dm ++ h ++ hupEvs n o' dm')).fs.data i = ((LogSys.init fs held lock zero).run (startEvs n o dm ++ h)).fs.data i := by
  obtain ⟨t, t1, t2⟩ := C88_grows (held := held) (lock := lock) (zero := zero) hf (startEvs n o dm ++ h) (hupEvs n o' dm') i
    (fun l q hq _ => by
      unfold hupEvs at hq
      rcases List.mem_append.mp hq with hq | hq
      · obtain ⟨k, hk, e⟩ := List.mem_map.mp hq
        injection e with e1 _
        subst e1
        exact ⟨o k, List.mem_append_left _ (List.mem_cons_of_mem _ (List.mem_map.mpr ⟨k, hk, rfl⟩)), ho k⟩
      · simp at hq)
    (fun q _ => ⟨dm, List.mem_append_left _ (List.mem_cons_self ..)⟩)
  rw [t2]
  have : ∀ (b : List FEv) (s : LogSys), LogInv s → (∀ e ∈ b, (∃ l q, e = .openLog l q) ∨ ∃ q, e = .openDaemon q) → (s.run b).trace = s.trace := by
    intro b
    induction b with
    | nil => intro s _ _; rfl
    | cons e r ih =>
      intro s hs hb
      have := ih (s.step e) (hs.step e) (fun x hx => hb x (List.mem_cons_of_mem _ hx))
      refine Eq.trans this ?_
      obtain ⟨t, ht, ht', _⟩ := step_data hs e
      cases ht with
      | none => rw [ht', List.append_nil]
      | flush l k j q => rcases hb e (List.mem_cons_self ..) with ⟨_, _, g⟩ | ⟨_, g⟩ <;> rw [q] at g <;> cases g
      | say d j q => rcases hb e (List.mem_cons_self ..) with ⟨_, _, g⟩ | ⟨_, g⟩ <;> rw [q] at g <;> cases g
      | other j d q => rcases hb e (List.mem_cons_self ..) with ⟨_, _, g⟩ | ⟨_, g⟩ <;> rw [q] at g <;> cases g
  have q := this (hupEvs n o' dm') ((LogSys.init fs held lock zero).run (startEvs n o dm ++ h)) ((LogInv.init hf held lock zero).run _) (fun e he => by
    unfold hupEvs at he
    rcases List.mem_append.mp he with he | he
    · obtain ⟨k, _, e⟩ := List.mem_map.mp he; exact .inl ⟨k, o' k, e.symm⟩
    · exact .inr ⟨dm', List.mem_singleton.mp he⟩)
  rw [← LogSys.run_append, t1] at q
  have : t = [] := by
    have := congrArg List.length q
    rw [List.length_append] at this
    exact List.length_eq_zero_iff.mp (by omega)
  rw [this]
  exact List.append_nil _

example :
    let s := (LogSys.init demoDir (fun _ => false) (fun _ => true) true).run (startEvs 1 (fun _ => openAs "a") (openAs "d") ++ [.put 0 (bs "x\n"), .flush 0 99, .say (bs "hi\n")] ++ hupEvs 1 (fun _ => openAs "a") (openAs "d"))
    (s.fs.data 0, s.fs.data 1) = (bs "<opened>\nx\n", bs "hi\n") := by decide +kernel

/-- **C88 (order).**  What a log has written, in all its files together, and what still waits, is part of the data and messages for it, in the same order: nothing is invented,
repeated or exchanged, in any history. -/
theorem C88_order (h : List FEv) (l : Nat) :
    (wroteBy (.log l) ((LogSys.init fs held lock zero).run h).trace ++ (((LogSys.init fs held lock zero).run h).logs l).pend).Sublist (offered l h) := by
  induction h using snocInd with
  | nil => exact List.Sublist.refl _
  | snoc h e ih =>
    rw [LogSys.run_snoc, offered_append]
    exact (step_pend _ e l).trans (List.Sublist.append ih (List.Sublist.refl _))

/-- **C88 (nothing lost).**  If the daemon was not stopped, no write to the log failed, every opening of it succeeded, and there never was more than 16383 bytes to wait, then everything
for the log has been written or waits: over any number of openings and renamings. -/
theorem C88_complete (h : List FEv) (l : Nat) (h1 : .stop ∉ h) (h2 : .werr l ∉ h)
    (h3 : ∀ a o b, h = a ++ .openLog l o :: b → (((LogSys.init fs held lock zero).run (a ++ [.openLog l o])).logs l).fd ≠ none)
    (h4 : ∀ a e b, h = a ++ e :: b → ((((LogSys.init fs held lock zero).run a).logs l).pend ++ offered l [e]).length ≤ 16383) :
    wroteBy (.log l) ((LogSys.init fs held lock zero).run h).trace ++ (((LogSys.init fs held lock zero).run h).logs l).pend = offered l h := by
  induction h using snocInd with
  | nil => rfl
  | snoc h e ih =>
    have ih := ih (fun q => h1 (List.mem_append_left _ q)) (fun q => h2 (List.mem_append_left _ q)) (fun a o b q => h3 a o (b ++ [e]) (by rw [q, List.append_assoc]; rfl))
      (fun a e' b q => h4 a e' (b ++ [e]) (by rw [q, List.append_assoc]; rfl))
    rw [LogSys.run_snoc, offered_append, ← ih]
    refine step_exact _ e l ?_ (fun q => h1 (by rw [q]; simp)) (fun q => h2 (by rw [q]; simp)) (fun o q => ?_) (h4 h e [] rfl)
    · exact (run_flags fs held lock zero h l).2.2.1.mpr (fun q => h1 (List.mem_append_left _ q))
    · have := h3 h o [] (by rw [q])
      rw [LogSys.run_snoc] at this
      rw [q]; exact this

example :
    let s := (LogSys.init demoDir (fun _ => false) (fun _ => true) false).run
      [.openLog 0 (openAs "a"), .put 0 (bs "one\n"), .flush 0 11, .rename (bs "a") (bs "a.1"), .openLog 0 (openAs "a"), .put 0 (bs "two\n"), .flush 0 99]
    (s.fs.data 0, s.fs.ino (bs "a"), s.fs.data 2) = (bs "old\n<opened>\non", some 2, bs "e\n<opened>\ntwo\n") := by decide +kernel

/-- **C88 (file in use).**  The file that a log has open is the one that its last opening found, or made, by the name of that opening. -/
theorem C88_current (hf : fs.Ok) (h : List FEv) (l i : Nat) (hi : (((LogSys.init fs held lock zero).run h).logs l).fd = some i) :
    ∃ a o nm b, h = a ++ .openLog l o :: b ∧ (∀ o', .openLog l o' ∉ b) ∧ o.name = some nm ∧ o.ok = true ∧
      ((LogSys.init fs held lock zero).run (a ++ [.openLog l o])).fs.ino nm = some i ∧ ¬ (lock l = true ∧ ((LogSys.init fs held lock zero).run a).held i = true) := by
  induction h using snocInd with
  | nil => cases hi
  | snoc h e ih =>
    have inv := (LogInv.init hf held lock zero).run h
    rw [LogSys.run_snoc] at hi
    rcases step_fd _ inv e l i hi with ⟨q1, q2, q3⟩ | ⟨o, nm, q1, q2, q3, q4, _, q5, q6⟩
    · obtain ⟨a, o, nm, b, e1, e2, e3⟩ := ih q1
      refine ⟨a, o, nm, b ++ [e], by rw [e1, List.append_assoc]; rfl, fun o' g => ?_, e3⟩
      rcases List.mem_append.mp g with g | g
      · exact e2 o' g
      · have ha : ((LogSys.init fs held lock zero).run h).alive = true := by
          refine (run_flags fs held lock zero h l).2.2.1.mpr (fun g => ?_)
          have : ∀ (x : List FEv) (s : LogSys), s.alive = false → (∀ k, (s.logs k).fd = none) → ((s.run x).logs l).fd = none := by
            intro x
            induction x with
            | nil => intro s _ hk; exact hk l
            | cons y x ihx =>
              intro s hs hk
              refine ihx (s.step y) ?_ (fun k => ?_)
              · have := (step_flags s y l).2.2.1
                cases hh : (s.step y).alive with
                | false => rfl
                | true => rw [(this.mp hh).1] at hs; cases hs
              · rcases step_alive s y hs with g | g | ⟨_, _, g⟩ | ⟨_, g⟩ | ⟨_, _, g⟩ | ⟨_, _, g⟩
                · rw [g]; exact hk k
                · rw [g]; rfl
                · rw [g]; exact hk k
                · rw [g]; exact hk k
                · rw [g]; unfold LogSys.step; dsimp only; split <;> exact hk k
                · rw [g]; exact hk k
          obtain ⟨x, y, g⟩ := List.append_of_mem g
          rw [g, LogSys.run_append] at q1
          have q := this y (((LogSys.init fs held lock zero).run x).step .stop) rfl (fun _ => rfl)
          rw [show (((LogSys.init fs held lock zero).run x).run (.stop :: y)) = (((LogSys.init fs held lock zero).run x).step .stop).run y from rfl, q] at q1
          cases q1
        exact q3 ha o' (List.mem_singleton.mp g).symm
    · refine ⟨h, o, nm, [], by rw [q1], (fun o' g => by cases g), q3, q4, ?_, ?_⟩
      · rw [LogSys.run_snoc, ← q1]; exact q5
      · rw [(run_flags fs held lock zero h l).2.1] at q6; exact q6

/-- **C88 (rotation).**  A log `l` has the file `i` open, by the name `a`.  Somebody renames `a` to `b`, and on SIGHUP the log is opened by the name `a` again.  If this succeeds, the log
is now a new file `j`, empty, with the name `a`, and `b` is the old file, with its contents; what was waiting goes to the new file. -/
theorem C88_rotate (hf : fs.Ok) (h : List FEv) (l i : Nat) (a b msg : List UInt8)
    (hi : ((LogSys.init fs held lock zero).run h).fs.ino a = some i) (hab : a ≠ b) (hs : .stop ∉ h)
    (hk : lock l = true → ((LogSys.init fs held lock zero).run h).held ((LogSys.init fs held lock zero).run h).fs.next = false) :
    let s := (LogSys.init fs held lock zero).run h
    let s' := (LogSys.init fs held lock zero).run (h ++ [.rename a b, .openLog l { name := some a, msg }])
    ∃ j, j ≠ i ∧ (s'.logs l).fd = some j ∧ s'.fs.ino a = some j ∧ s'.fs.ino b = some i ∧ s'.fs.data j = [] ∧ s'.fs.data i = s.fs.data i ∧
      (s'.logs l).pend = enq (s.logs l).pend msg := by
  dsimp only
  have inv := (LogInv.init hf held lock zero).run h
  have ha := (run_flags fs held lock zero h l).2.2.1.mpr hs
  have hl := (run_flags fs held lock zero h l).2.1
  rw [LogSys.run_append]
  generalize (LogSys.init fs held lock zero).run h = s at *
  have e1 : s.run [.rename a b, .openLog l { name := some a, msg }] = ((s.step (.rename a b)).step (.openLog l { name := some a, msg })) := rfl
  rw [e1]
  have inv1 := inv.step (.rename a b)
  have f1 : (s.step (.rename a b)).fs = { s.fs with ino := fun x => if x = b then some i else if x = a then none else s.fs.ino x } := by
    show s.fs.rename a b = _
    unfold LDir.rename
    rw [if_neg hab, hi]
  have f2 : (s.step (.rename a b)).alive = true := ha
  have f3 : (s.step (.rename a b)).logs = s.logs := rfl
  have f4 : (s.step (.rename a b)).held = s.held := rfl
  have hin := inv.names a i hi
  generalize s.step (.rename a b) = s1 at *
  have e2 : s1.step (.openLog l { name := some a, msg }) = s1.openLog l { name := some a, msg } := by
    unfold LogSys.step; dsimp only; rw [if_pos f2]
  rw [e2]
  have hna : s1.fs.ino a = none := by rw [f1]; dsimp only; rw [if_neg hab, if_pos rfl]
  have hnb : s1.fs.ino b = some i := by rw [f1]; dsimp only; rw [if_pos rfl]
  have hnx : s1.fs.next = s.fs.next := by rw [f1]
  have hdt : s1.fs.data = s.fs.data := by rw [f1]
  have hop : ∀ tr, s1.fs.open a tr = ({ ino := fun x => if x = a then some s1.fs.next else s1.fs.ino x, data := fun j => if j = s1.fs.next then [] else s1.fs.data j, next := s1.fs.next + 1 }, s1.fs.next) := by
    intro tr; unfold LDir.open; rw [hna]
  obtain ⟨F, R⟩ := openLog_res s1 l { name := some a, msg }
  cases R with
  | noName hn fs log => cases hn
  | denied nm hn ok fs log => cases ok
  | locked nm hn ok fs lk hl' log =>
    cases hn
    rw [hop] at hl'
    rw [f3, hl] at lk
    rw [f4] at hl'
    dsimp only at hl'
    rw [hnx, hk lk] at hl'
    cases hl'
  | opened nm hn ok fs lk log =>
    cases hn
    rw [hop] at fs log
    refine ⟨s1.fs.next, by omega, by rw [log], ?_, ?_, ?_, ?_, ?_⟩
    · rw [fs]; dsimp only; rw [if_pos rfl]
    · rw [fs]; dsimp only; rw [if_neg (fun g => hab g.symm)]; exact hnb
    · rw [fs]; dsimp only; rw [if_pos rfl]
    · rw [fs]; dsimp only; rw [if_neg (by omega), hdt]
    · rw [log, f3]

/-- **C88 (a rotated file is left alone).**  From any state in which no log of the daemon has the file `i` open, and until a log is opened by a name of it or somebody else writes to it, the file
does not change: it may be compressed or moved away. -/
theorem C88_left (hf : fs.Ok) (h b : List FEv) (i : Nat) (hx : i < ((LogSys.init fs held lock zero).run h).fs.next)
    (ho : ∀ l, (((LogSys.init fs held lock zero).run h).logs l).fd ≠ some i) (hd : ((LogSys.init fs held lock zero).run h).dfd ≠ some i)
    (hb : ∀ x e y, b = x ++ e :: y →
      (∀ l o nm, e = .openLog l o → o.name = some nm → ((LogSys.init fs held lock zero).run (h ++ x)).fs.ino nm ≠ some i) ∧
      (∀ o nm, e = .openDaemon o → o.name = some nm → ((LogSys.init fs held lock zero).run (h ++ x)).fs.ino nm ≠ some i) ∧ ∀ d, e ≠ .other i d) :
    ((LogSys.init fs held lock zero).run (h ++ b)).fs.data i = ((LogSys.init fs held lock zero).run h).fs.data i := by
  rw [LogSys.run_append]
  exact (run_notOpen b ((LogInv.init hf held lock zero).run h) hx ⟨ho, hd⟩ (fun x e y q => by
    have := hb x e y q
    rw [LogSys.run_append] at this
    exact this)).2

example :
    let s := (LogSys.init demoDir (fun _ => false) (fun _ => true) false).run [.openLog 0 (openAs "a"), .rename (bs "a") (bs "a.1"), .openLog 0 (openAs "a")]
    0 < s.fs.next ∧ (s.logs 0).fd = some 2 ∧ s.dfd = none ∧ s.fs.ino (bs "a") ≠ some 0 := ⟨by decide +kernel, by decide +kernel, by decide +kernel, by decide +kernel⟩

/-- **C88 (until SIGHUP), a finding for users:** renaming alone does not change where a log writes: it goes on with the renamed file. -/
theorem C88_rename_only : ∃ h : List FEv,
    ((LogSys.init demoDir (fun _ => false) (fun _ => true) false).run (h ++ [.rename (bs "a") (bs "b"), .flush 0 99])).fs.data 0 = bs "old\n<opened>\n" ∧
    ((LogSys.init demoDir (fun _ => false) (fun _ => true) false).run (h ++ [.rename (bs "a") (bs "b"), .flush 0 99])).fs.ino (bs "a") = none :=
  ⟨[.openLog 0 (openAs "a")], by decide +kernel, by decide +kernel⟩

/-- **C88 (late data), against what a user may expect of rotation:** data that came before SIGHUP can be written to the new file, before the message of its opening. -/
theorem C88_late : ∃ h : List FEv,
    let s := (LogSys.init demoDir (fun _ => false) (fun _ => true) false).run ([.openLog 0 (openAs "a"), .flush 0 99, .put 0 (bs "before\n"), .rename (bs "a") (bs "b"), .openLog 0 (openAs "a")] ++ h)
    (s.fs.data 0, s.fs.data 2) = (bs "old\n<opened>\n", bs "before\n<opened>\n") :=
  ⟨[.flush 0 99], by decide +kernel⟩

/-- **C88 (`-z`).**  With `-z`, the first opening of a log (the name was made, the file can be opened) leaves an empty file, which the log has open unless its lock is refused; no other
file is changed. -/
theorem C88_zero (hf : fs.Ok) (h : List FEv) (l : Nat) (nm msg : List UInt8) (hs : .stop ∉ h) (ht : ¬ TriedLog l h) :
    let s := (LogSys.init fs held lock true).run h
    let s' := (LogSys.init fs held lock true).run (h ++ [.openLog l { name := some nm, msg }])
    ∃ i, s'.fs.ino nm = some i ∧ s'.fs.data i = [] ∧ (∀ j, j ≠ i → s'.fs.data j = s.fs.data j) ∧
      (s'.logs l).fd = (if lock l = true ∧ s.held i = true then none else some i) := by
  dsimp only
  have inv := (LogInv.init hf held lock true).run h
  obtain ⟨_, hl, ha, tr, _⟩ := run_flags fs held lock true h l
  have ha := ha.mpr hs
  have tr := tr ht
  rw [LogSys.run_snoc]
  generalize (LogSys.init fs held lock true).run h = s at *
  have e2 : s.step (.openLog l { name := some nm, msg }) = s.openLog l { name := some nm, msg } := by
    unfold LogSys.step; dsimp only; rw [if_pos ha]
  rw [e2]
  have emp : (s.fs.open nm true).1.data (s.fs.open nm true).2 = [] := by
    unfold LDir.open
    split
    · dsimp only; rw [if_pos ⟨rfl, rfl⟩]
    · dsimp only; rw [if_pos rfl]
  have hino := (open_ino s.fs nm true inv.names).1
  have hoth := open_data s.fs nm true
  obtain ⟨F, R⟩ := openLog_res s l { name := some nm, msg }
  refine ⟨(s.fs.open nm true).2, ?_⟩
  cases R with
  | noName hn fs log => cases hn
  | denied nm hn ok fs log => cases ok
  | locked nm' hn ok fs lk hl' log =>
    cases hn
    rw [tr] at fs hl'
    rw [fs]
    refine ⟨hino, emp, hoth, ?_⟩
    rw [log, if_pos ⟨by rw [← hl]; exact lk, hl'⟩]
  | opened nm' hn ok fs lk log =>
    cases hn
    rw [tr] at fs lk log
    rw [fs]
    refine ⟨hino, emp, hoth, ?_⟩
    rw [log, if_neg (by rw [← hl]; exact lk)]

example : ¬ TriedLog 0 [.openDaemon (openAs "d"), .openLog 1 (openAs "b")] := by
  rintro ⟨o, h, _⟩
  simp at h

/-- **C88 (`-z` and locks), against what a lock is for:** with `-z`, a log file that another daemon has locked is emptied, although the lock is refused and the log is not opened. -/
theorem C88_zero_locked :
    let s := (LogSys.init demoDir (fun i => i = 0) (fun _ => true) true).run [.openLog 0 (openAs "a")]
    (s.fs.data 0, (s.logs 0).fd) = ([], none) := by decide +kernel

/-- The same for the log of the daemon. -/
theorem C88_zero_locked_daemon :
    let s := (LogSys.init demoDir (fun i => i = 1) (fun _ => true) true).run [.openDaemon (openAs "d")]
    (s.fs.data 1, s.dfd) = ([], none) := by decide +kernel

/-- **C88 (`-z` counts once):** if the first opening fails, `-z` is used up: the next opening does not empty the file. -/
theorem C88_zero_used :
    let s := (LogSys.init demoDir (fun _ => false) (fun _ => true) true).run [.openLog 0 { name := some (bs "a"), ok := false }, .openLog 0 (openAs "a")]
    (s.fs.data 0, (s.logs 0).fd) = (bs "old\n", some 0) := by decide +kernel

/-- **C88 (after an error of writing).**  When writing to a log has failed, nothing is written by it any more, and what waited is lost, until it is opened again (on SIGHUP): for every history without
an opening of it. -/
theorem C88_write_error (hf : fs.Ok) (h b : List FEv) (l i : Nat) (hs : .stop ∉ h) (hi : (((LogSys.init fs held lock zero).run h).logs l).fd = some i)
    (hp : (((LogSys.init fs held lock zero).run h).logs l).pend ≠ []) (hb : ∀ o, .openLog l o ∉ b) :
    let s := (LogSys.init fs held lock zero).run h
    let s' := (LogSys.init fs held lock zero).run (h ++ .werr l :: b)
    (s'.logs l).fd = none ∧ wroteBy (.log l) s'.trace = wroteBy (.log l) s.trace ∧ (s'.logs l).pend.Sublist (offered l b) := by
  dsimp only
  have ha := (run_flags fs held lock zero h l).2.2.1.mpr hs
  have inv := (LogInv.init hf held lock zero).run h
  rw [LogSys.run_append]
  generalize (LogSys.init fs held lock zero).run h = s at *
  have e1 : s.step (.werr l) = s.modLog l fun o => { o with fd := none, pend := [] } := by
    unfold LogSys.step; dsimp only; rw [if_pos ha]
    unfold LogSys.werr
    rw [if_neg (by rintro (g | g); · rw [hi] at g; cases g
                   · exact hp g)]
  have inv1 := inv.step (.werr l)
  have f1 : ((s.step (.werr l)).logs l).fd = none := by rw [e1, modLog_same]
  have f2 : ((s.step (.werr l)).logs l).pend = [] := by rw [e1, modLog_same]
  have f3 : (s.step (.werr l)).trace = s.trace := by rw [e1]; rfl
  show (((s.step (.werr l)).run b).logs l).fd = none ∧ wroteBy (.log l) ((s.step (.werr l)).run b).trace = _ ∧ (((s.step (.werr l)).run b).logs l).pend.Sublist _
  rw [← f3]
  generalize s.step (.werr l) = t at *
  have key : ∀ b : List FEv, (∀ o, FEv.openLog l o ∉ b) → ((t.run b).logs l).fd = none ∧ wroteBy (.log l) (t.run b).trace = wroteBy (.log l) t.trace ∧ ((t.run b).logs l).pend.Sublist (offered l b) := by
    intro b
    induction b using snocInd with
    | nil => intro _; exact ⟨f1, rfl, by show ((t.logs l).pend).Sublist _; rw [f2]; exact List.nil_sublist _⟩
    | snoc b e ih =>
      intro hb
      obtain ⟨i1, i2, i3⟩ := ih (fun o q => hb o (List.mem_append_left _ q))
      have invb := inv1.run b
      rw [LogSys.run_snoc]
      generalize t.run b = u at *
      have g1 : ((u.step e).logs l).fd = none := by
        cases hq : ((u.step e).logs l).fd with
        | none => rfl
        | some j =>
          rcases step_fd u invb e l j hq with ⟨q, _⟩ | ⟨o, nm, q, _⟩
          · rw [i1] at q; cases q
          · exact absurd (by rw [q]; simp) (hb o)
      have g2 : wroteBy (.log l) (u.step e).trace = wroteBy (.log l) u.trace := by
        obtain ⟨tr, ht, ht', _⟩ := step_data invb e
        rw [ht', wroteBy_append]
        have : wroteBy (.log l) tr = [] := by
          cases ht with
          | none => rfl
          | flush k n j _ q => rw [wroteBy_one, if_neg (fun r => by cases r; rw [i1] at q; cases q)]
          | say d j => rw [wroteBy_one, if_neg (fun r => by cases r)]
          | other j d => rw [wroteBy_one, if_neg (fun r => by cases r)]
        rw [this, List.append_nil]
      refine ⟨g1, by rw [g2, i2], ?_⟩
      have := step_pend u e l
      rw [g2, List.append_assoc] at this
      rw [offered_append]
      exact ((List.append_sublist_append_left _).mp this).trans (List.Sublist.append i3 (List.Sublist.refl _))
  exact key b hb

example :
    let s := (LogSys.init demoDir (fun _ => false) (fun _ => true) false).run [.openLog 0 (openAs "a")]
    ((s.logs 0).fd, (s.logs 0).pend) = (some 0, bs "<opened>\n") := by decide +kernel

/-- **C88 (end of the daemon), against what a user may expect:** on SIGTERM, data that waits for a log is not written, then or later; whatever happens. -/
theorem C88_stop (hf : fs.Ok) (h b : List FEv) (l : Nat) :
    let s := (LogSys.init fs held lock zero).run h
    let s' := (LogSys.init fs held lock zero).run (h ++ .stop :: b)
    wroteBy (.log l) s'.trace = wroteBy (.log l) s.trace ∧ wroteBy .daemon s'.trace = wroteBy .daemon s.trace := by
  dsimp only
  have inv := (LogInv.init hf held lock zero).run h
  rw [LogSys.run_append]
  generalize (LogSys.init fs held lock zero).run h = s at *
  show wroteBy _ ((s.step .stop).run b).trace = _ ∧ wroteBy _ ((s.step .stop).run b).trace = _
  have inv1 := inv.step .stop
  have f1 : (s.step .stop).alive = false := rfl
  have f3 : (s.step .stop).trace = s.trace := rfl
  rw [← f3]
  generalize s.step .stop = t at *
  induction b using snocInd with
  | nil => exact ⟨rfl, rfl⟩
  | snoc b e ih =>
    rw [LogSys.run_snoc]
    have invb := inv1.run b
    have ha : (t.run b).alive = false := by
      have : ∀ (b : List FEv) (t : LogSys), t.alive = false → (t.run b).alive = false := by
        intro b
        induction b with
        | nil => intro t h; exact h
        | cons y b ih =>
          intro t h
          refine ih (t.step y) ?_
          cases hh : (t.step y).alive with
          | false => rfl
          | true => rw [((step_flags t y 0).2.2.1.mp hh).1] at h; cases h
      exact this b t f1
    generalize t.run b = u at *
    obtain ⟨tr, ht, ht', _⟩ := step_data invb e
    rw [ht', wroteBy_append, wroteBy_append, ih.1, ih.2]
    cases ht with
    | none => exact ⟨List.append_nil _, List.append_nil _⟩
    | flush k n j _ _ q => rw [ha] at q; cases q
    | say d j _ _ q => rw [ha] at q; cases q
    | other j d => rw [wroteBy_one, wroteBy_one, if_neg (fun r => by cases r), if_neg (fun r => by cases r)]; exact ⟨List.append_nil _, List.append_nil _⟩

theorem C88_stop_loses : ∃ h : List FEv,
    let s := (LogSys.init demoDir (fun _ => false) (fun _ => true) false).run h
    (offered 0 h, wroteBy (.log 0) s.trace, (s.logs 0).pend) = (bs "<opened>\nlast words\n", bs "<opened>\n", []) :=
  ⟨[.openLog 0 (openAs "a"), .flush 0 99, .put 0 (bs "last words\n"), .stop, .flush 0 99], by decide +kernel⟩

end Conman
