import Verif.Model.LogFiles

/-
Lemmas about files of logs.
-/
namespace Conman
open Spec

theorem modLog_same (s : LogSys) (l : Nat) (f : LogF → LogF) : (s.modLog l f).logs l = f (s.logs l) := by
  unfold LogSys.modLog; dsimp only; rw [if_pos rfl]

theorem modLog_other (s : LogSys) {l k : Nat} (f : LogF → LogF) (h : k ≠ l) : (s.modLog l f).logs k = s.logs k := by
  unfold LogSys.modLog; dsimp only; rw [if_neg h]

/-- What opening a log changes. -/
structure OpenFrame (s s' : LogSys) (l : Nat) : Prop where
  held : s'.held = s.held
  dfd : s'.dfd = s.dfd
  once : s'.once = s.once
  zero : s'.zero = s.zero
  alive : s'.alive = s.alive
  trace : s'.trace = s.trace
  others : ∀ k, k ≠ l → s'.logs k = s.logs k
  lock : (s'.logs l).lock = (s.logs l).lock

inductive OpenRes (s : LogSys) (l : Nat) (o : LogOpen) (s' : LogSys) : Prop
  | noName (hn : o.name = none) (fs : s'.fs = s.fs) (log : s'.logs l = { s.logs l with fd := none })
  | denied (nm : List UInt8) (hn : o.name = some nm) (ok : o.ok = false) (fs : s'.fs = s.fs) (log : s'.logs l = { s.logs l with fd := none, trunc := false })
  | locked (nm : List UInt8) (hn : o.name = some nm) (ok : o.ok = true) (fs : s'.fs = (s.fs.open nm (s.logs l).trunc).1) (lk : (s.logs l).lock = true)
      (hl : s.held (s.fs.open nm (s.logs l).trunc).2 = true) (log : s'.logs l = { s.logs l with fd := none, trunc := false })
  | opened (nm : List UInt8) (hn : o.name = some nm) (ok : o.ok = true) (fs : s'.fs = (s.fs.open nm (s.logs l).trunc).1)
      (lk : ¬ ((s.logs l).lock = true ∧ s.held (s.fs.open nm (s.logs l).trunc).2 = true))
      (log : s'.logs l = { s.logs l with fd := some (s.fs.open nm (s.logs l).trunc).2, trunc := false, pend := enq (s.logs l).pend o.msg })

theorem openLog_res (s : LogSys) (l : Nat) (o : LogOpen) : OpenFrame s (s.openLog l o) l ∧ OpenRes s l o (s.openLog l o) := by
  unfold LogSys.openLog
  dsimp only
  cases hn : o.name with
  | none =>
    dsimp only
    exact ⟨⟨rfl, rfl, rfl, rfl, rfl, rfl, fun k hk => modLog_other _ _ hk, by rw [modLog_same]⟩, .noName hn rfl (modLog_same _ _ _)⟩
  | some nm =>
    dsimp only
    have e1 : ((s.modLog l fun x => { x with fd := none }).logs l).trunc = (s.logs l).trunc := by rw [modLog_same]
    rw [e1]
    have e2 : ((s.modLog l fun x => { x with fd := none }).modLog l fun x => { x with trunc := false }).logs l = { s.logs l with fd := none, trunc := false } := by
      rw [modLog_same, modLog_same]
    have e3 : ∀ k, k ≠ l → ((s.modLog l fun x => { x with fd := none }).modLog l fun x => { x with trunc := false }).logs k = s.logs k := fun k hk => by
      rw [modLog_other _ _ hk, modLog_other _ _ hk]
    split
    · rename_i hok
      exact ⟨⟨rfl, rfl, rfl, rfl, rfl, rfl, fun k hk => e3 k hk, by rw [e2]⟩, .denied nm hn hok rfl e2⟩
    · rename_i hok
      have hok : o.ok = true := by simpa using hok
      rw [e2]
      split
      · rename_i hl
        exact ⟨⟨rfl, rfl, rfl, rfl, rfl, rfl, fun k hk => e3 k hk, by rw [e2]⟩, .locked nm hn hok rfl hl.1 hl.2 e2⟩
      · rename_i hl
        refine ⟨⟨rfl, rfl, rfl, rfl, rfl, rfl, fun k hk => ?_, ?_⟩, .opened nm hn hok rfl hl ?_⟩
        · unfold LogSys.put
          rw [modLog_other _ _ hk, modLog_other _ _ hk]
          exact e3 k hk
        · unfold LogSys.put
          rw [modLog_same, modLog_same]
          dsimp only
          rw [e2]
        · unfold LogSys.put
          rw [modLog_same, modLog_same]
          dsimp only
          rw [e2]
          rfl

/-- Opening a file, without emptying it or not. -/
theorem open_keeps (d : LDir) (nm : List UInt8) (i : Nat) (hi : i < d.next) : (d.open nm false).1.data i = d.data i := by
  unfold LDir.open
  split
  · dsimp only
    rw [if_neg (by rintro ⟨_, h⟩; cases h)]
  · dsimp only
    rw [if_neg (by omega)]

theorem open_next (d : LDir) (nm : List UInt8) (tr : Bool) : d.next ≤ (d.open nm tr).1.next := by
  unfold LDir.open
  split
  · exact Nat.le_refl _
  · exact Nat.le_succ _

theorem open_data (d : LDir) (nm : List UInt8) (tr : Bool) (j : Nat) (hj : j ≠ (d.open nm tr).2) : (d.open nm tr).1.data j = d.data j := by
  unfold LDir.open at hj ⊢
  cases h : d.ino nm with
  | none =>
    rw [h] at hj
    dsimp only at hj ⊢
    rw [if_neg hj]
  | some i =>
    rw [h] at hj
    dsimp only at hj ⊢
    rw [if_neg (by rintro ⟨g, _⟩; exact hj g)]

/-- Files that have a name have been made, and so have open ones; others are empty. -/
structure LogInv (s : LogSys) : Prop where
  names : ∀ nm i, s.fs.ino nm = some i → i < s.fs.next
  fds : ∀ l i, (s.logs l).fd = some i → i < s.fs.next
  dfd : ∀ i, s.dfd = some i → i < s.fs.next
  fresh : ∀ i, s.fs.next ≤ i → s.fs.data i = []

theorem open_ino (d : LDir) (nm : List UInt8) (tr : Bool) (h : ∀ nm i, d.ino nm = some i → i < d.next) :
    (d.open nm tr).1.ino nm = some (d.open nm tr).2 ∧ (d.open nm tr).2 < (d.open nm tr).1.next ∧ (∀ x, x ≠ nm → (d.open nm tr).1.ino x = d.ino x) ∧
    ∀ nm' i, (d.open nm tr).1.ino nm' = some i → i < (d.open nm tr).1.next := by
  unfold LDir.open
  cases e : d.ino nm with
  | none =>
    dsimp only
    refine ⟨by rw [if_pos rfl], Nat.lt_succ_self _, fun x hx => by rw [if_neg hx], fun nm' i hi => ?_⟩
    split at hi
    · cases hi; exact Nat.lt_succ_self _
    · exact Nat.lt_succ_of_lt (h nm' i hi)
  | some i => exact ⟨e, h nm i e, fun x _ => rfl, h⟩

/-- Opening a file changes it only if it is emptied. -/
theorem open_data_cases (d : LDir) (nm : List UInt8) (tr : Bool) (h : ∀ i, d.next ≤ i → d.data i = []) (i : Nat) :
    (d.open nm tr).1.data i = d.data i ∨ ((d.open nm tr).1.data i = [] ∧ tr = true ∧ d.ino nm = some i) := by
  unfold LDir.open
  cases e : d.ino nm with
  | none =>
    dsimp only
    left
    split
    · rename_i g; rw [h i (by omega)]
    · rfl
  | some j =>
    dsimp only
    by_cases g : i = j ∧ tr = true
    · rw [if_pos g]; exact .inr ⟨rfl, g.2, by rw [g.1]⟩
    · rw [if_neg g]; exact .inl rfl

theorem open_fresh (d : LDir) (nm : List UInt8) (tr : Bool) (h : ∀ i, d.next ≤ i → d.data i = []) (i : Nat) (hi : (d.open nm tr).1.next ≤ i) :
    (d.open nm tr).1.data i = [] := by
  rcases open_data_cases d nm tr h i with g | ⟨g, _⟩
  · rw [g, h i (Nat.le_trans (open_next d nm tr) hi)]
  · exact g

/-- What opening a log does to files and its descriptor. -/
theorem openLog_fs (s : LogSys) (l : Nat) (o : LogOpen) :
    ((s.openLog l o).fs = s.fs ∧ ((s.openLog l o).logs l).fd = none) ∨
    ∃ nm, o.name = some nm ∧ o.ok = true ∧ (s.openLog l o).fs = (s.fs.open nm (s.logs l).trunc).1 ∧
      (((s.openLog l o).logs l).fd = none ∨ ((s.openLog l o).logs l).fd = some (s.fs.open nm (s.logs l).trunc).2) := by
  obtain ⟨F, R⟩ := openLog_res s l o
  cases R with
  | noName hn fs log => exact .inl ⟨fs, by rw [log]⟩
  | denied nm hn ok fs log => exact .inl ⟨fs, by rw [log]⟩
  | locked nm hn ok fs lk hl log => exact .inr ⟨nm, hn, ok, fs, .inl (by rw [log])⟩
  | opened nm hn ok fs lk log => exact .inr ⟨nm, hn, ok, fs, .inr (by rw [log])⟩

theorem LogInv.openLog {s : LogSys} (h : LogInv s) (l : Nat) (o : LogOpen) : LogInv (s.openLog l o) := by
  have F := (openLog_res s l o).1
  rcases openLog_fs s l o with ⟨fs, log⟩ | ⟨nm, hn, ok, fs, log⟩
  · refine ⟨by rw [fs]; exact h.names, fun k i hk => ?_, by rw [fs, F.dfd]; exact h.dfd, by rw [fs]; exact h.fresh⟩
    rw [fs]
    by_cases e : k = l
    · subst e; rw [log] at hk; cases hk
    · rw [F.others k e] at hk; exact h.fds k i hk
  · obtain ⟨q1, q2, q3, q4⟩ := open_ino s.fs nm (s.logs l).trunc h.names
    have q5 := open_next s.fs nm (s.logs l).trunc
    refine ⟨by rw [fs]; exact q4, fun k i hk => ?_, by rw [fs, F.dfd]; exact fun i hi => Nat.lt_of_lt_of_le (h.dfd i hi) q5, by rw [fs]; exact open_fresh _ _ _ h.fresh⟩
    rw [fs]
    by_cases e : k = l
    · subst e
      rcases log with log | log
      · rw [log] at hk; cases hk
      · rw [log] at hk; cases hk; exact q2
    · rw [F.others k e] at hk; exact Nat.lt_of_lt_of_le (h.fds k i hk) q5

/-- What opening the log of the daemon changes. -/
theorem openDaemon_res (s : LogSys) (o : LogOpen) :
    ((s.openDaemon o).held = s.held ∧ (s.openDaemon o).once = false ∧ (s.openDaemon o).zero = s.zero ∧ (s.openDaemon o).alive = s.alive ∧ (s.openDaemon o).trace = s.trace ∧
      (s.openDaemon o).logs = s.logs) ∧
    (((s.openDaemon o).fs = s.fs ∧ (s.openDaemon o).dfd = none ∧ (o.name = none ∨ o.ok = false)) ∨
     ∃ nm, o.name = some nm ∧ o.ok = true ∧ (s.openDaemon o).fs = (s.fs.open nm (s.once && s.zero)).1 ∧
      ((s.held (s.fs.open nm (s.once && s.zero)).2 = true ∧ (s.openDaemon o).dfd = none) ∨
       (s.held (s.fs.open nm (s.once && s.zero)).2 = false ∧ (s.openDaemon o).dfd = some (s.fs.open nm (s.once && s.zero)).2))) := by
  unfold LogSys.openDaemon
  dsimp only
  cases hn : o.name with
  | none => exact ⟨⟨rfl, rfl, rfl, rfl, rfl, rfl⟩, .inl ⟨rfl, rfl, .inl rfl⟩⟩
  | some nm =>
    dsimp only
    split
    · rename_i hok; exact ⟨⟨rfl, rfl, rfl, rfl, rfl, rfl⟩, .inl ⟨rfl, rfl, .inr hok⟩⟩
    · rename_i hok
      have hok : o.ok = true := by simpa using hok
      split
      · rename_i hl; exact ⟨⟨rfl, rfl, rfl, rfl, rfl, rfl⟩, .inr ⟨nm, rfl, hok, rfl, .inl ⟨hl, rfl⟩⟩⟩
      · rename_i hl
        have hl : s.held (s.fs.open nm (s.once && s.zero)).2 = false := by simpa using hl
        exact ⟨⟨rfl, rfl, rfl, rfl, rfl, rfl⟩, .inr ⟨nm, rfl, hok, rfl, .inr ⟨hl, rfl⟩⟩⟩

theorem LogInv.openDaemon {s : LogSys} (h : LogInv s) (o : LogOpen) : LogInv (s.openDaemon o) := by
  obtain ⟨⟨_, _, _, _, _, F⟩, R⟩ := openDaemon_res s o
  rcases R with ⟨r1, r2, _⟩ | ⟨nm, _, _, r1, r2⟩
  · exact ⟨by rw [r1]; exact h.names, by rw [r1, F]; exact h.fds, fun i hi => (by rw [r2] at hi; cases hi), by rw [r1]; exact h.fresh⟩
  · obtain ⟨q1, q2, q3, q4⟩ := open_ino s.fs nm (s.once && s.zero) h.names
    have q5 := open_next s.fs nm (s.once && s.zero)
    refine ⟨by rw [r1]; exact q4, fun l i hi => ?_, fun i hi => ?_, by rw [r1]; exact open_fresh _ _ _ h.fresh⟩
    · rw [r1]; rw [F] at hi; exact Nat.lt_of_lt_of_le (h.fds l i hi) q5
    · rw [r1]
      rcases r2 with ⟨_, e⟩ | ⟨_, e⟩
      · rw [e] at hi; cases hi
      · rw [e] at hi; cases hi; exact q2

theorem rename_names (d : LDir) (a b : List UInt8) (P : Nat → Prop) (h : ∀ nm i, d.ino nm = some i → P i) : ∀ nm i, (d.rename a b).ino nm = some i → P i := by
  unfold LDir.rename
  split
  · exact h
  · split
    · exact h
    · rename_i i0 e
      intro nm i hi
      dsimp only at hi
      split at hi
      · cases hi; exact h a _ e
      · split at hi
        · cases hi
        · exact h nm i hi

theorem rename_next (d : LDir) (a b : List UInt8) : (d.rename a b).next = d.next ∧ (d.rename a b).data = d.data := by
  unfold LDir.rename
  split
  · exact ⟨rfl, rfl⟩
  · split <;> exact ⟨rfl, rfl⟩

theorem put_fd (s : LogSys) (l k : Nat) (d : List UInt8) : ((s.put l d).logs k).fd = (s.logs k).fd ∧ ((s.put l d).logs k).trunc = (s.logs k).trunc ∧ ((s.put l d).logs k).lock = (s.logs k).lock := by
  unfold LogSys.put LogSys.modLog
  dsimp only
  split <;> exact ⟨rfl, rfl, rfl⟩

/-- A flush either does nothing or writes. -/
theorem flush_res (s : LogSys) (l k : Nat) : s.flush l k = s ∨ ∃ i, (s.logs l).fd = some i ∧ (s.logs l).pend.take k ≠ [] ∧
    s.flush l k = (s.append (.log l) i ((s.logs l).pend.take k)).modLog l fun o => { o with pend := o.pend.drop k } := by
  unfold LogSys.flush
  cases h : (s.logs l).fd with
  | none => exact .inl rfl
  | some i =>
    dsimp only
    split
    · exact .inl rfl
    · rename_i hk; exact .inr ⟨i, rfl, hk, rfl⟩

theorem werr_res (s : LogSys) (l : Nat) : s.werr l = s ∨ s.werr l = s.modLog l fun o => { o with fd := none, pend := [] } := by
  unfold LogSys.werr
  split
  · exact .inl rfl
  · exact .inr rfl

theorem say_res (s : LogSys) (d : List UInt8) : s.say d = s ∨ ∃ i, s.dfd = some i ∧ s.say d = s.append .daemon i d := by
  unfold LogSys.say
  cases s.dfd with
  | none => exact .inl rfl
  | some i => exact .inr ⟨i, rfl, rfl⟩

/-- An event that the daemon takes part in happens only if it runs. -/
theorem step_alive (s : LogSys) (e : FEv) (h : s.alive = false) : s.step e = s ∨ e = .stop ∨ (∃ a b, e = .rename a b) ∨ (∃ a, e = .remove a) ∨ (∃ i d, e = .other i d) ∨ ∃ i b, e = .hold i b := by
  cases e with
  | stop => simp
  | rename a b => simp
  | remove a => simp
  | other i d => simp
  | hold i b => simp
  | _ => left; unfold LogSys.step; dsimp only; rw [h]; rfl

theorem LogInv.modLog {t : LogSys} (ht : LogInv t) (l : Nat) (f : LogF → LogF) (hf : ∀ o i, (f o).fd = some i → o.fd = some i) : LogInv (t.modLog l f) := by
  refine ⟨ht.names, fun k i hk => ?_, ht.dfd, ht.fresh⟩
  by_cases e : k = l
  · subst e; rw [modLog_same] at hk; exact ht.fds k i (hf _ _ hk)
  · rw [modLog_other _ _ e] at hk; exact ht.fds k i hk

theorem LogInv.append {t : LogSys} (ht : LogInv t) (w : Who) (i : Nat) (d : List UInt8) (hi : i < t.fs.next) : LogInv (t.append w i d) := by
  refine ⟨ht.names, ht.fds, ht.dfd, fun j hj => ?_⟩
  have hj : t.fs.next ≤ j := hj
  unfold LogSys.append
  dsimp only
  rw [if_neg (by omega)]
  exact ht.fresh j hj

theorem LogInv.step {s : LogSys} (h : LogInv s) (e : FEv) : LogInv (s.step e) := by
  cases e with
  | put l d =>
    unfold LogSys.step; dsimp only
    split
    · exact h.modLog _ _ fun _ _ g => g
    · exact h
  | flush l k =>
    unfold LogSys.step; dsimp only
    split
    · rcases flush_res s l k with g | ⟨i, hi, _, g⟩
      · rw [g]; exact h
      · rw [g]; exact (h.append _ _ _ (h.fds l i hi)).modLog _ _ (fun _ _ g => g)
    · exact h
  | werr l =>
    unfold LogSys.step; dsimp only
    split
    · rcases werr_res s l with g | g
      · rw [g]; exact h
      · rw [g]; exact h.modLog _ _ (fun _ _ g => by cases g)
    · exact h
  | say d =>
    unfold LogSys.step; dsimp only
    split
    · rcases say_res s d with g | ⟨i, hi, g⟩
      · rw [g]; exact h
      · rw [g]; exact h.append _ _ _ (h.dfd i hi)
    · exact h
  | openLog l o =>
    unfold LogSys.step; dsimp only
    split
    · exact h.openLog l o
    · exact h
  | openDaemon o =>
    unfold LogSys.step; dsimp only
    split
    · exact h.openDaemon o
    · exact h
  | stop => exact ⟨h.names, (fun l i hi => by cases hi), (fun i hi => by cases hi), h.fresh⟩
  | rename a b =>
    unfold LogSys.step; dsimp only
    obtain ⟨e1, e2⟩ := rename_next s.fs a b
    exact ⟨by dsimp only; rw [e1]; exact rename_names s.fs a b _ h.names, by dsimp only; rw [e1]; exact h.fds, by dsimp only; rw [e1]; exact h.dfd,
      by dsimp only; rw [e1, e2]; exact h.fresh⟩
  | remove a =>
    refine ⟨fun nm i hi => ?_, h.fds, h.dfd, h.fresh⟩
    unfold LogSys.step at hi; dsimp only at hi
    split at hi
    · cases hi
    · exact h.names nm i hi
  | other i d =>
    unfold LogSys.step; dsimp only
    split
    · rename_i hi; exact h.append _ _ _ hi
    · exact h
  | hold i b => exact ⟨h.names, h.fds, h.dfd, h.fresh⟩

theorem LogSys.run_append (s : LogSys) (a b : List FEv) : s.run (a ++ b) = (s.run a).run b := List.foldl_append

theorem LogInv.run {s : LogSys} (h : LogInv s) (hist : List FEv) : LogInv (s.run hist) := by
  induction hist generalizing s with
  | nil => exact h
  | cons e r ih => exact ih (h.step e)

theorem LogInv.init {fs : LDir} (h : fs.Ok) (held lock : Nat → Bool) (zero : Bool) : LogInv (LogSys.init fs held lock zero) :=
  ⟨h.names, (fun l i hi => by cases hi), (fun i hi => by cases hi), h.fresh⟩

/-! ### What a step writes -/

theorem wroteTo_append (i : Nat) (a b : List Wr) : wroteTo i (a ++ b) = wroteTo i a ++ wroteTo i b := by
  unfold wroteTo; rw [List.filter_append, List.map_append, List.flatten_append]

theorem wroteBy_append (w : Who) (a b : List Wr) : wroteBy w (a ++ b) = wroteBy w a ++ wroteBy w b := by
  unfold wroteBy; rw [List.filter_append, List.map_append, List.flatten_append]

theorem wroteTo_one (i : Nat) (w : Who) (j : Nat) (d : List UInt8) : wroteTo i [⟨w, j, d⟩] = if j = i then d else [] := by
  unfold wroteTo
  by_cases h : j = i
  · rw [if_pos h]; simp [List.filter, h]
  · rw [if_neg h]; simp [List.filter, h]

theorem wroteBy_one (v w : Who) (j : Nat) (d : List UInt8) : wroteBy v [⟨w, j, d⟩] = if w = v then d else [] := by
  unfold wroteBy
  by_cases h : w = v
  · rw [if_pos h]; simp [List.filter, h]
  · rw [if_neg h]; simp [List.filter, h]

theorem append_data (s : LogSys) (w : Who) (i : Nat) (d : List UInt8) (j : Nat) : (s.append w i d).fs.data j = s.fs.data j ++ wroteTo j [⟨w, i, d⟩] := by
  rw [wroteTo_one]
  unfold LogSys.append
  dsimp only
  by_cases h : j = i
  · rw [if_pos h, if_pos h.symm]
  · rw [if_neg h, if_neg (fun g => h g.symm), List.append_nil]

/-- What a step does to the trace. -/
inductive StepTr (s : LogSys) (e : FEv) : List Wr → Prop
  | none : StepTr s e []
  | flush (l k i : Nat) (he : e = .flush l k) (hi : (s.logs l).fd = some i) (ha : s.alive = true) : StepTr s e [⟨.log l, i, (s.logs l).pend.take k⟩]
  | say (d : List UInt8) (i : Nat) (he : e = .say d) (hi : s.dfd = some i) (ha : s.alive = true) : StepTr s e [⟨.daemon, i, d⟩]
  | other (i : Nat) (d : List UInt8) (he : e = .other i d) : StepTr s e [⟨.other, i, d⟩]

/-- Files that are emptied in a step. -/
def Emptied (s : LogSys) (e : FEv) (i : Nat) : Prop :=
  (∃ l o nm, e = .openLog l o ∧ o.name = some nm ∧ (s.logs l).trunc = true ∧ s.fs.ino nm = some i) ∨
  ∃ o nm, e = .openDaemon o ∧ o.name = some nm ∧ s.once = true ∧ s.zero = true ∧ s.fs.ino nm = some i

theorem step_data {s : LogSys} (h : LogInv s) (e : FEv) : ∃ t, StepTr s e t ∧ (s.step e).trace = s.trace ++ t ∧
    ∀ i, (s.step e).fs.data i = s.fs.data i ++ wroteTo i t ∨ (t = [] ∧ (s.step e).fs.data i = [] ∧ s.alive = true ∧ Emptied s e i) := by
  have same : ∀ t : LogSys, t.trace = s.trace → t.fs.data = s.fs.data → ∃ x, StepTr s e x ∧ t.trace = s.trace ++ x ∧
      ∀ i, t.fs.data i = s.fs.data i ++ wroteTo i x ∨ (x = [] ∧ t.fs.data i = [] ∧ s.alive = true ∧ Emptied s e i) := fun t h1 h2 =>
    ⟨[], .none, by rw [h1, List.append_nil], fun i => .inl (by rw [h2]; exact (List.append_nil _).symm)⟩
  cases e with
  | put l d =>
    unfold LogSys.step; dsimp only
    split <;> exact same _ rfl rfl
  | flush l k =>
    unfold LogSys.step; dsimp only
    split
    · rename_i ha
      rcases flush_res s l k with g | ⟨i, hi, _, g⟩
      · rw [g]; exact same _ rfl rfl
      · rw [g]; exact ⟨_, .flush l k i rfl hi ha, rfl, fun j => .inl (append_data _ _ _ _ _)⟩
    · exact same _ rfl rfl
  | werr l =>
    unfold LogSys.step; dsimp only
    split
    · rcases werr_res s l with g | g
      · rw [g]; exact same _ rfl rfl
      · rw [g]; exact same _ rfl rfl
    · exact same _ rfl rfl
  | say d =>
    unfold LogSys.step; dsimp only
    split
    · rename_i ha
      rcases say_res s d with g | ⟨i, hi, g⟩
      · rw [g]; exact same _ rfl rfl
      · rw [g]; exact ⟨_, .say d i rfl hi ha, rfl, fun j => .inl (append_data _ _ _ _ _)⟩
    · exact same _ rfl rfl
  | openLog l o =>
    unfold LogSys.step; dsimp only
    split
    · rename_i ha
      have F := (openLog_res s l o).1
      rcases openLog_fs s l o with ⟨fs, _⟩ | ⟨nm, hn, ok, fs, _⟩
      · exact same _ F.trace (by rw [fs])
      · refine ⟨[], .none, by rw [F.trace, List.append_nil], fun i => ?_⟩
        rw [fs]
        rcases open_data_cases s.fs nm (s.logs l).trunc h.fresh i with g | ⟨g, g2, g3⟩
        · exact .inl (by rw [g]; exact (List.append_nil _).symm)
        · exact .inr ⟨rfl, g, ha, .inl ⟨l, o, nm, rfl, hn, g2, g3⟩⟩
    · exact same _ rfl rfl
  | openDaemon o =>
    unfold LogSys.step; dsimp only
    split
    · rename_i ha
      obtain ⟨⟨_, _, _, _, tr, _⟩, R⟩ := openDaemon_res s o
      rcases R with ⟨fs, _, _⟩ | ⟨nm, hn, ok, fs, _⟩
      · exact same _ tr (by rw [fs])
      · refine ⟨[], .none, by rw [tr, List.append_nil], fun i => ?_⟩
        rw [fs]
        rcases open_data_cases s.fs nm (s.once && s.zero) h.fresh i with g | ⟨g, g2, g3⟩
        · exact .inl (by rw [g]; exact (List.append_nil _).symm)
        · rw [Bool.and_eq_true] at g2
          exact .inr ⟨rfl, g, ha, .inr ⟨o, nm, rfl, hn, g2.1, g2.2, g3⟩⟩
    · exact same _ rfl rfl
  | stop => exact same _ rfl rfl
  | rename a b => exact same _ rfl (rename_next s.fs a b).2
  | remove a => exact same _ rfl rfl
  | other i d =>
    unfold LogSys.step; dsimp only
    split
    · exact ⟨_, .other i d rfl, rfl, fun j => .inl (append_data _ _ _ _ _)⟩
    · exact same _ rfl rfl
  | hold i b => exact same _ rfl rfl

/-! ### Flags -/

/-- What a step does to the flags of the daemon and of a log. -/
theorem step_flags (s : LogSys) (e : FEv) (l : Nat) :
    (s.step e).zero = s.zero ∧ ((s.step e).logs l).lock = (s.logs l).lock ∧ ((s.step e).alive = true ↔ s.alive = true ∧ e ≠ .stop) ∧
    ((∃ o, e = .openLog l o ∧ o.name ≠ none ∧ s.alive = true ∧ ((s.step e).logs l).trunc = false) ∨
      ((s.alive = true → ∀ o, e = .openLog l o → o.name = none) ∧ ((s.step e).logs l).trunc = (s.logs l).trunc)) ∧
    ((∃ o, e = .openDaemon o ∧ s.alive = true ∧ (s.step e).once = false) ∨ ((s.alive = true → ∀ o, e ≠ .openDaemon o) ∧ (s.step e).once = s.once)) := by
  have keep : ∀ t : LogSys, t.zero = s.zero → (t.logs l).lock = (s.logs l).lock → t.alive = s.alive → (t.logs l).trunc = (s.logs l).trunc → t.once = s.once → e ≠ .stop →
      (s.alive = true → ∀ o, e = .openLog l o → o.name = none) → (s.alive = true → ∀ o, e ≠ .openDaemon o) → 
      t.zero = s.zero ∧ (t.logs l).lock = (s.logs l).lock ∧ (t.alive = true ↔ s.alive = true ∧ e ≠ .stop) ∧
      ((∃ o, e = .openLog l o ∧ o.name ≠ none ∧ s.alive = true ∧ (t.logs l).trunc = false) ∨
        ((s.alive = true → ∀ o, e = .openLog l o → o.name = none) ∧ (t.logs l).trunc = (s.logs l).trunc)) ∧
      ((∃ o, e = .openDaemon o ∧ s.alive = true ∧ t.once = false) ∨ ((s.alive = true → ∀ o, e ≠ .openDaemon o) ∧ t.once = s.once)) :=
    fun t h1 h2 h3 h4 h5 h6 h7 h8 => ⟨h1, h2, by rw [h3]; exact ⟨fun g => ⟨g, h6⟩, fun g => g.1⟩, .inr ⟨h7, h4⟩, .inr ⟨h8, h5⟩⟩
  have mm : ∀ (t : LogSys) (k : Nat) (f : LogF → LogF), (∀ o, (f o).lock = o.lock ∧ (f o).trunc = o.trunc) → ((t.modLog k f).logs l).lock = (t.logs l).lock ∧ ((t.modLog k f).logs l).trunc = (t.logs l).trunc := by
    intro t k f hf
    by_cases g : l = k
    · subst g; rw [modLog_same]; exact hf _
    · rw [modLog_other _ _ g]; exact ⟨rfl, rfl⟩
  cases e with
  | put k d =>
    unfold LogSys.step; dsimp only
    split
    · obtain ⟨m1, m2⟩ := mm s k (fun o => { o with pend := enq o.pend d }) (fun _ => ⟨rfl, rfl⟩)
      exact keep _ rfl m1 rfl m2 rfl (by simp) (by simp) (by simp)
    · exact keep _ rfl rfl rfl rfl rfl (by simp) (by simp) (by simp)
  | flush k n =>
    unfold LogSys.step; dsimp only
    split
    · rcases flush_res s k n with g | ⟨i, hi, _, g⟩
      · rw [g]; exact keep _ rfl rfl rfl rfl rfl (by simp) (by simp) (by simp)
      · rw [g]
        obtain ⟨m1, m2⟩ := mm (s.append (.log k) i ((s.logs k).pend.take n)) k (fun o => { o with pend := o.pend.drop n }) (fun _ => ⟨rfl, rfl⟩)
        exact keep _ rfl m1 rfl m2 rfl (by simp) (by simp) (by simp)
    · exact keep _ rfl rfl rfl rfl rfl (by simp) (by simp) (by simp)
  | werr k =>
    unfold LogSys.step; dsimp only
    split
    · rcases werr_res s k with g | g
      · rw [g]; exact keep _ rfl rfl rfl rfl rfl (by simp) (by simp) (by simp)
      · rw [g]
        obtain ⟨m1, m2⟩ := mm s k (fun o => { o with fd := none, pend := [] }) (fun _ => ⟨rfl, rfl⟩)
        exact keep _ rfl m1 rfl m2 rfl (by simp) (by simp) (by simp)
    · exact keep _ rfl rfl rfl rfl rfl (by simp) (by simp) (by simp)
  | say d =>
    unfold LogSys.step; dsimp only
    split
    · rcases say_res s d with g | ⟨i, hi, g⟩
      · rw [g]; exact keep _ rfl rfl rfl rfl rfl (by simp) (by simp) (by simp)
      · rw [g]; exact keep _ rfl rfl rfl rfl rfl (by simp) (by simp) (by simp)
    · exact keep _ rfl rfl rfl rfl rfl (by simp) (by simp) (by simp)
  | openLog k o =>
    unfold LogSys.step; dsimp only
    split
    · rename_i ha
      obtain ⟨F, R⟩ := openLog_res s k o
      by_cases g : l = k
      · subst g
        have c3 : (s.openLog l o).alive = true ↔ s.alive = true ∧ FEv.openLog l o ≠ .stop := by rw [F.alive]; simp
        have c5 : (∃ q, FEv.openLog l o = .openDaemon q ∧ s.alive = true ∧ (s.openLog l o).once = false) ∨
            ((s.alive = true → ∀ q, FEv.openLog l o ≠ .openDaemon q) ∧ (s.openLog l o).once = s.once) := .inr ⟨by simp, F.once⟩
        refine ⟨F.zero, F.lock, c3, ?_, c5⟩
        cases R with
        | noName hn fs log => exact .inr ⟨fun _ q hq => by cases hq; exact hn, by rw [log]⟩
        | denied nm hn ok fs log => exact .inl ⟨o, rfl, by rw [hn]; simp, ha, by rw [log]⟩
        | locked nm hn ok fs lk hl log => exact .inl ⟨o, rfl, by rw [hn]; simp, ha, by rw [log]⟩
        | opened nm hn ok fs lk log => exact .inl ⟨o, rfl, by rw [hn]; simp, ha, by rw [log]⟩
      · have q := F.others l g
        exact keep _ F.zero (by rw [q]) F.alive (by rw [q]) F.once (by simp) (fun _ q hq => by cases hq; exact absurd rfl g) (by simp)
    · rename_i ha
      exact keep _ rfl rfl rfl rfl rfl (by simp) (fun h => absurd h ha) (by simp)
  | openDaemon o =>
    unfold LogSys.step; dsimp only
    split
    · rename_i ha
      obtain ⟨⟨_, r2, r3, r4, _, r6⟩, R⟩ := openDaemon_res s o
      exact ⟨r3, by rw [r6], by rw [r4]; simp, .inr ⟨by simp, by rw [r6]⟩, .inl ⟨o, rfl, ha, r2⟩⟩
    · rename_i ha
      exact keep _ rfl rfl rfl rfl rfl (by simp) (by simp) (fun h => absurd h ha)
  | stop =>
    exact ⟨rfl, rfl, ⟨(fun g => by cases g), fun g => absurd rfl g.2⟩, .inr ⟨by simp, rfl⟩, .inr ⟨by simp, rfl⟩⟩
  | rename a b => exact keep _ rfl rfl rfl rfl rfl (by simp) (by simp) (by simp)
  | remove a => exact keep _ rfl rfl rfl rfl rfl (by simp) (by simp) (by simp)
  | other i d =>
    unfold LogSys.step; dsimp only
    split
    · exact keep _ rfl rfl rfl rfl rfl (by simp) (by simp) (by simp)
    · exact keep _ rfl rfl rfl rfl rfl (by simp) (by simp) (by simp)
  | hold i b => exact keep _ rfl rfl rfl rfl rfl (by simp) (by simp) (by simp)

theorem LogSys.run_snoc (s : LogSys) (h : List FEv) (e : FEv) : s.run (h ++ [e]) = (s.run h).step e := by rw [LogSys.run_append]; rfl

theorem snocInd {α : Type} {P : List α → Prop} (nil : P []) (snoc : ∀ h e, P h → P (h ++ [e])) (h : List α) : P h := by
  have : ∀ r : List α, P r.reverse := fun r => by
    induction r with
    | nil => exact nil
    | cons e r ih => rw [List.reverse_cons]; exact snoc _ _ ih
  rw [← List.reverse_reverse h]; exact this _

/-- The flags after a history. -/
theorem run_flags (fs : LDir) (held lock : Nat → Bool) (zero : Bool) (h : List FEv) (l : Nat) :
    let s := (LogSys.init fs held lock zero).run h
    s.zero = zero ∧ (s.logs l).lock = lock l ∧ (s.alive = true ↔ .stop ∉ h) ∧ (¬ TriedLog l h → (s.logs l).trunc = zero) ∧ (s.alive = true → TriedLog l h → (s.logs l).trunc = false) ∧
    ((s.logs l).trunc = true → zero = true) ∧ (¬ TriedDaemon h → s.once = true) ∧ (s.alive = true → TriedDaemon h → s.once = false) := by
  induction h using snocInd with
  | nil =>
    exact ⟨rfl, rfl, ⟨fun _ => by simp, fun _ => rfl⟩, fun _ => rfl, fun _ g => (by obtain ⟨o, q, _⟩ := g; cases q), fun g => g, fun _ => rfl, fun _ g => (by obtain ⟨o, q⟩ := g; cases q)⟩
  | snoc h e ih =>
    dsimp only at ih ⊢
    rw [LogSys.run_snoc]
    generalize (LogSys.init fs held lock zero).run h = s at ih
    obtain ⟨i1, i2, i3, i4, i5, i6, i7, i8⟩ := ih
    obtain ⟨f1, f2, f3, f4, f5⟩ := step_flags s e l
    refine ⟨by rw [f1, i1], by rw [f2, i2], ?_, ?_, ?_, ?_, ?_, ?_⟩
    · rw [f3, i3]
      simp only [List.mem_append, List.mem_singleton, not_or]
      exact ⟨fun g => ⟨g.1, fun q => g.2 q.symm⟩, fun g => ⟨g.1, fun q => g.2 q.symm⟩⟩
    · intro hn
      have hn' : ¬ TriedLog l h := fun ⟨o, q, r⟩ => hn ⟨o, List.mem_append_left _ q, r⟩
      rcases f4 with ⟨o, he, ho, _, _⟩ | ⟨_, f4⟩
      · exact absurd ⟨o, by rw [he]; simp, ho⟩ hn
      · rw [f4]; exact i4 hn'
    · intro ha ht
      rcases f4 with ⟨o, he, ho, _, f4⟩ | ⟨hno, f4⟩
      · exact f4
      · rw [f4]
        have ha' := (f3.mp ha).1
        refine i5 ha' ?_
        obtain ⟨o, q, r⟩ := ht
        rcases List.mem_append.mp q with q | q
        · exact ⟨o, q, r⟩
        · exact absurd (hno ha' o (List.mem_singleton.mp q).symm) r
    · intro ht
      rcases f4 with ⟨o, he, ho, _, f4⟩ | ⟨hno, f4⟩
      · rw [f4] at ht; cases ht
      · rw [f4] at ht; exact i6 ht
    · intro hn
      have hn' : ¬ TriedDaemon h := fun ⟨o, q⟩ => hn ⟨o, List.mem_append_left _ q⟩
      rcases f5 with ⟨o, he, _, _⟩ | ⟨_, f5⟩
      · exact absurd ⟨o, by rw [he]; simp⟩ hn
      · rw [f5]; exact i7 hn'
    · intro ha ht
      rcases f5 with ⟨o, he, _, f5⟩ | ⟨hno, f5⟩
      · exact f5
      · rw [f5]
        have ha' := (f3.mp ha).1
        refine i8 ha' ?_
        obtain ⟨o, q⟩ := ht
        rcases List.mem_append.mp q with q | q
        · exact ⟨o, q⟩
        · exact absurd (List.mem_singleton.mp q).symm (hno ha' o)

/-! ### Descriptors and waiting bytes -/

/-- What a step does to the waiting bytes and the writes of a log. -/
theorem step_pend (s : LogSys) (e : FEv) (l : Nat) :
    (wroteBy (.log l) (s.step e).trace ++ ((s.step e).logs l).pend).Sublist (wroteBy (.log l) s.trace ++ (s.logs l).pend ++ offered l [e]) := by
  have off : ∀ (a b : List UInt8), a.Sublist (a ++ b) := fun a b => List.sublist_append_left a b
  have enqSub : ∀ p d : List UInt8, (enq p d).Sublist (p ++ d) := by
    intro p d
    unfold enq lastN
    refine (List.drop_sublist _ _).trans (List.Sublist.append (List.Sublist.refl _) ?_)
    split
    · exact List.take_sublist _ _
    · exact List.Sublist.refl _
  cases e with
  | put k d =>
    unfold LogSys.step; dsimp only
    split
    · unfold LogSys.put
      by_cases g : l = k
      · subst g
        rw [modLog_same]
        dsimp only
        have : offered l [.put l d] = d := by simp [offered]
        rw [this, List.append_assoc]
        exact List.Sublist.append (List.Sublist.refl _) (enqSub _ _)
      · rw [modLog_other _ _ g]; exact off _ _
    · exact off _ _
  | flush k n =>
    unfold LogSys.step; dsimp only
    split
    · rcases flush_res s k n with g | ⟨i, hi, _, g⟩
      · rw [g]; exact off _ _
      · rw [g]
        by_cases q : l = k
        · subst q
          rw [modLog_same]
          refine List.Sublist.trans ?_ (off _ _)
          show (wroteBy (.log l) (s.trace ++ [_]) ++ List.drop n (s.logs l).pend).Sublist _
          rw [wroteBy_append, wroteBy_one, if_pos rfl, List.append_assoc, List.take_append_drop]
          exact List.Sublist.refl _
        · rw [modLog_other _ _ q]
          refine List.Sublist.trans ?_ (off _ _)
          show (wroteBy (.log l) (s.trace ++ [_]) ++ (s.logs l).pend).Sublist _
          rw [wroteBy_append, wroteBy_one, if_neg (fun r => q (by cases r; rfl)), List.append_nil]
          exact List.Sublist.refl _
    · exact off _ _
  | werr k =>
    unfold LogSys.step; dsimp only
    split
    · rcases werr_res s k with g | g
      · rw [g]; exact off _ _
      · rw [g]
        by_cases q : l = k
        · subst q
          rw [modLog_same]
          dsimp only
          rw [List.append_nil, List.append_assoc]
          exact off _ _
        · rw [modLog_other _ _ q]; exact off _ _
    · exact off _ _
  | say d =>
    unfold LogSys.step; dsimp only
    split
    · rcases say_res s d with g | ⟨i, hi, g⟩
      · rw [g]; exact off _ _
      · rw [g]
        refine List.Sublist.trans ?_ (off _ _)
        show (wroteBy (.log l) (s.trace ++ [_]) ++ (s.logs l).pend).Sublist _
        rw [wroteBy_append, wroteBy_one, if_neg (fun r => by cases r), List.append_nil]
        exact List.Sublist.refl _
    · exact off _ _
  | openLog k o =>
    unfold LogSys.step; dsimp only
    split
    · obtain ⟨F, R⟩ := openLog_res s k o
      rw [F.trace]
      by_cases g : l = k
      · subst g
        have : offered l [.openLog l o] = o.msg := by simp [offered]
        rw [this]
        cases R with
        | noName hn fs log => rw [log]; exact off _ _
        | denied nm hn ok fs log => rw [log]; exact off _ _
        | locked nm hn ok fs lk hl log => rw [log]; exact off _ _
        | opened nm hn ok fs lk log =>
          rw [log, List.append_assoc]
          dsimp only
          exact List.Sublist.append (List.Sublist.refl _) (enqSub _ _)
      · rw [F.others l g]; exact off _ _
    · exact off _ _
  | openDaemon o =>
    unfold LogSys.step; dsimp only
    split
    · obtain ⟨⟨_, _, _, _, r5, r6⟩, _⟩ := openDaemon_res s o
      rw [r5, r6]; exact off _ _
    · exact off _ _
  | stop =>
    show (wroteBy (.log l) s.trace ++ []).Sublist _
    rw [List.append_nil, List.append_assoc]; exact off _ _
  | rename a b => exact off _ _
  | remove a => exact off _ _
  | other i d =>
    unfold LogSys.step; dsimp only
    split
    · refine List.Sublist.trans ?_ (off _ _)
      show (wroteBy (.log l) (s.trace ++ [_]) ++ (s.logs l).pend).Sublist _
      rw [wroteBy_append, wroteBy_one, if_neg (fun r => by cases r), List.append_nil]
      exact List.Sublist.refl _
    · exact off _ _
  | hold i b => exact off _ _

theorem enq_fits (p d : List UInt8) (h : (p ++ d).length ≤ queueCap) : enq p d = p ++ d := by
  have hd : d.length ≤ queueCap := by rw [List.length_append] at h; omega
  have : ¬ d.length ≥ objBufSize := by
    show ¬ objBufSize ≤ d.length
    have e : objBufSize = queueCap + 1 := by decide
    omega
  unfold enq
  rw [if_neg this]
  unfold lastN
  rw [Nat.sub_eq_zero_of_le h]; rfl

/-- Nothing is lost in a step that neither fails nor overflows. -/
theorem step_exact (s : LogSys) (e : FEv) (l : Nat) (ha : s.alive = true) (h1 : e ≠ .stop) (h2 : e ≠ .werr l)
    (h3 : ∀ o, e = .openLog l o → ((s.step e).logs l).fd ≠ none) (h4 : ((s.logs l).pend ++ offered l [e]).length ≤ queueCap) :
    wroteBy (.log l) (s.step e).trace ++ ((s.step e).logs l).pend = wroteBy (.log l) s.trace ++ (s.logs l).pend ++ offered l [e] := by
  have off : offered l [e] = [] → wroteBy (.log l) s.trace ++ (s.logs l).pend = wroteBy (.log l) s.trace ++ (s.logs l).pend ++ offered l [e] := fun g => by
    rw [g, List.append_nil]
  cases e with
  | put k d =>
    unfold LogSys.step; dsimp only
    rw [if_pos ha]
    unfold LogSys.put
    by_cases g : l = k
    · subst g
      rw [modLog_same]
      dsimp only
      have : offered l [.put l d] = d := by simp [offered]
      rw [this] at h4 ⊢
      rw [List.append_assoc, enq_fits _ _ h4]
      rfl
    · rw [modLog_other _ _ g]; exact off (by simp [offered]; exact fun q => absurd q.symm g)
  | flush k n =>
    unfold LogSys.step; dsimp only
    rw [if_pos ha]
    rcases flush_res s k n with g | ⟨i, hi, _, g⟩
    · rw [g]; exact off rfl
    · rw [g]
      by_cases q : l = k
      · subst q
        rw [modLog_same]
        refine Eq.trans ?_ (off rfl)
        show wroteBy (.log l) (s.trace ++ [_]) ++ List.drop n (s.logs l).pend = _
        rw [wroteBy_append, wroteBy_one, if_pos rfl, List.append_assoc, List.take_append_drop]
      · rw [modLog_other _ _ q]
        refine Eq.trans ?_ (off rfl)
        show wroteBy (.log l) (s.trace ++ [_]) ++ (s.logs l).pend = _
        rw [wroteBy_append, wroteBy_one, if_neg (fun r => q (by cases r; rfl)), List.append_nil]
  | werr k =>
    have q : l ≠ k := fun g => h2 (by rw [g])
    unfold LogSys.step; dsimp only
    rw [if_pos ha]
    rcases werr_res s k with g | g
    · rw [g]; exact off rfl
    · rw [g, modLog_other _ _ q]; exact off rfl
  | say d =>
    unfold LogSys.step; dsimp only
    rw [if_pos ha]
    rcases say_res s d with g | ⟨i, hi, g⟩
    · rw [g]; exact off rfl
    · rw [g]
      refine Eq.trans ?_ (off rfl)
      show wroteBy (.log l) (s.trace ++ [_]) ++ (s.logs l).pend = _
      rw [wroteBy_append, wroteBy_one, if_neg (fun r => by cases r), List.append_nil]
  | openLog k o =>
    unfold LogSys.step at h3 ⊢; dsimp only at h3 ⊢
    rw [if_pos ha] at h3 ⊢
    obtain ⟨F, R⟩ := openLog_res s k o
    rw [F.trace]
    by_cases g : l = k
    · subst g
      have : offered l [.openLog l o] = o.msg := by simp [offered]
      rw [this] at h4 ⊢
      have h3 := h3 o rfl
      cases R with
      | noName hn fs log => rw [log] at h3; exact absurd rfl h3
      | denied nm hn ok fs log => rw [log] at h3; exact absurd rfl h3
      | locked nm hn ok fs lk hl log => rw [log] at h3; exact absurd rfl h3
      | opened nm hn ok fs lk log =>
        rw [log, List.append_assoc]
        dsimp only
        rw [enq_fits _ _ h4]
    · rw [F.others l g]; exact off (by simp [offered]; exact fun q => absurd q.symm g)
  | openDaemon o =>
    unfold LogSys.step; dsimp only
    rw [if_pos ha]
    obtain ⟨⟨_, _, _, _, r5, r6⟩, _⟩ := openDaemon_res s o
    rw [r5, r6]; exact off rfl
  | stop => exact absurd rfl h1
  | rename a b => exact off rfl
  | remove a => exact off rfl
  | other i d =>
    unfold LogSys.step; dsimp only
    split
    · refine Eq.trans ?_ (off rfl)
      show wroteBy (.log l) (s.trace ++ [_]) ++ (s.logs l).pend = _
      rw [wroteBy_append, wroteBy_one, if_neg (fun r => by cases r), List.append_nil]
    · exact off rfl
  | hold i b => exact off rfl

theorem offered_append (l : Nat) (a b : List FEv) : offered l (a ++ b) = offered l a ++ offered l b := by
  unfold offered; rw [List.map_append, List.flatten_append]

/-- Where the descriptor of a log comes from. -/
theorem step_fd (s : LogSys) (hs : LogInv s) (e : FEv) (l i : Nat) (h : ((s.step e).logs l).fd = some i) :
    ((s.logs l).fd = some i ∧ e ≠ .stop ∧ (s.alive = true → ∀ o, e ≠ .openLog l o)) ∨
    ∃ o nm, e = .openLog l o ∧ s.alive = true ∧ o.name = some nm ∧ o.ok = true ∧ (s.fs.open nm (s.logs l).trunc).2 = i ∧ (s.step e).fs.ino nm = some i ∧
      ¬ ((s.logs l).lock = true ∧ s.held i = true) := by
  have mm : ∀ (t : LogSys) (k : Nat) (f : LogF → LogF), (∀ o j, (f o).fd = some j → o.fd = some j) → ((t.modLog k f).logs l).fd = some i → (t.logs l).fd = some i := by
    intro t k f hf q
    by_cases g : l = k
    · subst g; rw [modLog_same] at q; exact hf _ _ q
    · rw [modLog_other _ _ g] at q; exact q
  cases e with
  | put k d =>
    unfold LogSys.step at h; dsimp only at h
    refine .inl ⟨?_, by simp, by simp⟩
    split at h
    · exact mm s k (fun o => { o with pend := enq o.pend d }) (fun _ _ q => q) h
    · exact h
  | flush k n =>
    unfold LogSys.step at h; dsimp only at h
    refine .inl ⟨?_, by simp, by simp⟩
    split at h
    · rcases flush_res s k n with g | ⟨j, hi, _, g⟩
      · rw [g] at h; exact h
      · rw [g] at h; exact mm (s.append (.log k) j ((s.logs k).pend.take n)) k (fun o => { o with pend := o.pend.drop n }) (fun _ _ q => q) h
    · exact h
  | werr k =>
    unfold LogSys.step at h; dsimp only at h
    refine .inl ⟨?_, by simp, by simp⟩
    split at h
    · rcases werr_res s k with g | g
      · rw [g] at h; exact h
      · rw [g] at h; exact mm s k (fun o => { o with fd := none, pend := [] }) (fun _ _ q => by cases q) h
    · exact h
  | say d =>
    unfold LogSys.step at h; dsimp only at h
    refine .inl ⟨?_, by simp, by simp⟩
    split at h
    · rcases say_res s d with g | ⟨j, hi, g⟩
      · rw [g] at h; exact h
      · rw [g] at h; exact h
    · exact h
  | openLog k o =>
    unfold LogSys.step at h ⊢; dsimp only at h ⊢
    split at h
    · rename_i ha
      rw [if_pos ha]
      obtain ⟨F, R⟩ := openLog_res s k o
      by_cases g : l = k
      · subst g
        right
        cases R with
        | noName hn fs log => rw [log] at h; cases h
        | denied nm hn ok fs log => rw [log] at h; cases h
        | locked nm hn ok fs lk hl log => rw [log] at h; cases h
        | opened nm hn ok fs lk log =>
          rw [log] at h
          have h : some (s.fs.open nm (s.logs l).trunc).2 = some i := h
          injection h with h
          refine ⟨o, nm, rfl, ha, hn, ok, h, ?_, by rw [← h]; exact lk⟩
          rw [fs, (open_ino _ _ _ hs.names).1, h]
      · rw [F.others l g] at h
        exact .inl ⟨h, by simp, fun _ q hq => by cases hq; exact absurd rfl g⟩
    · rename_i ha
      exact .inl ⟨h, by simp, fun q => absurd q ha⟩
  | openDaemon o =>
    unfold LogSys.step at h; dsimp only at h
    refine .inl ⟨?_, by simp, by simp⟩
    split at h
    · obtain ⟨⟨_, _, _, _, r5, r6⟩, _⟩ := openDaemon_res s o
      rw [r6] at h; exact h
    · exact h
  | stop => cases h
  | rename a b => exact .inl ⟨h, by simp, by simp⟩
  | remove a => exact .inl ⟨h, by simp, by simp⟩
  | other j d =>
    unfold LogSys.step at h; dsimp only at h
    refine .inl ⟨?_, by simp, by simp⟩
    split at h <;> exact h
  | hold j b => exact .inl ⟨h, by simp, by simp⟩

/-- Where the descriptor of the daemon's log comes from. -/
theorem step_dfd (s : LogSys) (hs : LogInv s) (e : FEv) (i : Nat) (h : (s.step e).dfd = some i) :
    (s.dfd = some i ∧ e ≠ .stop ∧ (s.alive = true → ∀ o, e ≠ .openDaemon o)) ∨
    ∃ o nm, e = .openDaemon o ∧ s.alive = true ∧ o.name = some nm ∧ o.ok = true ∧ (s.fs.open nm (s.once && s.zero)).2 = i ∧ (s.step e).fs.ino nm = some i ∧ s.held i = false := by
  cases e with
  | put k d =>
    unfold LogSys.step at h; dsimp only at h
    refine .inl ⟨?_, by simp, by simp⟩
    split at h <;> exact h
  | flush k n =>
    unfold LogSys.step at h; dsimp only at h
    refine .inl ⟨?_, by simp, by simp⟩
    split at h
    · rcases flush_res s k n with g | ⟨j, hi, _, g⟩
      · rw [g] at h; exact h
      · rw [g] at h; exact h
    · exact h
  | werr k =>
    unfold LogSys.step at h; dsimp only at h
    refine .inl ⟨?_, by simp, by simp⟩
    split at h
    · rcases werr_res s k with g | g
      · rw [g] at h; exact h
      · rw [g] at h; exact h
    · exact h
  | say d =>
    unfold LogSys.step at h; dsimp only at h
    refine .inl ⟨?_, by simp, by simp⟩
    split at h
    · rcases say_res s d with g | ⟨j, hi, g⟩
      · rw [g] at h; exact h
      · rw [g] at h; exact h
    · exact h
  | openLog k o =>
    unfold LogSys.step at h; dsimp only at h
    refine .inl ⟨?_, by simp, by simp⟩
    split at h
    · rw [(openLog_res s k o).1.dfd] at h; exact h
    · exact h
  | openDaemon o =>
    unfold LogSys.step at h ⊢; dsimp only at h ⊢
    split at h
    · rename_i ha
      rw [if_pos ha]
      obtain ⟨_, R⟩ := openDaemon_res s o
      rcases R with ⟨_, r2, _⟩ | ⟨nm, hn, ok, fs, ⟨_, r⟩ | ⟨hl, r⟩⟩
      · rw [r2] at h; cases h
      · rw [r] at h; cases h
      · rw [r] at h
        injection h with h
        refine .inr ⟨o, nm, rfl, ha, hn, ok, h, ?_, by rw [← h]; exact hl⟩
        rw [fs, (open_ino _ _ _ hs.names).1, h]
    · rename_i ha
      exact .inl ⟨h, by simp, fun q => absurd q ha⟩
  | stop => cases h
  | rename a b => exact .inl ⟨h, by simp, by simp⟩
  | remove a => exact .inl ⟨h, by simp, by simp⟩
  | other j d =>
    unfold LogSys.step at h; dsimp only at h
    refine .inl ⟨?_, by simp, by simp⟩
    split at h <;> exact h
  | hold j b => exact .inl ⟨h, by simp, by simp⟩

theorem logStep_next {s : LogSys} (e : FEv) : s.fs.next ≤ (s.step e).fs.next := by
  cases e with
  | put k d => unfold LogSys.step; dsimp only; split <;> exact Nat.le_refl _
  | flush k n =>
    unfold LogSys.step; dsimp only
    split
    · rcases flush_res s k n with g | ⟨j, hi, _, g⟩
      · rw [g]; exact Nat.le_refl _
      · rw [g]; exact Nat.le_refl _
    · exact Nat.le_refl _
  | werr k =>
    unfold LogSys.step; dsimp only
    split
    · rcases werr_res s k with g | g
      · rw [g]; exact Nat.le_refl _
      · rw [g]; exact Nat.le_refl _
    · exact Nat.le_refl _
  | say d =>
    unfold LogSys.step; dsimp only
    split
    · rcases say_res s d with g | ⟨j, hi, g⟩
      · rw [g]; exact Nat.le_refl _
      · rw [g]; exact Nat.le_refl _
    · exact Nat.le_refl _
  | openLog k o =>
    unfold LogSys.step; dsimp only
    split
    · rcases openLog_fs s k o with ⟨fs, _⟩ | ⟨nm, _, _, fs, _⟩
      · rw [fs]; exact Nat.le_refl _
      · rw [fs]; exact open_next _ _ _
    · exact Nat.le_refl _
  | openDaemon o =>
    unfold LogSys.step; dsimp only
    split
    · rcases (openDaemon_res s o).2 with ⟨fs, _⟩ | ⟨nm, _, _, fs, _⟩
      · rw [fs]; exact Nat.le_refl _
      · rw [fs]; exact open_next _ _ _
    · exact Nat.le_refl _
  | stop => exact Nat.le_refl _
  | rename a b => exact Nat.le_of_eq (rename_next s.fs a b).1.symm
  | remove a => exact Nat.le_refl _
  | other j d => unfold LogSys.step; dsimp only; split <;> exact Nat.le_refl _
  | hold j b => exact Nat.le_refl _

/-- Opening by a name that is not of the file `i`, which there is, gives another file. -/
theorem open_not (d : LDir) (nm : List UInt8) (tr : Bool) (i : Nat) (hi : i < d.next) (h : d.ino nm ≠ some i) : (d.open nm tr).2 ≠ i := by
  unfold LDir.open
  cases e : d.ino nm with
  | none => dsimp only; omega
  | some j => dsimp only; intro g; exact h (by rw [e, g])

/-- No log of the daemon is the file `i`. -/
def NotOpen (s : LogSys) (i : Nat) : Prop := (∀ l, (s.logs l).fd ≠ some i) ∧ s.dfd ≠ some i

/-- Nobody makes the daemon open the file `i`, or writes to it. -/
def Leaves (i : Nat) (s : LogSys) (e : FEv) : Prop :=
  (∀ l o nm, e = .openLog l o → o.name = some nm → s.fs.ino nm ≠ some i) ∧ (∀ o nm, e = .openDaemon o → o.name = some nm → s.fs.ino nm ≠ some i) ∧ ∀ d, e ≠ .other i d

theorem step_notOpen {s : LogSys} (hs : LogInv s) {i : Nat} (hi : i < s.fs.next) (h : NotOpen s i) (e : FEv) (he : Leaves i s e) :
    NotOpen (s.step e) i ∧ (s.step e).fs.data i = s.fs.data i := by
  refine ⟨⟨fun l g => ?_, fun g => ?_⟩, ?_⟩
  · rcases step_fd s hs e l i g with ⟨q, _⟩ | ⟨o, nm, q1, _, q2, _, q3, _⟩
    · exact h.1 l q
    · exact open_not _ _ _ i hi (he.1 l o nm q1 q2) q3
  · rcases step_dfd s hs e i g with ⟨q, _⟩ | ⟨o, nm, q1, _, q2, _, q3, _⟩
    · exact h.2 q
    · exact open_not _ _ _ i hi (he.2.1 o nm q1 q2) q3
  · obtain ⟨t, ht, _, hd⟩ := step_data hs e
    rcases hd i with hd | ⟨_, _, _, hd | hd⟩
    · rw [hd]
      have : wroteTo i t = [] := by
        cases ht with
        | none => rfl
        | flush l k j e1 e2 => rw [wroteTo_one, if_neg (fun g => h.1 l (by rw [e2, g]))]
        | say d j e1 e2 => rw [wroteTo_one, if_neg (fun g => h.2 (by rw [e2, g]))]
        | other j d e1 => rw [wroteTo_one, if_neg (fun g => he.2.2 d (by rw [e1, g]))]
      rw [this, List.append_nil]
    · obtain ⟨l, o, nm, q1, q2, _, q3⟩ := hd
      exact absurd q3 (he.1 l o nm q1 q2)
    · obtain ⟨o, nm, q1, q2, _, _, q3⟩ := hd
      exact absurd q3 (he.2.1 o nm q1 q2)

theorem run_notOpen (h : List FEv) : ∀ {s : LogSys}, LogInv s → ∀ {i : Nat}, i < s.fs.next → NotOpen s i → (∀ a e b, h = a ++ e :: b → Leaves i (s.run a) e) →
    NotOpen (s.run h) i ∧ (s.run h).fs.data i = s.fs.data i := by
  induction h with
  | nil => intro s _ i _ hn _; exact ⟨hn, rfl⟩
  | cons e r ih =>
    intro s hs i hi hn hl
    obtain ⟨a1, a2⟩ := step_notOpen hs hi hn e (hl [] e r rfl)
    obtain ⟨b1, b2⟩ := ih (hs.step e) (Nat.lt_of_lt_of_le hi (logStep_next e)) a1 (fun a e' b q => hl (e :: a) e' b (by rw [q]; rfl))
    exact ⟨b1, by rw [← a2, ← b2]; rfl⟩

end Conman
