import Verif.Model.Mux

/-
C75: signals.  C76: every object that is ready is served.  C77: clients that connect.
-/
namespace Conman

/-! ### C75 -/

theorem MLoop.run_append (n : Nat) (s : MLoop) (a b : List MEv) : s.run n (a ++ b) = (s.run n a).run n b := by
  unfold MLoop.run
  rw [List.foldl_append]

theorem interrupt_fields (s : MLoop) : s.interrupt.done = s.done ∧ s.interrupt.reconfig = s.reconfig ∧ s.interrupt.ready = s.ready ∧ s.interrupt.stale = s.stale ∧
    (s.interrupt.pc = s.pc ∨ s.interrupt.pc = .intr) ∧ s.interrupt.pc ≠ .blocked := by
  unfold MLoop.interrupt
  by_cases h : s.pc = .blocked
  · rw [if_pos h]; exact ⟨rfl, rfl, rfl, rfl, Or.inr rfl, by intro g; cases g⟩
  · rw [if_neg h]; exact ⟨rfl, rfl, rfl, rfl, Or.inl rfl, h⟩

theorem go_done (n : Nat) (s : MLoop) : (s.go n).done = s.done := by
  unfold MLoop.go
  split <;> (try split) <;> rfl

theorem step_done (n : Nat) (s : MLoop) (x : MEv) (h : s.done = true) : (s.step n x).done = true := by
  cases x with
  | go => exact (go_done n s).trans h
  | ready => unfold MLoop.step; dsimp only; split <;> exact h
  | hup => exact (interrupt_fields _).1.trans h
  | term => exact (interrupt_fields _).1
  | chld => exact (interrupt_fields _).1.trans h

/-- A signal that ends the daemon is not forgotten. -/
theorem C75_kept (n : Nat) (s : MLoop) (h : List MEv) (ht : .term ∈ h) : (s.run n h).done = true := by
  induction h generalizing s with
  | nil => cases ht
  | cons x h ih =>
    rcases List.mem_cons.1 ht with e | e
    · subst e
      have : ∀ (h : List MEv) (s : MLoop), s.done = true → (s.run n h).done = true := by
        intro h
        induction h with
        | nil => exact fun _ g => g
        | cons x h ih => exact fun s g => ih _ (step_done n s x g)
      exact this h _ (interrupt_fields _).1
    · exact ih _ e

/-- How many steps it takes to end. -/
def MPc.toEnd (n : Nat) : MPc → Nat
  | .ended => 0
  | .top => 1
  | .serve => 2
  | .intr => 3
  | .poll => 3
  | .clear => 4
  | .reopen k => (n - k) + 5
  | .reconf => n + 6
  | .blocked => 0

/-- The loop that is to end is not going to be blocked. -/
def MLoop.ending (s : MLoop) : Prop :=
  s.done = true ∧ s.pc ≠ .blocked ∧ (s.ready = true ∨ s.pc = .top ∨ s.pc = .serve ∨ s.pc = .intr ∨ s.pc = .ended)

theorem ending_go (n : Nat) (s : MLoop) (h : s.ending) : (s.go n).ending ∧ (s.pc = .ended ∨ (s.go n).pc.toEnd n + 1 ≤ s.pc.toEnd n) := by
  obtain ⟨pc, done, reconfig, ready, stale⟩ := s
  obtain ⟨h1, h2, h3⟩ := h
  dsimp only at h1 h2 h3
  subst h1
  have r : ∀ q : MPc, q ≠ .top → q ≠ .serve → q ≠ .intr → q ≠ .ended → pc = q → ready = true := by
    intro q q1 q2 q3 q4 e
    rcases h3 with g | g | g | g | g
    · exact g
    all_goals exact absurd (e ▸ g) (by assumption)
  cases pc with
  | top => exact ⟨⟨rfl, (by intro g; cases g), Or.inr (Or.inr (Or.inr (Or.inr rfl)))⟩, Or.inr (Nat.le_refl 1)⟩
  | reconf =>
    have hr := r .reconf (by intro g; cases g) (by intro g; cases g) (by intro g; cases g) (by intro g; cases g) rfl
    subst hr
    cases reconfig with
    | true => exact ⟨⟨rfl, (by intro g; cases g), Or.inl rfl⟩, Or.inr (by show (n - 0) + 5 + 1 ≤ n + 6; omega)⟩
    | false => exact ⟨⟨rfl, (by intro g; cases g), Or.inl rfl⟩, Or.inr (by show 3 + 1 ≤ n + 6; omega)⟩
  | reopen k =>
    have hr := r (.reopen k) (by intro g; cases g) (by intro g; cases g) (by intro g; cases g) (by intro g; cases g) rfl
    subst hr
    unfold MLoop.go
    dsimp only
    by_cases hk : k < n
    · rw [if_pos hk]
      exact ⟨⟨rfl, (by intro g; cases g), Or.inl rfl⟩, Or.inr (by show (n - (k + 1)) + 5 + 1 ≤ (n - k) + 5; omega)⟩
    · rw [if_neg hk]
      exact ⟨⟨rfl, (by intro g; cases g), Or.inl rfl⟩, Or.inr (by show 4 + 1 ≤ (n - k) + 5; omega)⟩
  | clear =>
    have hr := r .clear (by intro g; cases g) (by intro g; cases g) (by intro g; cases g) (by intro g; cases g) rfl
    subst hr
    exact ⟨⟨rfl, (by intro g; cases g), Or.inl rfl⟩, Or.inr (Nat.le_refl 4)⟩
  | poll =>
    have hr := r .poll (by intro g; cases g) (by intro g; cases g) (by intro g; cases g) (by intro g; cases g) rfl
    subst hr
    exact ⟨⟨rfl, (by intro g; cases g), Or.inr (Or.inr (Or.inl rfl))⟩, Or.inr (Nat.le_refl 3)⟩
  | blocked => exact absurd rfl h2
  | intr => exact ⟨⟨rfl, (by intro g; cases g), Or.inr (Or.inr (Or.inl rfl))⟩, Or.inr (Nat.le_refl 3)⟩
  | serve => exact ⟨⟨rfl, (by intro g; cases g), Or.inr (Or.inl rfl)⟩, Or.inr (Nat.le_refl 2)⟩
  | ended => exact ⟨⟨rfl, (by intro g; cases g), Or.inr (Or.inr (Or.inr (Or.inr rfl)))⟩, Or.inl rfl⟩

theorem ending_run (n m : Nat) (s : MLoop) (h : s.ending) (hm : s.pc.toEnd n ≤ m) : (s.run n (List.replicate m .go)).pc = .ended := by
  induction m generalizing s with
  | zero =>
    obtain ⟨_, h2, _⟩ := h
    cases hp : s.pc with
    | ended => exact hp
    | blocked => exact absurd hp h2
    | _ => rw [hp] at hm; exact absurd hm (by simp only [MPc.toEnd]; omega)
  | succ m ih =>
    obtain ⟨g1, g2⟩ := ending_go n s h
    rw [List.replicate_succ]
    refine ih _ g1 ?_
    rcases g2 with g | g
    · have : s.step n .go = s := by
        show s.go n = s
        unfold MLoop.go
        rw [g]
      show (s.step n .go).pc.toEnd n ≤ m
      rw [this, g]
      exact Nat.zero_le _
    · show (s.go n).pc.toEnd n ≤ m
      omega

theorem toEnd_le (n : Nat) (p : MPc) : p.toEnd n ≤ n + 6 := by
  cases p <;> (simp only [MPc.toEnd]; omega)

/-- C75.  After SIGTERM or SIGINT, wherever the loop was, the daemon ends as soon as a descriptor gets ready. -/
theorem C75_term_partial (n : Nat) (h : List MEv) (ht : .term ∈ h) (s : MLoop) : (s.run n (h ++ [.ready] ++ List.replicate (n + 6) .go)).pc = .ended := by
  rw [MLoop.run_append, MLoop.run_append]
  have hd := C75_kept n s h ht
  refine ending_run n (n + 6) _ ?_ (toEnd_le n _)
  generalize s.run n h = s at hd
  show (s.step n .ready).ending
  unfold MLoop.step
  dsimp only
  by_cases hb : s.pc = .blocked
  · rw [if_pos hb]
    exact ⟨hd, (by intro g; cases g), Or.inr (Or.inr (Or.inl rfl))⟩
  · rw [if_neg hb]
    exact ⟨hd, hb, Or.inl rfl⟩

example : (MLoop.run 2 {} ([.go, .hup, .go, .go, .term, .hup, .go] ++ [.ready] ++ List.replicate 8 .go)).pc = .ended := by decide +kernel

/-- C75.  If the loop is waiting when the signal comes, the daemon ends at once. -/
theorem C75_term_waiting (n : Nat) (s : MLoop) (hb : s.pc = .blocked) : (s.run n [.term, .go, .go, .go]).pc = .ended := by
  have e : s.run n [.term] = { s with done := true, pc := .intr } := by
    show MLoop.interrupt { s with done := true } = _
    unfold MLoop.interrupt
    rw [if_pos hb]
  show ((s.run n [.term]).run n [.go, .go, .go]).pc = .ended
  rw [e]
  rfl

example : (MLoop.run 2 {} [.go, .go, .go]).pc = .blocked := by decide +kernel

/-- C75 is false of a signal that comes after the loop has looked at its flags and before it waits: it has no effect until something else happens. -/
theorem C75_lost_wakeup (n : Nat) : ∃ h, .term ∈ h ∧ ∀ m, (MLoop.run n {} (h ++ List.replicate m .go)).pc = .blocked := by
  refine ⟨[.go, .go, .term, .go], by simp, ?_⟩
  intro m
  rw [MLoop.run_append]
  have : ∀ m, MLoop.run n { pc := .blocked, done := true } (List.replicate m .go) = { pc := .blocked, done := true } := by
    intro m
    induction m with
    | zero => rfl
    | succ m ih => exact ih
  show (MLoop.run n { pc := .blocked, done := true } (List.replicate m .go)).pc = .blocked
  rw [this]

/-- The loop is reopening its logs. -/
def MPc.inPass : MPc → Bool
  | .reopen _ => true
  | .clear => true
  | _ => false

/-- No SIGHUP comes while the logs are being reopened because of an earlier one. -/
def MLoop.calm (n : Nat) (h : List MEv) : Prop := ∀ a b, h = a ++ .hup :: b → (MLoop.run n {} a).pc.inPass = false

structure HupInv (n : Nat) (s : MLoop) : Prop where
  flag : s.stale ≠ [] → s.reconfig = true
  below : ∀ x ∈ s.stale, x < n
  pass : ∀ k, s.pc = .reopen k → ∀ x ∈ s.stale, k ≤ x
  clear : s.pc = .clear → s.stale = []
  ended : s.pc = .ended → s.done = true

theorem HupInv.go {n : Nat} {s : MLoop} (h : HupInv n s) : HupInv n (s.go n) := by
  obtain ⟨pc, done, reconfig, ready, stale⟩ := s
  obtain ⟨h1, h2, h3, h4, h5⟩ := h
  dsimp only at h1 h2 h3 h4 h5
  cases pc with
  | top =>
    cases done with
    | true => exact ⟨h1, h2, (fun _ g => by cases g), (fun g => by cases g), fun _ => rfl⟩
    | false => exact ⟨h1, h2, (fun _ g => by cases g), (fun g => by cases g), (fun g => by cases g)⟩
  | reconf =>
    cases reconfig with
    | true => exact ⟨h1, h2, (fun _ g => by cases g; exact fun x _ => Nat.zero_le x), (fun g => by cases g), (fun g => by cases g)⟩
    | false => exact ⟨h1, h2, (fun _ g => by cases g), (fun g => by cases g), (fun g => by cases g)⟩
  | reopen k =>
    unfold MLoop.go
    dsimp only
    by_cases hk : k < n
    · rw [if_pos hk]
      have sub : ∀ x, x ∈ stale.filter (· ≠ k) → x ∈ stale ∧ x ≠ k := by
        intro x hx
        rw [List.mem_filter] at hx
        exact ⟨hx.1, by simpa using hx.2⟩
      refine ⟨?_, ?_, ?_, (fun g => by cases g), (fun g => by cases g)⟩
      · intro g
        refine h1 (fun e => g ?_)
        show stale.filter (· ≠ k) = []
        rw [e]; rfl
      · exact fun x hx => h2 x (sub x hx).1
      · intro j hj x hx
        cases hj
        have := h3 k rfl x (sub x hx).1
        have := (sub x hx).2
        omega
    · rw [if_neg hk]
      have e : stale = [] := by
        cases stale with
        | nil => rfl
        | cons x r =>
          have := h3 k rfl x List.mem_cons_self
          have := h2 x List.mem_cons_self
          omega
      exact ⟨h1, h2, (fun _ g => by cases g), fun _ => e, (fun g => by cases g)⟩
  | clear =>
    have e := h4 rfl
    subst e
    exact ⟨fun g => absurd rfl g, h2, (fun _ g => by cases g), (fun g => by cases g), (fun g => by cases g)⟩
  | poll =>
    unfold MLoop.go
    dsimp only
    split <;> exact ⟨h1, h2, (fun _ g => by cases g), (fun g => by cases g), (fun g => by cases g)⟩
  | blocked => exact ⟨h1, h2, h3, h4, h5⟩
  | intr =>
    unfold MLoop.go
    dsimp only
    split <;> exact ⟨h1, h2, (fun _ g => by cases g), (fun g => by cases g), (fun g => by cases g)⟩
  | serve => exact ⟨h1, h2, (fun _ g => by cases g), (fun g => by cases g), (fun g => by cases g)⟩
  | ended => exact ⟨h1, h2, h3, h4, h5⟩

theorem HupInv.interrupt {n : Nat} {s : MLoop} (h : HupInv n s) : HupInv n s.interrupt := by
  unfold MLoop.interrupt
  by_cases hb : s.pc = .blocked
  · rw [if_pos hb]
    exact ⟨h.flag, h.below, (fun _ g => by cases g), (fun g => by cases g), (fun g => by cases g)⟩
  · rw [if_neg hb]; exact h

theorem HupInv.step {n : Nat} {s : MLoop} (h : HupInv n s) (x : MEv) (hx : x = .hup → s.pc.inPass = false) : HupInv n (s.step n x) := by
  cases x with
  | go => exact h.go
  | ready =>
    unfold MLoop.step
    dsimp only
    split
    · exact ⟨h.flag, h.below, (fun _ g => by cases g), (fun g => by cases g), (fun g => by cases g)⟩
    · exact ⟨h.flag, h.below, h.pass, h.clear, h.ended⟩
  | hup =>
    have hp := hx rfl
    refine HupInv.interrupt ⟨fun _ => rfl, fun x hx => List.mem_range.1 hx, ?_, ?_, h.ended⟩
    · intro k hk
      have hk : s.pc = .reopen k := hk
      rw [hk] at hp; cases hp
    · intro hk
      have hk : s.pc = .clear := hk
      rw [hk] at hp; cases hp
  | term => exact HupInv.interrupt ⟨h.flag, h.below, h.pass, h.clear, fun _ => rfl⟩
  | chld => exact h.interrupt

theorem calm_inv {n : Nat} {h : List MEv} (hc : MLoop.calm n h) : HupInv n (MLoop.run n {} h) := by
  have key : ∀ b a, h = a ++ b → HupInv n (MLoop.run n {} a) → HupInv n (MLoop.run n {} h) := by
    intro b
    induction b with
    | nil => intro a e i; rw [e, List.append_nil]; exact i
    | cons x b ih =>
      intro a e i
      refine ih (a ++ [x]) (by rw [e]; simp) ?_
      rw [MLoop.run_append]
      exact i.step x (fun g => hc a b (by rw [e, g]))
  exact key h [] rfl ⟨fun g => absurd rfl g, (fun _ g => by cases g), (fun _ g => by cases g), fun _ => rfl, (fun g => by cases g)⟩

/-- How many steps it takes to reopen the logs. -/
def MPc.toReopen (n : Nat) : MPc → Nat
  | .reopen k => (n - k) + 1
  | .reconf => n + 2
  | .top => n + 3
  | .serve => n + 4
  | .intr => n + 5
  | .poll => n + 5
  | .clear => 1
  | .blocked => 0
  | .ended => 0

/-- The loop is not going to be blocked before it looks at its flags. -/
def MLoop.awake (s : MLoop) : Prop := s.pc ≠ .blocked ∧ (s.pc = .poll → s.ready = true)

theorem reopen_run (n m : Nat) (s : MLoop) (h : HupInv n s) (hd : s.done = false) (ha : s.awake) (hm : s.pc.toReopen n ≤ m) :
    (s.run n (List.replicate m .go)).stale = [] := by
  have none : ∀ m (s : MLoop), s.stale = [] → (s.run n (List.replicate m .go)).stale = [] := by
    intro m
    induction m with
    | zero => exact fun _ g => g
    | succ m ih =>
      intro s g
      rw [List.replicate_succ]
      refine ih _ ?_
      show (s.go n).stale = []
      unfold MLoop.go
      split <;> (try split) <;> first | exact g | (show s.stale.filter _ = []; rw [g]; rfl)
  induction m generalizing s with
  | zero =>
    cases hp : s.pc with
    | ended => rw [h.ended hp] at hd; cases hd
    | blocked => exact absurd hp ha.1
    | _ => rw [hp] at hm; exact absurd hm (by simp only [MPc.toReopen]; omega)
  | succ m ih =>
    by_cases hs : s.stale = []
    · exact none (m + 1) s hs
    · have hr := h.flag hs
      have g := h.go
      rw [List.replicate_succ]
      refine ih (s.go n) g ((go_done n s).trans hd) ?_ ?_
      · obtain ⟨pc, done, reconfig, ready, stale⟩ := s
        dsimp only at hd hr hm
        subst hd; subst hr
        cases pc with
        | poll =>
          have hready : ready = true := ha.2 rfl
          subst hready
          exact ⟨(by intro g; cases g), (by intro g; cases g)⟩
        | reopen k =>
          unfold MLoop.go
          dsimp only
          split <;> exact ⟨(by intro g; cases g), (by intro g; cases g)⟩
        | clear => exact absurd (h.clear rfl) hs
        | blocked => exact absurd rfl ha.1
        | ended => exact absurd (h.ended rfl) (by intro g; cases g)
        | _ => exact ⟨(by intro g; cases g), (by intro g; cases g)⟩
      · obtain ⟨pc, done, reconfig, ready, stale⟩ := s
        dsimp only at hd hr hm
        subst hd; subst hr
        cases pc with
        | poll =>
          have hready : ready = true := ha.2 rfl
          subst hready
          have hm : n + 5 ≤ m + 1 := hm
          show n + 4 ≤ m
          omega
        | reopen k =>
          have hm : (n - k) + 1 ≤ m + 1 := hm
          unfold MLoop.go
          dsimp only
          by_cases hk : k < n
          · rw [if_pos hk]; show (n - (k + 1)) + 1 ≤ m; omega
          · exfalso
            cases stale with
            | nil => exact hs rfl
            | cons x r =>
              have := h.pass k rfl x List.mem_cons_self
              have := h.below x List.mem_cons_self
              omega
        | clear => exact absurd (h.clear rfl) hs
        | blocked => exact absurd rfl ha.1
        | ended => exact absurd (h.ended rfl) (by intro g; cases g)
        | top => have hm : n + 3 ≤ m + 1 := hm; show n + 2 ≤ m; omega
        | reconf => have hm : n + 2 ≤ m + 1 := hm; show (n - 0) + 1 ≤ m; omega
        | serve => have hm : n + 4 ≤ m + 1 := hm; show n + 3 ≤ m; omega
        | intr => have hm : n + 5 ≤ m + 1 := hm; show n + 4 ≤ m; omega

/-- C75.  After SIGHUP all logs are reopened as soon as a descriptor gets ready (unless the daemon ends), if no SIGHUP came while the logs were being reopened because of
an earlier one. -/
theorem C75_hup_partial (n : Nat) (h : List MEv) (hc : MLoop.calm n h) (hd : (MLoop.run n {} h).done = false) :
    (MLoop.run n {} (h ++ [.ready] ++ List.replicate (n + 5) .go)).stale = [] := by
  have i := calm_inv hc
  rw [MLoop.run_append, MLoop.run_append]
  generalize MLoop.run n {} h = s at i hd
  have i' : HupInv n (s.step n .ready) := i.step .ready (fun g => by cases g)
  show ((s.step n .ready).run n (List.replicate (n + 5) .go)).stale = []
  refine reopen_run n (n + 5) _ i' ?_ ?_ ?_
  · unfold MLoop.step; dsimp only; split <;> exact hd
  · unfold MLoop.step
    dsimp only
    by_cases hb : s.pc = .blocked
    · rw [if_pos hb]; exact ⟨(by intro g; cases g), (by intro g; cases g)⟩
    · rw [if_neg hb]; exact ⟨hb, fun _ => rfl⟩
  · generalize (s.step n .ready).pc = p
    cases p <;> (simp only [MPc.toReopen]; omega)

/-- A SIGHUP while the daemon waits, and one between two rounds. -/
example : MLoop.calm 3 [.go, .go, .hup, .go, .hup] ∧ (MLoop.run 3 {} [.go, .go, .hup, .go, .hup]).stale = [0, 1, 2] := by
  refine ⟨?_, by decide +kernel⟩
  intro a b e
  match a, e with
  | [], e => cases e
  | [_], e => cases e
  | [_, _], e => cases e; decide +kernel
  | [_, _, _], e => cases e
  | [_, _, _, _], e => cases e; decide +kernel
  | _ :: _ :: _ :: _ :: _ :: _, e => simp at e

/-- C75 is false of a SIGHUP that comes while the logs are being reopened because of an earlier one: the flag is cleared afterwards, and logs that had been reopened
before are not reopened again, whatever happens (unless there is another SIGHUP). -/
theorem C75_hup_lost : ∃ h, ∀ h', .hup ∉ h' → 0 ∈ (MLoop.run 2 {} (h ++ h')).stale := by
  refine ⟨[.hup, .go, .go, .go, .hup, .go, .go, .go], ?_⟩
  intro h' hn
  rw [MLoop.run_append]
  have key : ∀ (h' : List MEv) (s : MLoop), .hup ∉ h' → s.reconfig = false → s.pc.inPass = false → 0 ∈ s.stale → 0 ∈ (s.run 2 h').stale := by
    intro h'
    induction h' with
    | nil => exact fun _ _ _ _ g => g
    | cons x h' ih =>
      intro s hn hr hp hs
      have hn' : .hup ∉ h' := fun g => hn (List.mem_cons_of_mem _ g)
      have int : ∀ s : MLoop, s.reconfig = false → s.pc.inPass = false → 0 ∈ s.stale → 0 ∈ (s.interrupt.run 2 h').stale := by
        intro s hr hp hs
        obtain ⟨_, i2, _, i4, i5, _⟩ := interrupt_fields s
        refine ih _ hn' (i2.trans hr) ?_ (by rw [i4]; exact hs)
        rcases i5 with e | e
        · rw [e]; exact hp
        · rw [e]; rfl
      cases x with
      | hup => exact absurd List.mem_cons_self hn
      | term => exact int { s with done := true } hr hp hs
      | chld => exact int s hr hp hs
      | ready =>
        show 0 ∈ ((s.step 2 .ready).run 2 h').stale
        unfold MLoop.step
        dsimp only
        split
        · exact ih _ hn' hr rfl hs
        · exact ih _ hn' hr hp hs
      | go =>
        show 0 ∈ ((s.go 2).run 2 h').stale
        obtain ⟨pc, done, reconfig, ready, stale⟩ := s
        dsimp only at hr hp hs
        subst hr
        cases pc with
        | reopen k => cases hp
        | clear => cases hp
        | top => cases done <;> exact ih _ hn' rfl rfl hs
        | reconf => exact ih _ hn' rfl rfl hs
        | poll => cases ready <;> exact ih _ hn' rfl rfl hs
        | blocked => exact ih _ hn' rfl rfl hs
        | intr => cases done <;> exact ih _ hn' rfl rfl hs
        | serve => exact ih _ hn' rfl rfl hs
        | ended => exact ih _ hn' rfl rfl hs
  exact key h' _ hn rfl rfl (by decide +kernel)

/-! ### C76 -/

/-- Something was reported of the object. -/
def MState.any (s : MState) (id : Nat) : Bool := (s.rev id).rd || (s.rev id).wr

/-- Serving an object makes no other descriptor ready (what is reported changes only by `poll`). -/
def MHandlers.quiet (hd : MHandlers) : Prop :=
  ∀ id s j, ((hd.read id s).1.any j = true → s.any j = true) ∧ ((hd.write id s).1.any j = true → s.any j = true)

theorem isSet_rev (s : MState) (id : Nat) : isSet s id = s.rev id := rfl

theorem filter_any_le {s t : MState} (h : ∀ j, t.any j = true → s.any j = true) (os : List Nat) : (os.filter t.any).length ≤ (os.filter s.any).length := by
  induction os with
  | nil => exact Nat.le_refl _
  | cons o os ih =>
    rw [List.filter_cons, List.filter_cons]
    by_cases g : t.any o = true
    · rw [if_pos g, if_pos (h o g)]
      simp only [List.length_cons]; omega
    · rw [if_neg g]
      split
      · simp only [List.length_cons]; omega
      · exact ih

theorem serveAll_none (hd : MHandlers) (s : MState) (os : List Nat) (h : os.filter s.any = []) : Spec.serveAll hd s os = ([], os) := by
  induction os with
  | nil => rfl
  | cons o os ih =>
    rw [List.filter_cons] at h
    split at h
    · cases h
    · rename_i g
      have g : s.any o = false := by cases e : s.any o with
        | true => exact absurd e g
        | false => rfl
      unfold MState.any at g
      rw [Bool.or_eq_false_iff] at g
      unfold Spec.serveAll
      dsimp only
      rw [g.1, g.2]
      simp only [Bool.false_and]
      show ([] ++ [] ++ (Spec.serveAll hd s os).1, o :: (Spec.serveAll hd s os).2) = _
      rw [ih h]
      rfl

/-- C76.  The counter of the loop is only a short cut: every object gets its turn and is served if something was reported of it, however many objects are ready. -/
theorem C76_all (hd : MHandlers) (hq : hd.quiet) (n : Nat) (s : MState) (os : List Nat) (hn : (os.filter s.any).length ≤ n) : serveObjs hd n s os = Spec.serveAll hd s os := by
  induction os generalizing n s with
  | nil => cases n <;> rfl
  | cons o os ih =>
    cases n with
    | zero =>
      rw [serveAll_none hd s _ (List.length_eq_zero_iff.1 (Nat.le_zero.1 hn))]
      rfl
    | succ n =>
      unfold serveObjs Spec.serveAll
      dsimp only
      rw [isSet_rev]
      -- what is left to be served fits the counter
      have cnt : ∀ t : MState, (∀ j, t.any j = true → s.any j = true) → (os.filter t.any).length ≤ (if (s.rev o).rd || (s.rev o).wr then n else n + 1) := by
        intro t ht
        refine Nat.le_trans (filter_any_le ht os) ?_
        rw [List.filter_cons] at hn
        show _ ≤ if s.any o = true then n else n + 1
        split at hn
        · rename_i g
          rw [if_pos g]
          simp only [List.length_cons] at hn
          omega
        · rename_i g
          rw [if_neg g]
          exact hn
      generalize hn' : (if (s.rev o).rd || (s.rev o).wr then n else n + 1) = n' at cnt
      cases hr : (s.rev o).rd with
      | true =>
        simp only [if_true]
        have q1 : ∀ j, (hd.read o s).1.any j = true → s.any j = true := fun j => (hq o s j).1
        cases hk : (hd.read o s).2 with
        | false =>
          rw [if_pos rfl, Bool.and_false]
          simp only [Bool.false_eq_true, if_false]
          rw [hk, ih n' _ (cnt _ q1)]
          rfl
        | true =>
          rw [if_neg (by decide), Bool.and_true]
          cases hw : (s.rev o).wr with
          | true =>
            simp only [if_true]
            rw [ih n' _ (cnt _ (fun j g => q1 j ((hq o _ j).2 g)))]
          | false =>
            simp only [Bool.false_eq_true, if_false]
            rw [ih n' _ (cnt _ q1), hk]
            rfl
      | false =>
        simp only [Bool.false_eq_true, if_false]
        rw [if_neg (by decide), Bool.and_true]
        cases hw : (s.rev o).wr with
        | true =>
          simp only [if_true]
          rw [ih n' _ (cnt _ (fun j => (hq o s j).2))]
        | false =>
          simp only [Bool.false_eq_true, if_false]
          rw [ih n' _ (cnt _ (fun j g => g))]

/-- The number of descriptors of which something is reported: what `poll` returns. -/
def MState.count (s : MState) (m : Nat) : Nat := ((List.range m).filter fun fd => (s.table fd).rd || (s.table fd).wr).length

/-- C76.  What `poll` returns is large enough for that: objects have different descriptors. -/
theorem C76_count (s : MState) (m : Nat) (os : List Nat) (hnd : os.Nodup) (hlt : ∀ o ∈ os, ∀ fd, s.fd o = some fd → fd < m)
    (hinj : ∀ o ∈ os, ∀ o' ∈ os, ∀ fd, s.fd o = some fd → s.fd o' = some fd → o = o') : (os.filter s.any).length ≤ s.count m := by
  have key : ∀ (os : List Nat) (L : List Nat), os.Nodup → (∀ o ∈ os, s.any o = true → ∃ fd ∈ L, s.fd o = some fd) →
      (∀ o ∈ os, ∀ o' ∈ os, ∀ fd, s.fd o = some fd → s.fd o' = some fd → o = o') → (os.filter s.any).length ≤ L.length := by
    intro os
    induction os with
    | nil => intro L _ _ _; exact Nat.zero_le _
    | cons o os ih =>
      intro L hnd hL hinj
      rw [List.nodup_cons] at hnd
      rw [List.filter_cons]
      have hinj' : ∀ x ∈ os, ∀ y ∈ os, ∀ fd, s.fd x = some fd → s.fd y = some fd → x = y :=
        fun x hx y hy => hinj x (List.mem_cons_of_mem _ hx) y (List.mem_cons_of_mem _ hy)
      split
      · rename_i g
        obtain ⟨fd, hfd, e⟩ := hL o List.mem_cons_self g
        have := ih (L.erase fd) hnd.2 (by
          intro x hx gx
          obtain ⟨fd', hfd', e'⟩ := hL x (List.mem_cons_of_mem _ hx) gx
          refine ⟨fd', ?_, e'⟩
          have hne : fd' ≠ fd := by
            intro g
            subst g
            have := hinj o List.mem_cons_self x (List.mem_cons_of_mem _ hx) fd' e e'
            subst this
            exact hnd.1 hx
          exact (List.mem_erase_of_ne hne).2 hfd') hinj'
        rw [List.length_erase_of_mem hfd] at this
        have : 0 < L.length := List.length_pos_of_mem hfd
        simp only [List.length_cons]
        omega
      · exact ih L hnd.2 (fun x hx => hL x (List.mem_cons_of_mem _ hx)) hinj'
  refine key os _ hnd ?_ hinj
  intro o ho ha
  unfold MState.any MState.rev at ha
  cases e : s.fd o with
  | none => rw [e] at ha; cases ha
  | some fd =>
    rw [e] at ha
    exact ⟨fd, List.mem_filter.2 ⟨List.mem_range.2 (hlt o ho fd e), ha⟩, rfl⟩

/-- C76.  If serving an object does not change what was reported of others, then exactly those objects are read that have something to read, and those written that can
be written, in the order of the list and once each. -/
theorem C76_each (hd : MHandlers) (ho : ∀ id s j, j ≠ id → (hd.read id s).1.rev j = s.rev j ∧ (hd.write id s).1.rev j = s.rev j) (s : MState) (os : List Nat) (hnd : os.Nodup) :
    (Spec.serveAll hd s os).1.filterMap (fun x => match x with | .read i => some i | .write _ => none) = os.filter (fun o => (s.rev o).rd) ∧
    (∀ o, .write o ∈ (Spec.serveAll hd s os).1 → (s.rev o).wr = true) ∧
    (∀ o ∈ os, (s.rev o).wr = true → (s.rev o).rd = false → .write o ∈ (Spec.serveAll hd s os).1) := by
  have congr : ∀ (os : List Nat) (s t : MState), (∀ o ∈ os, t.rev o = s.rev o) →
      os.filter (fun o => (t.rev o).rd) = os.filter (fun o => (s.rev o).rd) := by
    intro os s t h
    exact List.filter_congr (fun o ho => by rw [h o ho])
  induction os generalizing s with
  | nil => exact ⟨rfl, (fun o h => by cases h), (fun o h => by cases h)⟩
  | cons o os ih =>
    rw [List.nodup_cons] at hnd
    unfold Spec.serveAll
    dsimp only
    generalize ha : (if (s.rev o).rd then hd.read o s else (s, true)) = a
    generalize hb : (if (s.rev o).wr && a.2 then hd.write o a.1 else a) = b
    have ra : ∀ j, j ≠ o → a.1.rev j = s.rev j := by
      intro j hj
      rw [← ha]
      split
      · exact (ho o s j hj).1
      · rfl
    have rb : ∀ j, j ≠ o → b.1.rev j = s.rev j := by
      intro j hj
      rw [← hb]
      split
      · rw [(ho o a.1 j hj).2, ra j hj]
      · exact ra j hj
    have ne : ∀ j ∈ os, j ≠ o := fun j hj g => hnd.1 (g ▸ hj)
    obtain ⟨i1, i2, i3⟩ := ih b.1 hnd.2
    refine ⟨?_, ?_, ?_⟩
    · rw [List.filterMap_append, List.filterMap_append, i1, congr os s b.1 (fun j hj => rb j (ne j hj)), List.filter_cons]
      cases hr : (s.rev o).rd <;> cases hw : ((s.rev o).wr && a.2) <;> rfl
    · intro j hj
      rw [List.mem_append, List.mem_append] at hj
      rcases hj with (hj | hj) | hj
      · split at hj
        · simp at hj
        · cases hj
      · split at hj
        · rename_i g
          rw [Bool.and_eq_true] at g
          simp only [List.mem_singleton, Served.write.injEq] at hj
          rw [hj]; exact g.1
        · cases hj
      · by_cases e : j = o
        · -- not served again
          exfalso
          subst e
          have nomem : ∀ (os : List Nat) (s : MState) (j : Nat), j ∉ os → .write j ∉ (Spec.serveAll hd s os).1 := by
            intro os
            induction os with
            | nil => intro s j _ h; cases h
            | cons x os ih =>
              intro s j hj h
              unfold Spec.serveAll at h
              dsimp only at h
              generalize (if (s.rev x).rd = true then hd.read x s else (s, true)) = a at h
              generalize (if ((s.rev x).wr && a.2) = true then hd.write x a.1 else a) = b at h
              rw [List.mem_append, List.mem_append] at h
              rcases h with (h | h) | h
              · split at h
                · simp at h
                · cases h
              · split at h
                · simp only [List.mem_singleton, Served.write.injEq] at h
                  exact hj (by rw [h]; exact List.mem_cons_self)
                · cases h
              · exact ih _ j (fun g => hj (List.mem_cons_of_mem _ g)) h
          exact nomem os b.1 j hnd.1 hj
        · rw [← rb j e]; exact i2 j hj
    · intro j hj hw hr
      rcases List.mem_cons.1 hj with e | e
      · subst e
        have : a = (s, true) := by rw [← ha, hr]; rfl
        rw [this, hw]
        simp
      · have hne := ne j e
        rw [List.mem_append]
        right
        exact i3 j e (by rw [rb j hne]; exact hw) (by rw [rb j hne]; exact hr)

/-- Three objects, of which one has no descriptor, one has been closed by the other end, and one has something to read and can be written. -/
example : let s : MState := { table := fun fd => if fd = 5 then { rd := true } else if fd = 7 then { rd := true, wr := true } else {}, fd := fun o => if o = 1 then none else some (o + 3) }
    let hd : MHandlers := { read := fun id s => (s, id ≠ 2), write := fun _ s => (s, true) }
    hd.quiet ∧ (∀ id s j, j ≠ id → (hd.read id s).1.rev j = s.rev j ∧ (hd.write id s).1.rev j = s.rev j) ∧ s.count 10 = 2 ∧ serveObjs hd 2 s [1, 2, 4] = ([.read 2, .read 4, .write 4], [1, 4]) := by
  refine ⟨?_, ?_, by decide +kernel, by decide +kernel⟩
  · intro id s j; exact ⟨fun g => g, fun g => g⟩
  · intro id s j _; exact ⟨rfl, rfl⟩

/-! ### C77 -/

/-- C77.  When a client connects the daemon ends exactly if there is no descriptor (or another unusual error), or no thread. -/
theorem C77_accept (thread : Bool) (r : List AcceptRes) :
    acceptClient thread r = some .exit ↔ ∃ a b, r = a ++ b ∧ (∀ x ∈ a, x = .eintr) ∧ (b.head? = some .error ∨ b.head? = some .fd ∧ thread = false) := by
  induction r with
  | nil =>
    constructor
    · intro h; cases h
    · rintro ⟨a, b, e, _, h⟩
      have := List.append_eq_nil_iff.1 e.symm
      rw [this.2] at h
      rcases h with h | ⟨h, _⟩ <;> cases h
  | cons x r ih =>
    cases x with
    | eintr =>
      rw [acceptClient, ih]
      constructor
      · rintro ⟨a, b, e, ha, h⟩
        refine ⟨.eintr :: a, b, by rw [e]; rfl, ?_, h⟩
        intro y hy
        rcases List.mem_cons.1 hy with e | e
        · exact e
        · exact ha y e
      · rintro ⟨a, b, e, ha, h⟩
        cases a with
        | nil =>
          rw [List.nil_append] at e
          rw [← e] at h
          rcases h with h | ⟨h, _⟩ <;> cases h
        | cons y a =>
          cases e
          exact ⟨a, b, rfl, fun z hz => ha z (List.mem_cons_of_mem _ hz), h⟩
    | eagain =>
      rw [acceptClient]
      constructor
      · intro h
        cases h
      · rintro ⟨a, b, e, ha, h⟩
        cases a with
        | nil =>
          rw [List.nil_append] at e
          rw [← e] at h
          exact h.elim (fun h => by cases h) (fun h => by cases h.1)
        | cons y a =>
          cases e
          have := ha _ List.mem_cons_self
          cases this
    | econnaborted =>
      rw [acceptClient]
      constructor
      · intro h
        cases h
      · rintro ⟨a, b, e, ha, h⟩
        cases a with
        | nil =>
          rw [List.nil_append] at e
          rw [← e] at h
          exact h.elim (fun h => by cases h) (fun h => by cases h.1)
        | cons y a =>
          cases e
          have := ha _ List.mem_cons_self
          cases this
    | error =>
      rw [acceptClient]
      constructor
      · intro h
        exact ⟨[], _, rfl, (fun _ g => by cases g), Or.inl rfl⟩
      · rintro ⟨a, b, e, ha, h⟩
        cases a with
        | nil => rfl
        | cons y a =>
          cases e
          have := ha _ List.mem_cons_self
          cases this
    | fd =>
      rw [acceptClient]
      constructor
      · intro h
        exact ⟨[], _, rfl, (fun _ g => by cases g), Or.inr ⟨rfl, by cases thread with | false => rfl | true => cases h⟩⟩
      · rintro ⟨a, b, e, ha, h⟩
        cases a with
        | nil =>
          rw [List.nil_append] at e
          rw [← e] at h
          exact h.elim (fun h => by cases h) (fun h => by rw [h.2]; rfl)
        | cons y a =>
          cases e
          have := ha _ List.mem_cons_self
          cases this

/-- C77.  The daemon is up as long as there are not more connections than descriptors. -/
theorem C77_up_partial (limit used : Nat) (h : List DoorEv) (hc : used + (h.filter (· = .connect)).length ≤ limit) : (Door.run { limit := limit, used := used } h).up = true := by
  have key : ∀ (h : List DoorEv) (d : Door), d.up = true → d.used + d.waiting + (h.filter (· = .connect)).length ≤ d.limit → (d.run h).up = true := by
    intro h
    induction h with
    | nil => exact fun _ g _ => g
    | cons x h ih =>
      intro d hu hl
      show ((d.step x).run h).up = true
      rw [List.filter_cons] at hl
      cases x with
      | connect =>
        rw [if_pos (by decide)] at hl
        simp only [List.length_cons] at hl
        have : d.step .connect = { d with waiting := d.waiting + 1 } := by
          unfold Door.step
          dsimp only
          rw [if_pos hu, if_pos (by omega)]
          rfl
        rw [this]
        exact ih _ hu (by show d.used + (d.waiting + 1) + _ ≤ d.limit; omega)
      | hangup =>
        rw [if_neg (by decide)] at hl
        exact ih _ hu (by show d.used + (d.waiting - 1) + _ ≤ d.limit; omega)
  exact key h _ rfl (by simpa using hc)

example : 20 + (([.connect, .connect, .hangup, .connect] : List DoorEv).filter (· = .connect)).length ≤ 1024 := by decide +kernel

/-- C77 is false: whatever the limit of descriptors is, clients that connect and send nothing end the daemon. -/
theorem C77_exhausted (limit used : Nat) : (Door.run { limit := limit, used := used } (List.replicate (limit - used + 1) .connect)).up = false := by
  have down : ∀ m (d : Door), d.up = false → (d.run (List.replicate m .connect)).up = false := by
    intro m
    induction m with
    | zero => exact fun _ g => g
    | succ m ih =>
      intro d g
      rw [List.replicate_succ]
      refine ih _ ?_
      show (d.step .connect).up = false
      unfold Door.step
      dsimp only
      rw [if_neg (by rw [g]; decide)]
      exact g
  have key : ∀ m (d : Door), d.limit ≤ d.used + d.waiting + m → (d.run (List.replicate (m + 1) .connect)).up = false := by
    intro m
    induction m with
    | zero =>
      intro d hd
      by_cases hu : d.up = true
      · show (d.step .connect).up = false
        unfold Door.step
        dsimp only
        rw [if_pos hu, if_neg (by omega)]
        rfl
      · exact down 1 d (by cases e : d.up with | true => exact absurd e hu | false => rfl)
    | succ m ih =>
      intro d hd
      by_cases hu : d.up = true
      · rw [List.replicate_succ]
        show ((d.step .connect).run (List.replicate (m + 1) .connect)).up = false
        by_cases hl : d.used + d.waiting < d.limit
        · have : d.step .connect = { d with waiting := d.waiting + 1 } := by
            unfold Door.step
            dsimp only
            rw [if_pos hu, if_pos hl]
            rfl
          rw [this]
          exact ih _ (by show d.limit ≤ d.used + (d.waiting + 1) + m; omega)
        · have : d.step .connect = { d with up := false } := by
            unfold Door.step
            dsimp only
            rw [if_pos hu, if_neg hl]
            rfl
          rw [this]
          exact down _ _ rfl
      · exact down _ d (by cases e : d.up with | true => exact absurd e hu | false => rfl)
  exact key _ _ (by show limit ≤ used + 0 + (limit - used); omega)

end Conman
