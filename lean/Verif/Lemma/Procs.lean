import Verif.Spec.Procs

/-
Lemmas for C97.
-/
namespace Conman
open Spec

theorem Procs.run_append (s : Procs) (a b : List PEvent) : s.run (a ++ b) = (s.run a).run b := by
  induction a generalizing s with
  | nil => rfl
  | cons e a ih => exact ih _

theorem Procs.free_iff {s : Procs} {pid : Nat} : s.free pid = true ↔ pid ≠ 0 ∧ ∀ p ∈ s.ps, p.pid ≠ pid ∧ p.pgid ≠ pid := by
  unfold Procs.free
  simp

/-- What is noted is known to belong to the command it was noted for. -/
structure PInv (s : Procs) : Prop where
  rs : ∀ con p r, s.reset con = some (p, r) → ∀ q ∈ s.ps, (q.pid = p ∨ q.pgid = p) → q.own = .reset con r
  pr : ∀ con p r, s.prog con = some (p, r) → ∀ q ∈ s.ps, q.pid = p → q.own = .program con r
  kl : ∀ x ∈ s.killed, KilledOwn x
  dm : ∃ p ∈ s.ps, p.own = .daemon

theorem PInv.home {s : Procs} (h : PInv s) : ∃ p ∈ s.ps, p.own = .daemon ∧ p.pgid = s.home := by
  obtain ⟨p, hp, hd⟩ := h.dm
  unfold Procs.home
  cases hf : s.ps.find? fun p => p.own = .daemon with
  | none => exact absurd (by simpa using hd) (List.find?_eq_none.1 hf p hp)
  | some q => exact ⟨q, List.mem_of_find?_eq_some hf, by simpa using List.find?_some hf, rfl⟩

theorem PInv.add {s : Procs} (h : PInv s) {n : Proc} (hr : ∀ con p r, s.reset con = some (p, r) → (n.pid = p ∨ n.pgid = p) → n.own = .reset con r)
    (hp : ∀ con p r, s.prog con = some (p, r) → n.pid = p → n.own = .program con r) (k : Nat) : PInv { s with ps := s.ps ++ [n], runs := k } where
  rs := by
    intro con p r hc q hq he
    rcases List.mem_append.1 hq with hq | hq
    · exact h.rs con p r hc q hq he
    · obtain rfl := List.mem_singleton.1 hq
      exact hr con p r hc he
  pr := by
    intro con p r hc q hq he
    rcases List.mem_append.1 hq with hq | hq
    · exact h.pr con p r hc q hq he
    · obtain rfl := List.mem_singleton.1 hq
      exact hp con p r hc he
  kl := h.kl
  dm := by obtain ⟨p, hp, hd⟩ := h.dm; exact ⟨p, List.mem_append_left _ hp, hd⟩

theorem PInv.step {s : Procs} (h : PInv s) (e : PEvent) (hn : ∀ pid, e.newPid = some pid → Unnoted s pid) : PInv (s.step e) := by
  cases e with
  | reset con pid =>
    have hn := hn pid rfl
    simp only [Procs.step]
    split
    · exact h
    · rename_i hc
      have hf : s.free pid = true := by cases hg : s.free pid with | true => rfl | false => simp [hg] at hc
      rw [Procs.free_iff] at hf
      have h1 := h.add (n := ⟨pid, pid, .reset con s.runs⟩) (fun c p r hc he => by
        have := (hn c r).1
        rcases he with rfl | rfl <;> exact absurd hc this) (fun c p r hc he => by cases he; exact absurd hc (hn c r).2) (s.runs + 1)
      refine ⟨?_, h1.pr, h1.kl, h1.dm⟩
      intro c p r hc q hq he
      dsimp only at hc hq
      by_cases hcc : c = con
      · rw [if_pos hcc] at hc
        cases hc
        rcases List.mem_append.1 hq with hq | hq
        · have := hf.2 q hq
          rcases he with he | he
          · exact absurd he this.1
          · exact absurd he this.2
        · obtain rfl := List.mem_singleton.1 hq
          rw [hcc]
      · rw [if_neg hcc] at hc
        exact h1.rs c p r hc q hq he
  | «open» con pid =>
    have hn := hn pid rfl
    simp only [Procs.step]
    split
    · exact h
    · rename_i hc
      have hf : s.free pid = true := by cases hg : s.free pid with | true => rfl | false => simp [hg] at hc
      rw [Procs.free_iff] at hf
      obtain ⟨d, hd, hd1, hd2⟩ := h.home
      have h1 := h.add (n := ⟨pid, s.home, .program con s.runs⟩) (fun c p r hc he => by
        rcases he with rfl | rfl
        · exact absurd hc (hn c r).1
        · have := h.rs c _ r hc d hd (Or.inr hd2)
          rw [hd1] at this; cases this) (fun c p r hc he => by cases he; exact absurd hc (hn c r).2) (s.runs + 1)
      refine ⟨h1.rs, ?_, h1.kl, h1.dm⟩
      intro c p r hc q hq he
      dsimp only at hc hq
      by_cases hcc : c = con
      · rw [if_pos hcc] at hc
        cases hc
        rcases List.mem_append.1 hq with hq | hq
        · exact absurd he (hf.2 q hq).1
        · obtain rfl := List.mem_singleton.1 hq
          rw [hcc]
      · rw [if_neg hcc] at hc
        exact h1.pr c p r hc q hq he
  | fork q pid =>
    have hn := hn pid rfl
    simp only [Procs.step]
    split
    · rename_i p hp
      have hm := List.mem_of_find?_eq_some hp
      split
      · exact h
      · refine h.add (n := ⟨pid, p.pgid, p.own⟩) (fun c p' r hc he => ?_) (fun c p' r hc he => by cases he; exact absurd hc (hn c r).2) s.runs
        rcases he with he | he
        · cases he; exact absurd hc (hn c r).1
        · exact h.rs c p' r hc p hm (Or.inr he)
    · exact h
  | group q =>
    simp only [Procs.step]
    refine ⟨?_, ?_, h.kl, ?_⟩
    · intro c p r hc x hx he
      obtain ⟨y, hy, rfl⟩ := List.mem_map.1 hx
      split at he
      · rename_i hq
        rw [if_pos hq]
        refine h.rs c p r hc y hy (Or.inl ?_)
        rcases he with he | he
        · exact he
        · exact hq.1.trans he
      · rename_i hq
        rw [if_neg hq]
        exact h.rs c p r hc y hy he
    · intro c p r hc x hx he
      obtain ⟨y, hy, rfl⟩ := List.mem_map.1 hx
      split at he
      · rename_i hq
        rw [if_pos hq]
        exact h.pr c p r hc y hy he
      · rename_i hq
        rw [if_neg hq]
        exact h.pr c p r hc y hy he
    · obtain ⟨p, hp, hd⟩ := h.dm
      refine ⟨_, List.mem_map.2 ⟨p, hp, rfl⟩, ?_⟩
      rw [if_neg (by rw [hd]; simp)]
      exact hd
  | spawn pid =>
    have hn := hn pid rfl
    simp only [Procs.step]
    split
    · refine h.add (n := ⟨pid, pid, .other⟩) (fun c p r hc he => ?_) (fun c p r hc he => by cases he; exact absurd hc (hn c r).2) s.runs
      have := (hn c r).1
      rcases he with rfl | rfl <;> exact absurd hc this
    · exact h
  | exit q =>
    simp only [Procs.step]
    refine ⟨fun c p r hc x hx he => h.rs c p r hc x (List.mem_filter.1 hx).1 he, fun c p r hc x hx he => h.pr c p r hc x (List.mem_filter.1 hx).1 he, h.kl, ?_⟩
    obtain ⟨p, hp, hd⟩ := h.dm
    exact ⟨p, List.mem_filter.2 ⟨hp, by simp [hd]⟩, hd⟩
  | timer con =>
    simp only [Procs.step, Procs.killReset]
    cases hc : s.reset con with
    | none => exact h
    | some x =>
      obtain ⟨pid, run⟩ := x
      have hsub : ∀ c p r, (if c = con then none else s.reset c) = some (p, r) → s.reset c = some (p, r) := by
        intro c p r hr
        split at hr
        · cases hr
        · exact hr
      dsimp only
      split
      · exact ⟨fun c p r hr => h.rs c p r (hsub c p r hr), h.pr, h.kl, h.dm⟩
      · refine ⟨fun c p r hr q hq he => h.rs c p r (hsub c p r hr) q (List.mem_filter.1 hq).1 he, fun c p r hr q hq he => h.pr c p r hr q (List.mem_filter.1 hq).1 he, ?_, ?_⟩
        · intro x hx
          rcases List.mem_append.1 hx with hx | hx
          · exact h.kl x hx
          · obtain ⟨p, hp, rfl⟩ := List.mem_map.1 hx
            obtain ⟨hp, he⟩ := List.mem_filter.1 hp
            exact h.rs con pid run hc p hp (Or.inr (by simpa using he))
        · obtain ⟨p, hp, hd⟩ := h.dm
          refine ⟨p, List.mem_filter.2 ⟨hp, ?_⟩, hd⟩
          apply Decidable.by_contra
          intro hne
          have := h.rs con pid run hc p hp (Or.inr (by simpa using hne))
          rw [hd] at this; cases this
  | close con =>
    simp only [Procs.step, Procs.close]
    cases hc : s.prog con with
    | none => exact h
    | some x =>
      obtain ⟨pid, run⟩ := x
      have hsub : ∀ c p r, (if c = con then none else s.prog c) = some (p, r) → s.prog c = some (p, r) := by
        intro c p r hr
        split at hr
        · cases hr
        · exact hr
      dsimp only
      refine ⟨fun c p r hr q hq he => h.rs c p r hr q (List.mem_filter.1 hq).1 he, fun c p r hr q hq he => h.pr c p r (hsub c p r hr) q (List.mem_filter.1 hq).1 he, ?_, ?_⟩
      · intro x hx
        rcases List.mem_append.1 hx with hx | hx
        · exact h.kl x hx
        · obtain ⟨p, hp, rfl⟩ := List.mem_map.1 hx
          obtain ⟨hp, he⟩ := List.mem_filter.1 hp
          exact h.pr con pid run hc p hp (by simpa using he)
      · obtain ⟨p, hp, hd⟩ := h.dm
        refine ⟨p, List.mem_filter.2 ⟨hp, ?_⟩, hd⟩
        apply Decidable.by_contra
        intro hne
        have := h.pr con pid run hc p hp (by simpa using hne)
        rw [hd] at this; cases this
  | stop =>
    simp only [Procs.step]
    split
    · exact ⟨h.rs, h.pr, h.kl, h.dm⟩
    · exact h

theorem PInv.run (es : List PEvent) : ∀ {s : Procs}, PInv s → NoReuse s es → PInv (s.run es) := by
  induction es with
  | nil => intro s h _; exact h
  | cons e es ih => intro s h hn; exact ih (h.step e hn.1) hn.2

theorem PInv.start (d g : Nat) (bg : Bool) (others : List Proc) : PInv (Procs.start d g bg others) where
  rs := by intro con p r h; cases h
  pr := by intro con p r h; cases h
  kl := by intro x hx; cases hx
  dm := ⟨_, List.mem_cons_self, rfl⟩

/-! ### Groups -/

/-- While no process changes its group: a process of the reset command that is noted is in its group, one of a program in the group of the daemon. -/
structure GInv (g : Nat) (s : Procs) : Prop where
  rs : ∀ con p r, s.reset con = some (p, r) → ∀ q ∈ s.ps, q.own = .reset con r → q.pgid = p
  pr : ∀ con r, ∀ q ∈ s.ps, q.own = .program con r → q.pgid = g
  dm : ∀ q ∈ s.ps, q.own = .daemon → q.pgid = g
  runs : ∀ con r, ∀ q ∈ s.ps, q.own = .reset con r → r < s.runs
  pg : s.pgid = none ∨ s.pgid = some g

theorem GInv.step {g : Nat} {s : Procs} (i : PInv s) (h : GInv g s) (e : PEvent) (he : ∀ q, e ≠ .group q) : GInv g (s.step e) := by
  have hfil : ∀ (P : Proc → Bool) (s' : Procs), s'.ps = s.ps.filter P → (∀ c p r, s'.reset c = some (p, r) → s.reset c = some (p, r)) → s'.runs = s.runs → s'.pgid = s.pgid → GInv g s' := by
    intro P s' h1 h2 h3 h4
    refine ⟨fun c p r hc q hq => h.rs c p r (h2 c p r hc) q ?_, fun c r q hq => h.pr c r q ?_, fun q hq => h.dm q ?_, fun c r q hq ho => ?_, by rw [h4]; exact h.pg⟩
    · rw [h1] at hq; exact (List.mem_filter.1 hq).1
    · rw [h1] at hq; exact (List.mem_filter.1 hq).1
    · rw [h1] at hq; exact (List.mem_filter.1 hq).1
    · rw [h1] at hq; rw [h3]; exact h.runs c r q (List.mem_filter.1 hq).1 ho
  cases e with
  | reset con pid =>
    simp only [Procs.step]
    split
    · exact h
    · refine ⟨?_, ?_, ?_, ?_, h.pg⟩
      · intro c p r hc q hq ho
        dsimp only at hc hq
        rcases List.mem_append.1 hq with hq | hq
        · by_cases hcc : c = con
          · rw [if_pos hcc] at hc
            cases hc
            exact absurd (h.runs c _ q hq ho) (Nat.lt_irrefl _)
          · rw [if_neg hcc] at hc
            exact h.rs c p r hc q hq ho
        · obtain rfl := List.mem_singleton.1 hq
          cases ho
          rw [if_pos rfl] at hc
          cases hc
          rfl
      · intro c r q hq ho
        rcases List.mem_append.1 hq with hq | hq
        · exact h.pr c r q hq ho
        · obtain rfl := List.mem_singleton.1 hq; cases ho
      · intro q hq ho
        rcases List.mem_append.1 hq with hq | hq
        · exact h.dm q hq ho
        · obtain rfl := List.mem_singleton.1 hq; cases ho
      · intro c r q hq ho
        rcases List.mem_append.1 hq with hq | hq
        · exact Nat.lt_succ_of_lt (h.runs c r q hq ho)
        · obtain rfl := List.mem_singleton.1 hq
          cases ho; exact Nat.lt_succ_self _
  | «open» con pid =>
    simp only [Procs.step]
    split
    · exact h
    · obtain ⟨d, hd, hd1, hd2⟩ := i.home
      have hh : s.home = g := by rw [← hd2]; exact h.dm d hd hd1
      refine ⟨?_, ?_, ?_, ?_, h.pg⟩
      · intro c p r hc q hq ho
        rcases List.mem_append.1 hq with hq | hq
        · exact h.rs c p r hc q hq ho
        · obtain rfl := List.mem_singleton.1 hq; cases ho
      · intro c r q hq ho
        rcases List.mem_append.1 hq with hq | hq
        · exact h.pr c r q hq ho
        · obtain rfl := List.mem_singleton.1 hq; exact hh
      · intro q hq ho
        rcases List.mem_append.1 hq with hq | hq
        · exact h.dm q hq ho
        · obtain rfl := List.mem_singleton.1 hq; cases ho
      · intro c r q hq ho
        rcases List.mem_append.1 hq with hq | hq
        · exact Nat.lt_succ_of_lt (h.runs c r q hq ho)
        · obtain rfl := List.mem_singleton.1 hq; cases ho
  | fork q pid =>
    simp only [Procs.step]
    split
    · rename_i p hp
      have hm := List.mem_of_find?_eq_some hp
      split
      · exact h
      · refine ⟨?_, ?_, ?_, ?_, h.pg⟩
        · intro c p' r hc q hq ho
          rcases List.mem_append.1 hq with hq | hq
          · exact h.rs c p' r hc q hq ho
          · obtain rfl := List.mem_singleton.1 hq; exact h.rs c p' r hc p hm ho
        · intro c r q hq ho
          rcases List.mem_append.1 hq with hq | hq
          · exact h.pr c r q hq ho
          · obtain rfl := List.mem_singleton.1 hq; exact h.pr c r p hm ho
        · intro q hq ho
          rcases List.mem_append.1 hq with hq | hq
          · exact h.dm q hq ho
          · obtain rfl := List.mem_singleton.1 hq; exact h.dm p hm ho
        · intro c r q hq ho
          rcases List.mem_append.1 hq with hq | hq
          · exact h.runs c r q hq ho
          · obtain rfl := List.mem_singleton.1 hq; exact h.runs c r p hm ho
    · exact h
  | group q => exact absurd rfl (he q)
  | spawn pid =>
    simp only [Procs.step]
    split
    · refine ⟨?_, ?_, ?_, ?_, h.pg⟩
      · intro c p' r hc q hq ho
        rcases List.mem_append.1 hq with hq | hq
        · exact h.rs c p' r hc q hq ho
        · obtain rfl := List.mem_singleton.1 hq; cases ho
      · intro c r q hq ho
        rcases List.mem_append.1 hq with hq | hq
        · exact h.pr c r q hq ho
        · obtain rfl := List.mem_singleton.1 hq; cases ho
      · intro q hq ho
        rcases List.mem_append.1 hq with hq | hq
        · exact h.dm q hq ho
        · obtain rfl := List.mem_singleton.1 hq; cases ho
      · intro c r q hq ho
        rcases List.mem_append.1 hq with hq | hq
        · exact h.runs c r q hq ho
        · obtain rfl := List.mem_singleton.1 hq; cases ho
    · exact h
  | exit q => exact hfil _ _ rfl (fun _ _ _ h => h) rfl rfl
  | timer con =>
    simp only [Procs.step, Procs.killReset]
    cases hc : s.reset con with
    | none => exact h
    | some x =>
      obtain ⟨pid, run⟩ := x
      have hsub : ∀ c p r, (if c = con then none else s.reset c) = some (p, r) → s.reset c = some (p, r) := by
        intro c p r hr
        split at hr
        · cases hr
        · exact hr
      dsimp only
      split
      · exact ⟨fun c p r hr => h.rs c p r (hsub c p r hr), h.pr, h.dm, h.runs, h.pg⟩
      · exact hfil _ _ rfl hsub rfl rfl
  | close con =>
    simp only [Procs.step, Procs.close]
    cases hc : s.prog con with
    | none => exact h
    | some x => exact hfil _ _ rfl (fun _ _ _ h => h) rfl rfl
  | stop =>
    simp only [Procs.step]
    split
    · exact ⟨h.rs, h.pr, h.dm, h.runs, h.pg⟩
    · exact h

theorem GInv.run {g : Nat} (es : List PEvent) : ∀ {s : Procs}, PInv s → GInv g s → NoReuse s es → NoGroup es → GInv g (s.run es) := by
  induction es with
  | nil => intro s _ h _ _; exact h
  | cons e es ih =>
    intro s i h hn hg
    exact ih (i.step e hn.1) (h.step i e fun q hq => hg q (by rw [hq]; exact List.mem_cons_self)) hn.2 fun q hq => hg q (List.mem_cons_of_mem _ hq)

theorem GInv.start (d g : Nat) (bg : Bool) {others : List Proc} (ho : ∀ p ∈ others, p.own = .other) : GInv g (Procs.start d g bg others) where
  rs := by intro con p r h; cases h
  pr := by
    intro con r q hq h
    rcases List.mem_cons.1 hq with rfl | hq
    · cases h
    · rw [ho q hq] at h; cases h
  dm := by
    intro q hq h
    rcases List.mem_cons.1 hq with rfl | hq
    · rfl
    · rw [ho q hq] at h; cases h
  runs := by
    intro con r q hq h
    rcases List.mem_cons.1 hq with rfl | hq
    · cases h
    · rw [ho q hq] at h; cases h
  pg := by cases bg <;> simp [Procs.start]

theorem Procs.step_pgid (s : Procs) (e : PEvent) : (s.step e).pgid = s.pgid ∧ (s.pgid = none → (s.step e).termed = s.termed) := by
  cases e <;> simp only [Procs.step, Procs.killReset, Procs.close]
  case stop =>
    split
    · rename_i h; exact ⟨rfl, fun h' => absurd (h.symm.trans h') (by simp)⟩
    · exact ⟨rfl, fun _ => rfl⟩
  all_goals repeat' split
  all_goals first | exact ⟨rfl, fun _ => rfl⟩ | exact ⟨trivial, fun _ => trivial⟩

theorem Procs.run_pgid (es : List PEvent) : ∀ s : Procs, (s.run es).pgid = s.pgid := by
  induction es with
  | nil => exact fun _ => rfl
  | cons e es ih => exact fun s => (ih _).trans (s.step_pgid e).1

theorem Procs.run_termed (es : List PEvent) : ∀ s : Procs, s.pgid = none → s.termed = [] → (s.run es).termed = [] := by
  induction es with
  | nil => exact fun _ _ h => h
  | cons e es ih => exact fun s h h' => ih _ ((s.step_pgid e).1.trans h) (((s.step_pgid e).2 h).trans h')

/-- While a reset command of `con` is noted nothing starts another one. -/
theorem Procs.step_reset_noted {s : Procs} {con : Nat} {x : Nat × Nat} (h : s.reset con = some x) (e : PEvent) (he : e ≠ .timer con) :
    (s.step e).reset con = some x ∧ ∀ p ∈ (s.step e).ps, ∀ r, p.own = .reset con r → ∃ q ∈ s.ps, q.own = .reset con r := by
  have same : ∀ p ∈ s.ps, ∀ r, p.own = .reset con r → ∃ q ∈ s.ps, q.own = .reset con r := fun p hp r hr => ⟨p, hp, hr⟩
  have new : ∀ n : Proc, (∀ r, n.own = .reset con r → ∃ q ∈ s.ps, q.own = .reset con r) →
      ∀ p ∈ s.ps ++ [n], ∀ r, p.own = .reset con r → ∃ q ∈ s.ps, q.own = .reset con r := by
    intro n hn p hp r hr
    rcases List.mem_append.1 hp with g | g
    · exact ⟨p, g, hr⟩
    · rw [List.mem_singleton] at g; subst g; exact hn r hr
  cases e with
  | reset c pid =>
    simp only [Procs.step]
    split
    · exact ⟨h, same⟩
    · rename_i hc
      have hne : con ≠ c := by rintro rfl; simp [h] at hc
      refine ⟨by dsimp only; rw [if_neg hne]; exact h, new _ fun r hr => ?_⟩
      simp only [Owner.reset.injEq] at hr
      exact absurd hr.1.symm hne
  | «open» c pid =>
    simp only [Procs.step]
    split
    · exact ⟨h, same⟩
    · exact ⟨h, new _ fun r hr => by cases hr⟩
  | fork q pid =>
    simp only [Procs.step]
    cases hf : s.ps.find? fun p => p.pid = q with
    | none => exact ⟨h, same⟩
    | some p =>
      dsimp only
      split
      · exact ⟨h, same⟩
      · exact ⟨h, new _ fun r hr => ⟨p, List.mem_of_find?_eq_some hf, hr⟩⟩
  | group q =>
    refine ⟨h, fun p hp r hr => ?_⟩
    obtain ⟨p0, h0, rfl⟩ := List.mem_map.1 hp
    refine ⟨p0, h0, ?_⟩
    split at hr <;> exact hr
  | spawn pid =>
    simp only [Procs.step]
    split
    · exact ⟨h, new _ fun r hr => by cases hr⟩
    · exact ⟨h, same⟩
  | exit q => exact ⟨h, fun p hp => same p (List.mem_filter.1 hp).1⟩
  | timer c =>
    have hne : con ≠ c := by rintro rfl; exact he rfl
    simp only [Procs.step, Procs.killReset]
    cases s.reset c with
    | none => exact ⟨h, same⟩
    | some y =>
      dsimp only
      split
      · exact ⟨by dsimp only; rw [if_neg hne]; exact h, same⟩
      · exact ⟨by dsimp only; rw [if_neg hne]; exact h, fun p hp => same p (List.mem_filter.1 hp).1⟩
  | close c =>
    simp only [Procs.step, Procs.close]
    cases s.prog c with
    | none => exact ⟨h, same⟩
    | some y => exact ⟨h, fun p hp => same p (List.mem_filter.1 hp).1⟩
  | stop =>
    simp only [Procs.step]
    cases s.pgid with
    | none => exact ⟨h, same⟩
    | some g => exact ⟨h, same⟩

theorem Procs.run_reset_noted (es : List PEvent) {con : Nat} {x : Nat × Nat} : ∀ {s : Procs}, s.reset con = some x → .timer con ∉ es →
    (s.run es).reset con = some x ∧ ∀ p ∈ (s.run es).ps, ∀ r, p.own = .reset con r → ∃ q ∈ s.ps, q.own = .reset con r := by
  induction es with
  | nil => intro s h _; exact ⟨h, fun p hp r hr => ⟨p, hp, hr⟩⟩
  | cons e es ih =>
    intro s h he
    obtain ⟨a, b⟩ := Procs.step_reset_noted h e (fun g => he (by rw [g]; exact List.mem_cons_self))
    obtain ⟨c, d⟩ := ih a (fun g => he (List.mem_cons_of_mem _ g))
    refine ⟨c, fun p hp r hr => ?_⟩
    obtain ⟨q, hq, hr'⟩ := d p hp r hr
    exact b q hq r hr'

end Conman
