import Verif.Lemma.ResetTime

/-
C117: when a console can be reset.
-/
namespace Conman
open Spec

/-- C117. After any history a request starts the command if and only if the console has one, its line fits, a process can be made, and no command is in force: since each start the
daemon has looked a minute later or more, and had memory for the timer. -/
theorem C117_starts (cmd : Bool) (h : List ResetEvent) (now p : Nat) (t : ResetTry) :
    ((ResetCon.mk cmd none none).run (h ++ [.ask now t])).2.getLast? = some (.ask now t, .started p) ↔
      cmd = true ∧ t.fits = true ∧ t.fork = some p ∧ ¬ InForce ((ResetCon.mk cmd none none).run h).2 := by
  have hf := (RI.start cmd h).force
  have hc := ResetCon.run_cmd h (ResetCon.mk cmd none none)
  rw [ResetCon.run_append, ResetCon.run_one]
  dsimp only at hc ⊢
  rw [List.getLast?_concat, ← hf]
  generalize ((ResetCon.mk cmd none none).run h).1 = c at hc ⊢
  subst hc
  simp only [ResetCon.step, ResetCon.ask, Option.some.injEq, Prod.mk.injEq, true_and]
  cases c.cmd <;> cases c.pid <;> cases t.fits <;> cases t.fork <;> simp

/-- C117. The first time the daemon looks a minute or more after the start, the command is ended. -/
theorem C117_limit (cmd : Bool) (h : List ResetEvent) (a b : List (ResetEvent × ResetAns)) (s p now : Nat) (t : ResetTry)
    (hr : ((ResetCon.mk cmd none none).run h).2 = a ++ (.ask s t, .started p) :: b) (ht : t.timer = true)
    (hb : ∀ n x, (.look n, x) ∈ b → n < s + 60000) :
    ((ResetCon.mk cmd none none).run (h ++ [.look now])).2.getLast? = some (.look now, if s + 60000 ≤ now then .ended p else .nothing) := by
  have hi := RI.start cmd h
  rw [hr] at hi
  obtain ⟨h1, h2⟩ := hi.last (Or.inr hb)
  rw [if_pos ht] at h2
  rw [ResetCon.run_append, ResetCon.run_one]
  dsimp only
  rw [List.getLast?_concat]
  simp only [ResetCon.step, ResetCon.look, h1, h2]
  split <;> rfl

/-- C117. Between two starts the daemon looked a minute after the first or later. -/
theorem C117_apart (cmd : Bool) (h : List ResetEvent) (a b r : List (ResetEvent × ResetAns)) (s p s' p' : Nat) (t t' : ResetTry)
    (hr : ((ResetCon.mk cmd none none).run h).2 = a ++ (.ask s t, .started p) :: (b ++ (.ask s' t', .started p') :: r)) :
    ∃ now x, (.look now, x) ∈ b ∧ s + 60000 ≤ now := by
  have e : a ++ (.ask s t, .started p) :: (b ++ (.ask s' t', .started p') :: r) = (a ++ (.ask s t, .started p) :: b) ++ ((.ask s' t', .started p') :: r : List (ResetEvent × ResetAns)) := by simp
  rw [e] at hr
  have hm := ResetCon.run_events h (ResetCon.mk cmd none none)
  rw [hr, List.map_append, List.map_cons] at hm
  rw [← hm] at hr
  generalize hg : (a ++ (ResetEvent.ask s t, ResetAns.started p) :: b) = pre at hr
  have e3 : pre.map Prod.fst ++ ResetEvent.ask s' t' :: r.map Prod.fst = (pre.map Prod.fst ++ [ResetEvent.ask s' t']) ++ r.map Prod.fst := by simp
  dsimp only at hr
  rw [e3, ResetCon.run_append] at hr
  dsimp only at hr
  have q : ((ResetCon.mk cmd none none).run (pre.map Prod.fst ++ [ResetEvent.ask s' t'])).2 = pre ++ [(ResetEvent.ask s' t', ResetAns.started p')] := by
    have e4 : pre ++ (ResetEvent.ask s' t', ResetAns.started p') :: r = (pre ++ [(ResetEvent.ask s' t', ResetAns.started p')]) ++ r := by simp
    rw [e4] at hr
    refine (List.append_inj hr ?_).1
    have l := congrArg List.length (ResetCon.run_events (pre.map Prod.fst ++ [ResetEvent.ask s' t']) (ResetCon.mk cmd none none))
    rw [List.length_map] at l
    rw [l]; simp
  have q0 : ((ResetCon.mk cmd none none).run (pre.map Prod.fst)).2 = pre := by
    rw [ResetCon.run_append, ResetCon.run_one] at q
    exact List.append_inj_left' q rfl
  have k := (C117_starts cmd (pre.map Prod.fst) s' p' t').1 (by rw [q, List.getLast?_concat])
  rw [q0] at k
  refine Classical.byContradiction fun hn => k.2.2.2 ⟨a, b, s, t, p, hg.symm, Or.inr fun now x hx => ?_⟩
  exact Nat.lt_of_not_le fun hle => hn ⟨now, x, hx, hle⟩

/-- C117 (partial): if memory for timers was there, a console can be reset again as soon as the daemon has looked a minute after the last request.  Missing: without memory for a timer
this is false, see `C117_forever`. -/
theorem C117_again_partial (h1 h2 : List ResetEvent) (now now' p : Nat) (t : ResetTry) (ht : ∀ s u, .ask s u ∈ h1 ++ h2 → u.timer = true)
    (hs : ∀ s u, .ask s u ∈ h1 → s + 60000 ≤ now) (hn : ∀ s u, .ask s u ∉ h2) (hf : t.fits = true) (hp : t.fork = some p) :
    ((ResetCon.mk true none none).run (h1 ++ .look now :: h2 ++ [.ask now' t])).2.getLast? = some (.ask now' t, .started p) := by
  rw [C117_starts]
  refine ⟨rfl, hf, hp, ?_⟩
  rintro ⟨a, b, s, u, q, e, hb⟩
  have hm := ResetCon.run_events (h1 ++ .look now :: h2) (ResetCon.mk true none none)
  rw [e, List.map_append, List.map_cons] at hm
  dsimp only at hm
  rcases split_two hm.symm with ⟨k, g1, g2⟩ | ⟨_, g1, _⟩ | ⟨k, g1⟩
  · have m1 : ResetEvent.ask s u ∈ h1 := by rw [g1]; simp
    rcases hb with hb | hb
    · rw [ht s u (List.mem_append_left _ m1)] at hb; simp at hb
    · have : ResetEvent.look now ∈ b.map Prod.fst := by rw [g2]; simp
      obtain ⟨⟨e', x⟩, hx, he⟩ := List.mem_map.1 this
      dsimp only at he
      subst he
      have := hb now x hx
      have := hs s u m1
      omega
  · simp at g1
  · exact hn s u (by rw [g1]; simp)

/-- C117 is false without memory for a timer: the command is not ended however long it runs, and whatever happens afterwards, even when it has ended by itself, every request is refused
as long as the daemon runs. -/
theorem C117_forever (cmd : Bool) (h h' : List ResetEvent) (a b : List (ResetEvent × ResetAns)) (s p : Nat) (t : ResetTry)
    (hr : ((ResetCon.mk cmd none none).run h).2 = a ++ (.ask s t, .started p) :: b) (ht : t.timer = false) :
    ((ResetCon.mk cmd none none).run (h ++ h')).2 =
      ((ResetCon.mk cmd none none).run h).2 ++ h'.map fun e => (e, refused p e) := by
  have hi := RI.start cmd h
  rw [hr] at hi
  obtain ⟨g1, g2⟩ := hi.last (Or.inl ht)
  rw [ht] at g2
  have hc : (ResetCon.mk cmd none none).cmd = true := ResetCon.started_cmd (p := p) (s := s) (t := t) h (by rw [hr]; simp)
  rw [ResetCon.run_append, ResetCon.stuck h' ((ResetCon.run_cmd h _).trans hc) g1 g2]

/-- Two resets, a refused one between them, a failed `fork`, and a look that comes late. -/
example : ((ResetCon.mk true none none).run [.ask 5 {}, .look 1000, .ask 59999 {}, .look 60004, .look 60005, .ask 60006 { fork := none }, .ask 60007 { fork := some 7 }, .look 200000]).2.map Prod.snd =
    [.started 100, .nothing, .busy 100, .nothing, .ended 100, .forkFailed, .started 7, .ended 7] := by decide

/-- The hypotheses of `C117_limit`, `C117_apart` and `C117_again_partial` are met by parts of it. -/
example : ((ResetCon.mk true none none).run [.ask 5 {}, .look 60005, .ask 60007 { fork := some 7 }, .look 60010]).2 =
    [] ++ (.ask 5 {}, .started 100) :: ([(.look 60005, .ended 100)] ++ (.ask 60007 { fork := some 7 }, .started 7) :: [(.look 60010, .nothing)]) := by decide

/-- The hypotheses of `C117_forever` are met. -/
example : ((ResetCon.mk true none none).run [.ask 5 { timer := false }, .look 1000000, .ask 1000001 {}]).2 =
    [] ++ (.ask 5 { timer := false }, .started 100) :: [(.look 1000000, .nothing), (.ask 1000001 {}, .busy 100)] := by decide

end Conman
