import Verif.Model.ResetTime

/-
Lemmas about resets in time.
-/
namespace Conman
open Spec

theorem split_two {α : Type} {y y' : α} {b b' : List α} : ∀ {a a' : List α}, a ++ y :: b = a' ++ y' :: b' →
    (∃ c, a = a' ++ y' :: c ∧ b' = c ++ y :: b) ∨ (a = a' ∧ y = y' ∧ b = b') ∨ (∃ c, b = c ++ y' :: b')
  | [], [], h => by simp only [List.nil_append, List.cons.injEq] at h; exact Or.inr (Or.inl ⟨rfl, h.1, h.2⟩)
  | [], x :: a', h => by
    simp only [List.nil_append, List.cons_append, List.cons.injEq] at h
    exact Or.inr (Or.inr ⟨a', h.2⟩)
  | x :: a, [], h => by
    simp only [List.nil_append, List.cons_append, List.cons.injEq] at h
    exact Or.inl ⟨a, by rw [h.1]; rfl, h.2.symm⟩
  | x :: a, x' :: a', h => by
    simp only [List.cons_append, List.cons.injEq] at h
    obtain ⟨rfl, h⟩ := h
    rcases split_two h with ⟨c, rfl, rfl⟩ | ⟨rfl, g⟩ | g
    · exact Or.inl ⟨c, rfl, rfl⟩
    · exact Or.inr (Or.inl ⟨rfl, g⟩)
    · exact Or.inr (Or.inr g)

theorem ResetCon.run_append (es fs : List ResetEvent) : ∀ c : ResetCon,
    c.run (es ++ fs) = (((c.run es).1.run fs).1, (c.run es).2 ++ ((c.run es).1.run fs).2) := by
  induction es with
  | nil => intro c; rfl
  | cons e es ih => intro c; simp only [List.cons_append, ResetCon.run, ih]

theorem ResetCon.run_events (es : List ResetEvent) : ∀ c : ResetCon, (c.run es).2.map Prod.fst = es := by
  induction es with
  | nil => intro c; rfl
  | cons e es ih => intro c; simp only [ResetCon.run, List.map_cons, ih]

theorem ResetCon.run_one (c : ResetCon) (e : ResetEvent) : c.run [e] = ((c.step e).1, [(e, (c.step e).2)]) := rfl

/-- Something that is no start at the end. -/
theorem inForce_drop {tr : List (ResetEvent × ResetAns)} {x : ResetEvent × ResetAns} (hx : ∀ p, x.2 ≠ .started p) (h : InForce (tr ++ [x])) : InForce tr := by
  obtain ⟨a, b, s, t, p, e, hb⟩ := h
  rcases split_two e with ⟨c, h1, h2⟩ | ⟨_, h1, _⟩ | ⟨c, h1⟩
  · refine ⟨a, c, s, t, p, h1, hb.imp id fun g now z hz => g now z ?_⟩
    rw [h2]; exact List.mem_append_left _ hz
  · exact absurd (by rw [h1]) (hx p)
  · cases c <;> simp at h1

/-- The console agrees with what was observed. -/
def RI (c : ResetCon) (tr : List (ResetEvent × ResetAns)) : Prop :=
  match c.pid with
  | none => c.due = none ∧ ¬ InForce tr
  | some p => ∃ a b s t, tr = a ++ (.ask s t, .started p) :: b ∧ ¬ InForce a ∧ (∀ x ∈ b, ∀ q, x.2 ≠ .started q) ∧
      c.due = (if t.timer then some (s + 60000) else none) ∧ (t.timer = true → ∀ now x, (.look now, x) ∈ b → now < s + 60000)

theorem RI.keep {c : ResetCon} {tr : List (ResetEvent × ResetAns)} (h : RI c tr) (x : ResetEvent × ResetAns) (hx : ∀ p, x.2 ≠ .started p)
    (hl : ∀ now, x.1 = .look now → ∀ d, c.due = some d → now < d) : RI c (tr ++ [x]) := by
  unfold RI at h ⊢
  cases hp : c.pid with
  | none =>
    rw [hp] at h
    exact ⟨h.1, fun g => h.2 (inForce_drop hx g)⟩
  | some p =>
    rw [hp] at h
    obtain ⟨a, b, s, t, h1, h2, h3, h4, h5⟩ := h
    refine ⟨a, b ++ [x], s, t, by rw [h1]; simp, h2, ?_, h4, ?_⟩
    · intro y hy
      rcases List.mem_append.1 hy with hy | hy
      · exact h3 y hy
      · rw [List.mem_singleton] at hy; subst hy; exact hx
    · intro ht now z hz
      rcases List.mem_append.1 hz with hz | hz
      · exact h5 ht now z hz
      · rw [List.mem_singleton] at hz
        exact hl now (by rw [← hz]) _ (by rw [h4, if_pos ht])

theorem RI.step {c : ResetCon} {tr : List (ResetEvent × ResetAns)} (h : RI c tr) (e : ResetEvent) : RI (c.step e).1 (tr ++ [(e, (c.step e).2)]) := by
  cases e with
  | ask now t =>
    have nl : ∀ (n : Nat), ResetEvent.ask now t = .look n → ∀ d, c.due = some d → n < d := by simp
    unfold ResetCon.step ResetCon.ask
    dsimp only
    split
    · exact h.keep _ (by simp) nl
    split
    · exact h.keep _ (by simp) nl
    · rename_i hp
      split
      · exact h.keep _ (by simp) nl
      split
      · exact h.keep _ (by simp) nl
      · rename_i p _
        unfold RI at h
        rw [hp] at h
        exact ⟨tr, [], now, t, rfl, h.2, by simp, by dsimp only; rw [h.1], by simp⟩
  | look now =>
    unfold ResetCon.step ResetCon.look
    dsimp only
    split
    · rename_i hd
      exact h.keep _ (by simp) (by intro n _ d g; rw [hd] at g; simp at g)
    · rename_i d hd
      split
      · rename_i hle
        unfold RI at h ⊢
        dsimp only
        cases hp : c.pid with
        | none => rw [hp] at h; rw [h.1] at hd; simp at hd
        | some p =>
          rw [hp] at h
          obtain ⟨a, b, s, t, h1, h2, h3, h4, h5⟩ := h
          refine ⟨rfl, ?_⟩
          rintro ⟨a', b', s', t', p', e, hb⟩
          have ht : t.timer = true := by
            cases g : t.timer with
            | true => rfl
            | false => rw [hd, g] at h4; simp at h4
          have hd2 : d = s + 60000 := by rw [hd, if_pos ht] at h4; simpa using h4
          rw [h1, List.append_assoc, List.cons_append] at e
          rcases split_two e with ⟨k, g1, g2⟩ | ⟨_, g1, g2⟩ | ⟨k, g1⟩
          · refine h2 ⟨a', k, s', t', p', g1, hb.imp id fun g n z hz => g n z ?_⟩
            rw [g2]; exact List.mem_append_left _ hz
          · simp only [Prod.mk.injEq, ResetEvent.ask.injEq] at g1
            obtain ⟨⟨rfl, rfl⟩, _⟩ := g1
            rcases hb with hb | hb
            · rw [ht] at hb; simp at hb
            · have := hb now _ (by rw [← g2]; exact List.mem_append_right _ (List.mem_singleton.2 rfl))
              omega
          · have hm : ((ResetEvent.ask s' t', ResetAns.started p') : ResetEvent × ResetAns) ∈ b ++ [(ResetEvent.look now, ResetAns.ended p)] := by rw [g1]; simp
            rcases List.mem_append.1 hm with hm | hm
            · exact h3 _ hm p' rfl
            · simp at hm
      · rename_i hle
        refine h.keep _ (by simp) ?_
        intro n g d' g'
        simp only [ResetEvent.look.injEq] at g
        rw [hd] at g'
        simp only [Option.some.injEq] at g'
        omega

theorem RI.run (es : List ResetEvent) : ∀ {c : ResetCon} {tr : List (ResetEvent × ResetAns)}, RI c tr → RI (c.run es).1 (tr ++ (c.run es).2) := by
  induction es with
  | nil => intro c tr h; simpa [ResetCon.run] using h
  | cons e es ih =>
    intro c tr h
    have := ih (h.step e)
    simpa [ResetCon.run] using this

theorem RI.start (cmd : Bool) (es : List ResetEvent) : RI ((ResetCon.mk cmd none none).run es).1 ((ResetCon.mk cmd none none).run es).2 := by
  have : RI (ResetCon.mk cmd none none) [] := ⟨rfl, by rintro ⟨a, b, s, t, p, e, _⟩; cases a <;> simp at e⟩
  simpa using this.run es

theorem RI.force {c : ResetCon} {tr : List (ResetEvent × ResetAns)} (h : RI c tr) : c.pid.isSome = true ↔ InForce tr := by
  unfold RI at h
  cases hp : c.pid with
  | none => rw [hp] at h; simp [h.2]
  | some p =>
    rw [hp] at h
    obtain ⟨a, b, s, t, h1, h2, h3, h4, h5⟩ := h
    refine ⟨fun _ => ⟨a, b, s, t, p, h1, ?_⟩, fun _ => rfl⟩
    cases ht : t.timer with
    | false => exact Or.inl rfl
    | true => exact Or.inr (h5 ht)

/-- The command in force is the last started. -/
theorem RI.last {c : ResetCon} {a b : List (ResetEvent × ResetAns)} {s p : Nat} {t : ResetTry} (h : RI c (a ++ (.ask s t, .started p) :: b))
    (hf : t.timer = false ∨ ∀ now x, (.look now, x) ∈ b → now < s + 60000) : c.pid = some p ∧ c.due = (if t.timer then some (s + 60000) else none) := by
  have hs := h.force.2 ⟨a, b, s, t, p, rfl, hf⟩
  unfold RI at h
  cases hp : c.pid with
  | none => rw [hp] at hs; simp at hs
  | some q =>
    rw [hp] at h
    obtain ⟨a', b', s', t', h1, h2, h3, h4, h5⟩ := h
    rcases split_two h1.symm with ⟨k, g1, g2⟩ | ⟨_, g1, _⟩ | ⟨k, g1⟩
    · refine absurd ⟨a, k, s, t, p, g1, hf.imp id fun g n z hz => g n z ?_⟩ h2
      rw [g2]; exact List.mem_append_left _ hz
    · simp only [Prod.mk.injEq, ResetEvent.ask.injEq, ResetAns.started.injEq] at g1
      obtain ⟨⟨rfl, rfl⟩, rfl⟩ := g1
      exact ⟨rfl, h4⟩
    · exact absurd rfl (h3 (.ask s t, .started p) (by rw [g1]; simp) p)

theorem ResetCon.run_cmd (es : List ResetEvent) : ∀ c : ResetCon, (c.run es).1.cmd = c.cmd := by
  have st : ∀ (c : ResetCon) e, (c.step e).1.cmd = c.cmd := by
    intro c e
    cases e with
    | ask now t => unfold ResetCon.step ResetCon.ask; dsimp only; repeat' split <;> try rfl
    | look now => unfold ResetCon.step ResetCon.look; dsimp only; repeat' split <;> try rfl
  induction es with
  | nil => intro c; rfl
  | cons e es ih => intro c; simp only [ResetCon.run, ih, st]

/-- Without a timer nothing changes any more. -/
theorem ResetCon.stuck {p : Nat} (es : List ResetEvent) : ∀ {c : ResetCon}, c.cmd = true → c.pid = some p → c.due = none →
    c.run es = (c, es.map fun e => (e, refused p e)) := by
  induction es with
  | nil => intro c _ _ _; rfl
  | cons e es ih =>
    intro c hc hp hd
    have : c.step e = (c, refused p e) := by
      cases e with
      | ask now t => simp [ResetCon.step, ResetCon.ask, refused, hc, hp]
      | look now => simp [ResetCon.step, ResetCon.look, refused, hd]
    simp only [ResetCon.run, this, List.map_cons, ih hc hp hd]

/-- A console without a command never starts one. -/
theorem ResetCon.started_cmd {p s : Nat} {t : ResetTry} (es : List ResetEvent) : ∀ {c : ResetCon}, (.ask s t, .started p) ∈ (c.run es).2 → c.cmd = true := by
  induction es with
  | nil => intro c h; simp [ResetCon.run] at h
  | cons e es ih =>
    intro c h
    simp only [ResetCon.run, List.mem_cons] at h
    rcases h with h | h
    · simp only [Prod.mk.injEq] at h
      obtain ⟨rfl, h⟩ := h
      cases hc : c.cmd with
      | true => rfl
      | false => simp [ResetCon.step, ResetCon.ask, hc] at h
    · have := ih h
      have e2 := ResetCon.run_cmd [e] c
      rw [ResetCon.run_one] at e2
      rw [← e2]; exact this

end Conman
