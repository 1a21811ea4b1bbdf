import Verif.Lemma.Whole
import Verif.Lemma.WorldLogBook

/-
What was written to the buffer of a log, what was sent to its file and what waits: helper lemmas for C102.
-/
namespace Conman
open Spec

theorem lastN_append_right (k : Nat) (a b : List UInt8) : lastN k (a ++ lastN k b) = lastN k (a ++ b) := by
  by_cases h : k ≤ b.length
  · rw [lastN_append_ge h, lastN_append_ge (by rw [length_lastN]; omega), lastN_lastN, Nat.min_self]
  · rw [lastN_self k b (by omega)]

/-- Bytes `t` were written to the buffer of a log. -/
structure HPuts (t : List UInt8) (o o' : Obj) : Prop where
  kind : o'.kind = o.kind
  gen : o'.gen = o.gen
  eof : o'.eof = o.eof
  hist : o'.hist = o.hist ++ t.map some
  pend : o'.pend = lastN queueCap (o.pend ++ t)

theorem HPuts.same {o o' : Obj} (hc : o.pend.length ≤ queueCap) (h1 : o'.kind = o.kind) (h2 : o'.gen = o.gen) (h3 : o'.eof = o.eof) (h4 : o'.hist = o.hist)
    (h5 : o'.pend = o.pend) : HPuts [] o o' :=
  ⟨h1, h2, h3, by simp [h4], by rw [h5, List.append_nil, lastN_self _ _ hc]⟩

theorem HPuts.cap {t : List UInt8} {o o' : Obj} (h : HPuts t o o') : o'.pend.length ≤ queueCap := by rw [h.pend]; exact lastN_len _ _

theorem HPuts.trans {t t' : List UInt8} {a b c : Obj} (h : HPuts t a b) (h' : HPuts t' b c) : HPuts (t ++ t') a c :=
  ⟨h'.kind.trans h.kind, h'.gen.trans h.gen, h'.eof.trans h.eof, by rw [h'.hist, h.hist]; simp, by
    rw [h'.pend, h.pend, lastN_append_lastN, List.append_assoc]⟩

theorem HPuts.write (o : Obj) (d : List UInt8) (b : Bool) (hk : o.kind = .logfile) (he : o.eof = false) (hc : o.pend.length ≤ queueCap) :
    ∃ t, HPuts t o (o.write d b) := by
  rcases o.write_cases d b with e | ⟨-, e⟩
  · rw [e]; exact ⟨[], .same hc rfl rfl rfl rfl rfl⟩
  · rw [e]; exact ⟨enters d, rfl, rfl, rfl, rfl, by dsimp only; rw [enq, enters]⟩

theorem Passive.puts {env : Env} {o o' : Obj} (h : Passive env o o') : o.kind = .logfile → o.eof = false → o.pend.length ≤ queueCap → ∃ t, HPuts t o o' := by
  induction h with
  | refl => intro _ _ hc; exact ⟨[], .same hc rfl rfl rfl rfl rfl⟩
  | trans _ _ h1 h2 =>
    intro hk he hc
    obtain ⟨t, p⟩ := h1 hk he hc
    obtain ⟨t', p'⟩ := h2 (p.kind.trans hk) (p.eof.trans he) p.cap
    exact ⟨_, p.trans p'⟩
  | info o n t _ => exact fun hk he hc => HPuts.write o _ _ hk he hc
  | links => intro _ _ hc; exact ⟨[], .same hc rfl rfl rfl rfl rfl⟩
  | orphan o h => intro hk; rw [hk] at h; cases h

theorem Ext.puts {env : Env} {b : Bool} {o o' : Obj} (h : Ext env b o o') : o.kind = .logfile → o.eof = false → o.pend.length ≤ queueCap → ∃ t, HPuts t o o' := by
  induction h with
  | refl => intro _ _ hc; exact ⟨[], .same hc rfl rfl rfl rfl rfl⟩
  | trans _ _ h1 h2 =>
    intro hk he hc
    obtain ⟨t, p⟩ := h1 hk he hc
    obtain ⟨t', p'⟩ := h2 (p.kind.trans hk) (p.eof.trans he) p.cap
    exact ⟨_, p.trans p'⟩
  | pass h => exact h.puts
  | reset o p t h => intro hk; rw [hk] at h; cases h
  | data o d _ => exact fun hk he hc => HPuts.write o _ _ hk he hc
  | log => intro _ _ hc; exact ⟨[], .same hc rfl rfl rfl rfl rfl⟩

/-- One step, for a log: bytes were added and sent, or its buffer was emptied. -/
inductive LogMove (w w' : World) (l : Nat) : Prop
  | on (x t : List UInt8) (gen : (w'.obj l).gen = (w.obj l).gen) (sent : sentTo l w'.fx = sentTo l w.fx ++ x)
      (hist : (w'.obj l).hist = (w.obj l).hist ++ t.map some) (pend : x ++ (w'.obj l).pend = lastN queueCap ((w.obj l).pend ++ t))
  | cut (gen : (w'.obj l).gen = (w.obj l).gen + 1) (hist : (w'.obj l).hist = (w.obj l).hist ++ [none]) (pend : (w'.obj l).pend = [])

theorem LogMove.puts {w w' : World} {l : Nat} {t : List UInt8} (hf : sentTo l w'.fx = sentTo l w.fx) (h : HPuts t (w.obj l) (w'.obj l)) : LogMove w w' l :=
  .on [] t h.gen (by simpa using hf) h.hist (by simpa using h.pend)

theorem LogMove.stay {w : World} {l : Nat} (hc : (w.obj l).pend.length ≤ queueCap) : LogMove w w l := .puts rfl (.same hc rfl rfl rfl rfl rfl)

theorem log_shutdown {w : World} (env : Env) (up : Bool) {l : Nat} (hf : (w.obj l).fd = true) (hk : (w.obj l).kind = .logfile) :
    ((w.shutdown env up l).obj l).gen = (w.obj l).gen + 1 ∧ ((w.shutdown env up l).obj l).pend = [] ∧
    ((w.shutdown env up l).obj l).hist = (w.obj l).hist ++ [none] ∧ ((w.shutdown env up l).obj l).fd = false := by
  unfold World.shutdown
  rw [if_neg (by simp [hf])]
  simp only [World.mod_self, hk, and_self]

theorem log_flush {w : World} (env : Env) (up : Bool) {l : Nat} (r : WriteRes) (hk : (w.obj l).kind = .logfile) (hc : (w.obj l).pend.length ≤ queueCap) :
    LogMove w (w.flush env up l r) l := by
  unfold World.flush
  dsimp only
  by_cases hf : (w.obj l).fd = false
  · rw [if_pos hf]; exact .stay hc
  rw [if_neg hf, if_neg (by rw [hk]; simp)]
  have hd : ((w.push l (r.count (w.obj l).pend.length)).drained l).obj l =
      { w.obj l with pend := (w.obj l).pend.drop (r.count (w.obj l).pend.length),
                     pout := (((w.push l (r.count (w.obj l).pend.length)).drained l).obj l).pout } := by
    unfold World.drained
    split
    · rw [World.mod_self, push_obj]
    · rw [push_obj]
  have hs' : sentTo l ((w.push l (r.count (w.obj l).pend.length)).drained l).fx =
      sentTo l w.fx ++ (w.obj l).pend.take (r.count (w.obj l).pend.length) := by
    rw [drained_fx, push_sentTo]
  generalize (w.push l (r.count (w.obj l).pend.length)).drained l = u at hd hs' ⊢
  split
  · obtain ⟨a1, a2, a3, -⟩ := log_shutdown (w := u) env up (by rw [hd]; simpa using hf) (by rw [hd]; exact hk)
    exact .cut (by rw [a1, hd]) (by rw [a3, hd]) a2
  · exact .on _ [] (by rw [hd]) hs' (by rw [hd]; simp) (by rw [hd]; simp [lastN_self _ _ hc])

theorem log_move {env : Env} {w w' : World} (h : FInv w) (s : Step) (hs : w.step env s = some w') {l : Nat} (hl : l ∈ w.live) (hk : (w.obj l).kind = .logfile) :
    LogMove w w' l := by
  have hcap := (h.e.d.inv.oi l).cap
  have heof := (h.x l hl).log hk
  have quietFx : (∀ up rd wr, s ≠ .poll l up rd (some wr)) → sentTo l w'.fx = sentTo l w.fx := by
    intro hn
    obtain ⟨m, e1, e2⟩ := step_sent env s hs
    rw [e1, sentTo_append, sentTo_none l m, List.append_nil]
    intro d hd
    obtain ⟨_, up, rd, wr, e⟩ := e2 l d hd
    exact hn up rd wr e
  have stay : w' = w → LogMove w w' l := by rintro rfl; exact .stay hcap
  by_cases ht : s.target = some l
  · cases s with
    | check => simp [Step.target] at ht
    | childExit => simp [Step.target] at ht
    | grant c n =>
      simp only [Step.target, Option.some.injEq] at ht; subst ht
      simp only [World.step, Option.some.injEq] at hs
      refine stay ?_
      subst hs
      split
      · rw [if_pos hl]
      · rfl
    | connPend i =>
      simp only [Step.target, Option.some.injEq] at ht; subst ht
      simp only [World.step, Option.some.injEq] at hs
      rw [if_neg (by rw [hk]; simp)] at hs
      exact stay hs.symm
    | connDown i =>
      simp only [Step.target, Option.some.injEq] at ht; subst ht
      simp only [World.step, Option.some.injEq] at hs
      rw [if_neg (by rw [hk]; simp)] at hs
      exact stay hs.symm
    | connFail i =>
      simp only [Step.target, Option.some.injEq] at ht; subst ht
      simp only [World.step, Option.some.injEq] at hs
      rw [if_neg (by rw [hk]; simp)] at hs
      exact stay hs.symm
    | resetTimeout i =>
      simp only [Step.target, Option.some.injEq] at ht; subst ht
      have hfx := quietFx (by intro _ _ _ e; cases e)
      simp only [World.step, Option.some.injEq] at hs
      subst hs
      refine .puts (t := []) hfx ?_
      split
      · split
        · rw [World.mod_self]; exact .same hcap rfl rfl rfl rfl rfl
        · split
          · dsimp only
            rw [World.mod_self]; exact .same hcap rfl rfl rfl rfl rfl
          · rw [World.mod_self]; exact .same hcap rfl rfl rfl rfl rfl
      · exact .same hcap rfl rfl rfl rfl rfl
    | logOpen i ok =>
      simp only [Step.target, Option.some.injEq] at ht; subst ht
      have hfx := quietFx (by intro _ _ _ e; cases e)
      simp only [World.step, Option.some.injEq] at hs
      rw [if_pos hk] at hs
      subst hs
      cases ok with
      | false =>
        refine .puts (t := []) hfx ?_
        rw [World.mod_self]
        exact .same hcap rfl rfl rfl rfl rfl
      | true =>
        obtain ⟨t, p⟩ := HPuts.write { w.obj i with fd := true, pout := false, eof := false } (env.txt (.logOpened i) w.tick) false hk rfl hcap
        refine .puts (t := t) hfx ?_
        rw [World.mod_self, if_pos rfl]
        exact ⟨p.kind, p.gen, p.eof.trans heof.symm, p.hist, p.pend⟩
    | logStamp i =>
      simp only [Step.target, Option.some.injEq] at ht; subst ht
      have hfx := quietFx (by intro _ _ _ e; cases e)
      simp only [World.step, Option.some.injEq] at hs
      rw [if_pos hk] at hs
      subst hs
      obtain ⟨t, p⟩ := HPuts.write (w.obj i) (env.txt (.logStamp i) w.tick) true hk heof hcap
      refine .puts (t := t) hfx ?_
      unfold World.note
      rw [World.mod_self]
      exact p
    | connUp i =>
      simp only [Step.target, Option.some.injEq] at ht; subst ht
      simp only [World.step, Option.some.injEq, if_pos hl] at hs
      unfold World.connUp at hs
      dsimp only at hs
      rw [if_pos (by rw [hk]; rfl)] at hs
      exact stay hs.symm
    | poll i up rd wr =>
      simp only [Step.target, Option.some.injEq] at ht; subst ht
      simp only [World.step] at hs
      split at hs
      · simp only [Option.some.injEq] at hs; exact stay hs.symm
      simp only [Option.map_eq_some_iff] at hs
      obtain ⟨w1, h1, h2⟩ := hs
      have e1 : w1 = w ∨ w1 = w.shutdown env up i ∧ (w.obj i).fd = true := by
        cases rd with
        | none => simp only [Option.some.injEq] at h1; exact Or.inl h1.symm
        | some r => exact read_log env up i r hk h1
      rcases e1 with rfl | ⟨e1, hf⟩
      · split at h2
        · exact stay h2.symm
        split at h2
        · exact stay h2.symm
        · subst h2
          exact log_flush env up _ hk hcap
      · obtain ⟨a1, a2, a3, a4⟩ := log_shutdown env up hf hk
        rw [← e1] at a1 a2 a3 a4
        have t : w' = w1 := by
          subst h2
          split
          · rfl
          split
          · rfl
          · unfold World.flush; dsimp only; rw [if_pos a4]
        rw [t]
        exact .cut a1 a3 a2
  · obtain ⟨t, p⟩ := (step_ext h.e.d env s hs l ht).puts hk heof hcap
    exact .puts (quietFx (by rintro up rd wr rfl; exact ht rfl)) p

/-- A history of a log during which its buffer was not emptied. -/
theorem hist_run {env : Env} {l : Nat} (ss : List Step) : ∀ {w w' : World}, FInv w → w.run env ss = some w' → l ∈ w.live → (w.obj l).kind = .logfile →
    (w.obj l).gen ≤ (w'.obj l).gen ∧ ((w'.obj l).gen = (w.obj l).gen →
      ∃ x t, sentTo l w'.fx = sentTo l w.fx ++ x ∧ (w'.obj l).hist = (w.obj l).hist ++ t.map some ∧
        lastN queueCap (x ++ (w'.obj l).pend) = lastN queueCap ((w.obj l).pend ++ t)) := by
  induction ss with
  | nil =>
    intro w w' _ hr _ _
    simp only [World.run, Option.some.injEq] at hr
    subst hr
    exact ⟨Nat.le_refl _, fun _ => ⟨[], [], by simp, by simp, by simp⟩⟩
  | cons s ss ih =>
    intro w w' h hr hl hk
    simp only [World.run, Option.bind_eq_some_iff] at hr
    obtain ⟨w1, h1, h2⟩ := hr
    obtain ⟨-, l2, l3⟩ := step_live h.e.d s h1
    have hl1 : l ∈ w1.live := by
      rcases l2 l hl with g | ⟨-, g⟩
      · exact g
      · rw [hk] at g; cases g
    obtain ⟨g, q⟩ := ih (w := { w1 with tick := w1.tick + 1 }) ((h.step s h1).tick (w1.tick + 1)) h2 hl1 ((l3 l hl).trans hk)
    dsimp only at g q
    cases log_move h s h1 hl hk with
    | cut c1 => exact ⟨by omega, fun e => by omega⟩
    | on x t c1 c2 c3 c4 =>
      refine ⟨by omega, fun e => ?_⟩
      obtain ⟨x', t', d1, d2, d3⟩ := q (by omega)
      refine ⟨x ++ x', t ++ t', by rw [d1, c2, List.append_assoc], by rw [d2, c3]; simp, ?_⟩
      rw [List.append_assoc, ← lastN_append_right, d3, lastN_append_right, ← List.append_assoc, c4, lastN_append_lastN, List.append_assoc]

end Conman
