import Verif.Spec.CliLoop

/-
Lemmas for `Props/CliLoop.lean`.
-/
namespace Conman
open Spec

theorem CLoop.run_append (s : CLoop) (a b : List CLEv) : s.run (a ++ b) = (s.run a).run b := List.foldl_append ..

theorem CLoop.run_cons (s : CLoop) (e : CLEv) (b : List CLEv) : s.run (e :: b) = (s.step e).run b := rfl

/-- The same escape character, mode, and state of the connection. -/
def CState.Same (t t' : CState) : Prop := t'.wrClosed = t.wrClosed ∧ t'.esc = t.esc ∧ t'.inEsc = t.inEsc ∧ t'.done = t.done

/-- The commands send something with the state of the connection as it is, or nothing, or close it. -/
theorem escape_cases {t : CState} {c : UInt8} {r : CState × List UInt8} (hr : t.escape c = some r) {P : CState × List UInt8 → Prop}
    (hs : ∀ (t' : CState) o, t.Same t' → P (t'.send o)) (hn : ∀ t' : CState, t.Same t' → P (t', []))
    (hc : c = 0x2E → P ({ t with wrClosed := true }, [])) : P r := by
  unfold CState.escape at hr
  by_cases c0 : c = 0x42
  · rw [if_pos c0] at hr; injection hr with hr; subst hr
    split
    · exact hs _ _ ⟨rfl, rfl, rfl, rfl⟩
    · exact hn _ ⟨rfl, rfl, rfl, rfl⟩
  rw [if_neg c0] at hr
  by_cases c1 : c = 0x2E
  · rw [if_pos c1] at hr; injection hr with hr; subst hr
    exact hc c1
  rw [if_neg c1] at hr
  by_cases c2 : c = 0x44
  · rw [if_pos c2] at hr; injection hr with hr; subst hr
    split
    · exact hs _ _ ⟨rfl, rfl, rfl, rfl⟩
    · exact hn _ ⟨rfl, rfl, rfl, rfl⟩
  rw [if_neg c2] at hr
  by_cases c3 : c = 0x45
  · rw [if_pos c3] at hr; injection hr with hr; subst hr
    split
    · exact hn _ ⟨rfl, rfl, rfl, rfl⟩
    · exact hn _ ⟨rfl, rfl, rfl, rfl⟩
  rw [if_neg c3] at hr
  by_cases c4 : c = 0x46
  · rw [if_pos c4] at hr; injection hr with hr; subst hr
    split
    · exact hs _ _ ⟨rfl, rfl, rfl, rfl⟩
    · exact hn _ ⟨rfl, rfl, rfl, rfl⟩
  rw [if_neg c4] at hr
  by_cases c5 : c = 0x3F
  · rw [if_pos c5] at hr; injection hr with hr; subst hr
    exact hn _ ⟨rfl, rfl, rfl, rfl⟩
  rw [if_neg c5] at hr
  by_cases c6 : c = 0x49
  · rw [if_pos c6] at hr; injection hr with hr; subst hr
    exact hn _ ⟨rfl, rfl, rfl, rfl⟩
  rw [if_neg c6] at hr
  by_cases c7 : c = 0x4A
  · rw [if_pos c7] at hr; injection hr with hr; subst hr
    split
    · exact hs _ _ ⟨rfl, rfl, rfl, rfl⟩
    · exact hn _ ⟨rfl, rfl, rfl, rfl⟩
  rw [if_neg c7] at hr
  by_cases c8 : c = 0x4C
  · rw [if_pos c8] at hr; injection hr with hr; subst hr
    split
    · exact hn _ ⟨rfl, rfl, rfl, rfl⟩
    · exact hs _ _ ⟨rfl, rfl, rfl, rfl⟩
  rw [if_neg c8] at hr
  by_cases c9 : c = 0x4D
  · rw [if_pos c9] at hr; injection hr with hr; subst hr
    split
    · exact hs _ _ ⟨rfl, rfl, rfl, rfl⟩
    · exact hn _ ⟨rfl, rfl, rfl, rfl⟩
  rw [if_neg c9] at hr
  by_cases c10 : c = 0x51
  · rw [if_pos c10] at hr; injection hr with hr; subst hr
    exact hs _ _ ⟨rfl, rfl, rfl, rfl⟩
  rw [if_neg c10] at hr
  by_cases c11 : c = 0x52
  · rw [if_pos c11] at hr; injection hr with hr; subst hr
    split
    · exact hs _ _ ⟨rfl, rfl, rfl, rfl⟩
    · exact hn _ ⟨rfl, rfl, rfl, rfl⟩
  rw [if_neg c11] at hr
  by_cases c12 : c = 0x5A
  · rw [if_pos c12] at hr; injection hr with hr; subst hr
    exact hs _ _ ⟨rfl, rfl, rfl, rfl⟩
  rw [if_neg c12] at hr
  cases hr

theorem key_wrClosed (s : CState) (c : UInt8) (h : s.wrClosed = true) : (s.key c).1.wrClosed = true ∧ (s.key c).2 = [] := by
  have hs : ∀ (t : CState) o, t.wrClosed = true → (t.send o).1.wrClosed = true ∧ (t.send o).2 = [] := by
    intro t o ht; unfold CState.send; rw [if_pos ht]; exact ⟨ht, rfl⟩
  have hp : ∀ (t : CState) o, t.wrClosed = true → (t.put o).1.wrClosed = true ∧ (t.put o).2 = [] := by
    intro t o ht; unfold CState.put; by_cases hc : t.cmd = .connect
    · rw [if_pos hc]; exact hs _ _ ht
    · rw [if_neg hc]; exact ⟨ht, rfl⟩
  have he : ∀ (t : CState) r, t.wrClosed = true → t.escape c = some r → r.1.wrClosed = true ∧ r.2 = [] := by
    intro t r ht hr
    refine escape_cases hr (P := fun r => r.1.wrClosed = true ∧ r.2 = []) (fun t' o e => hs t' o (e.1.trans ht)) (fun t' e => ⟨e.1.trans ht, rfl⟩) (fun _ => ⟨rfl, rfl⟩)
  unfold CState.key
  by_cases hd : s.done = true
  · rw [if_pos hd]; exact ⟨h, rfl⟩
  · rw [if_neg hd]
    dsimp only
    by_cases h1 : ¬ s.inEsc = true ∧ (c = s.esc ∧ s.esc < 0x80)
    · rw [if_pos h1]; exact ⟨h, rfl⟩
    · rw [if_neg h1]
      by_cases h2 : s.inEsc = true
      · rw [if_pos h2]
        cases e : ({ s with inEsc := false } : CState).escape c with
        | some r => exact he { s with inEsc := false } r h e
        | none =>
          dsimp only
          by_cases h3 : c = s.esc ∧ s.esc < 0x80
          · rw [if_pos h3]; exact hp _ _ h
          · rw [if_neg h3]; exact hp _ _ h
      · rw [if_neg h2]; exact hp _ _ h

/-- What select() announced is there; nothing is sent after `&.`. -/
def CLoop.Inv (s : CLoop) : Prop :=
  match s.pc with
  | .keyAt b => s.keys ≠ [] ∧ (b = true → s.data ≠ [])
  | .send _ b | .stopped b => (b = true → s.data ≠ []) ∧ s.cs.wrClosed = false
  | .sockAt => s.data ≠ []
  | _ => True

theorem inv_after {s : CLoop} {b : Bool} (h : b = true → s.data ≠ []) (hp : s.pc = .after b) : s.Inv := by
  unfold CLoop.Inv
  rw [hp]
  cases b with
  | true => exact h rfl
  | false => trivial

theorem key_sends {s : CState} {c : UInt8} (h : (s.key c).2 ≠ []) : (s.key c).1.wrClosed = false := by
  have hs : ∀ (t : CState) o, (t.send o).2 ≠ [] → (t.send o).1.wrClosed = false := by
    intro t o; unfold CState.send
    by_cases ht : t.wrClosed = true
    · rw [if_pos ht]; intro g; exact absurd rfl g
    · rw [if_neg ht]; intro _; simpa using ht
  have hp : ∀ (t : CState) o, (t.put o).2 ≠ [] → (t.put o).1.wrClosed = false := by
    intro t o; unfold CState.put; by_cases hc : t.cmd = .connect
    · rw [if_pos hc]; exact hs _ _
    · rw [if_neg hc]; intro g; exact absurd rfl g
  have he : ∀ (t : CState) r, t.escape c = some r → r.2 ≠ [] → r.1.wrClosed = false := by
    intro t r hr
    exact escape_cases hr (P := fun r => r.2 ≠ [] → r.1.wrClosed = false) (fun t' o _ => hs t' o) (fun t' _ g => absurd rfl g) (fun _ g => absurd rfl g)
  revert h
  unfold CState.key
  by_cases hd : s.done = true
  · rw [if_pos hd]; intro g; exact absurd rfl g
  · rw [if_neg hd]
    dsimp only
    by_cases h1 : ¬ s.inEsc = true ∧ (c = s.esc ∧ s.esc < 0x80)
    · rw [if_pos h1]; intro g; exact absurd rfl g
    · rw [if_neg h1]
      by_cases h2 : s.inEsc = true
      · rw [if_pos h2]
        cases e : ({ s with inEsc := false } : CState).escape c with
        | some r => exact he { s with inEsc := false } r e
        | none =>
          dsimp only
          by_cases h3 : c = s.esc ∧ s.esc < 0x80
          · rw [if_pos h3]; exact hp _ _
          · rw [if_neg h3]; exact hp _ _
      · rw [if_neg h2]; exact hp _ _

theorem CLoop.Inv.go {s : CLoop} (h : s.Inv) : s.go.Inv := by
  obtain ⟨cs, term, pc, keys, data, full, ttyFull⟩ := s
  unfold CLoop.go
  dsimp only
  have wait : ∀ pc', (match keys, data with
      | [], [] => ({ cs, term, pc := .blocked, keys, data, full, ttyFull } : CLoop)
      | [], _ :: _ => { cs, term, pc := .sockAt, keys, data, full, ttyFull }
      | _ :: _, d => { cs, term, pc := .keyAt (!d.isEmpty), keys, data, full, ttyFull }) = pc' → pc'.Inv := by
    intro pc' e
    subst e
    cases keys with
    | nil => cases data with
      | nil => trivial
      | cons d ds => exact List.cons_ne_nil _ _
    | cons k ks =>
      refine ⟨List.cons_ne_nil _ _, ?_⟩
      cases data with
      | nil => intro g; cases g
      | cons d ds => intro _; exact List.cons_ne_nil _ _
  cases pc with
  | test => dsimp only; split <;> trivial
  | call => exact wait _ rfl
  | blocked => exact wait _ rfl
  | keyAt b =>
    cases keys with
    | nil => exact h
    | cons k ks =>
      cases k with
      | none => exact inv_after (b := b) h.2 rfl
      | some c =>
        dsimp only
        by_cases hc : (cs.key c).2 = []
        · rw [if_pos hc]; exact inv_after (b := b) h.2 rfl
        · rw [if_neg hc]; exact ⟨h.2, key_sends hc⟩
  | send z b =>
    dsimp only
    by_cases hf : full = true
    · rw [if_pos hf]; exact h
    · rw [if_neg hf]
      cases z with
      | true => exact h
      | false => exact inv_after (b := b) h.1 rfl
  | stopped b => exact h
  | sockAt =>
    cases data with
    | nil => exact h
    | cons d ds => cases d <;> trivial
  | shown => dsimp only; split <;> trivial
  | ended => exact h

theorem CLoop.Inv.step {s : CLoop} (h : s.Inv) (e : CLEv) : (s.step e).Inv := by
  cases e with
  | go => exact h.go
  | key k =>
    obtain ⟨cs, term, pc, keys, data, full, ttyFull⟩ := s
    cases pc with
    | keyAt b => exact ⟨by show keys ++ [k] ≠ []; simp, h.2⟩
    | _ => exact h
  | data d =>
    obtain ⟨cs, term, pc, keys, data, full, ttyFull⟩ := s
    cases pc with
    | keyAt b => exact ⟨h.1, fun _ => by show data ++ [d] ≠ []; simp⟩
    | send z b => exact ⟨fun _ => by show data ++ [d] ≠ []; simp, h.2⟩
    | stopped b => exact ⟨fun _ => by show data ++ [d] ≠ []; simp, h.2⟩
    | sockAt => show data ++ [d] ≠ []; simp
    | _ => exact h
  | full b => exact h
  | ttyFull b => exact h
  | term =>
    obtain ⟨cs, term, pc, keys, data, full, ttyFull⟩ := s
    cases pc <;> exact h
  | ignored => exact h
  | cont =>
    obtain ⟨cs, term, pc, keys, data, full, ttyFull⟩ := s
    cases pc with
    | stopped b => exact inv_after (b := b) h.1 rfl
    | _ => exact h

theorem CLoop.Inv.run {s : CLoop} (h : s.Inv) (es : List CLEv) : (s.run es).Inv := by
  induction es generalizing s with
  | nil => exact h
  | cons e es ih => exact ih (h.step e)

theorem cloop_start_inv (cs : CState) : (CLoop.start cs).Inv := trivial

/-- An ended client stays so. -/
theorem ended_step {s : CLoop} (h : s.pc = .ended) (e : CLEv) : (s.step e).pc = .ended := by
  cases e with
  | go => show s.go.pc = _; unfold CLoop.go; rw [h]; exact h
  | term => show (if s.pc = .blocked then CPc.test else s.pc) = _; rw [h]; rfl
  | cont => unfold CLoop.step; rw [h]; exact h
  | _ => exact h

theorem ended_run {s : CLoop} (h : s.pc = .ended) (es : List CLEv) : (s.run es).pc = .ended := by
  induction es generalizing s with
  | nil => exact h
  | cons e es ih => exact ih (ended_step h e)

/-- How far a client that is to end is from its end: it stops at most once. -/
theorem term_runs (m : Nat) {s : CLoop} (h : s.Inv) (ht : s.term = true) (hf : s.full = false) (hy : s.ttyFull = false) (hp : s.pc ≠ .blocked)
    (hc : s.pc = .call → s.keys ≠ [] ∨ s.data ≠ []) :
    (s.run (List.replicate (m + 8) .go ++ .cont :: List.replicate 4 .go)).pc = .ended := by
  obtain ⟨cs, term, pc, keys, data, full, ttyFull⟩ := s
  dsimp only at ht hf hy hp hc
  subst ht hf hy
  have e1 : ∀ (n : Nat) cs keys data, ((CLoop.mk cs true .test keys data false false).run (List.replicate (n + 1) .go)).pc = .ended := by
    intro n cs keys data
    rw [List.replicate_succ, CLoop.run_cons]
    exact ended_run rfl _
  have e2 : ∀ (n : Nat) cs keys data, ((CLoop.mk cs true .shown keys data false false).run (List.replicate (n + 2) .go)).pc = .ended := by
    intro n cs keys data
    rw [List.replicate_succ, CLoop.run_cons]
    exact e1 n cs keys data
  have e3 : ∀ (n : Nat) cs keys data, data ≠ [] → ((CLoop.mk cs true .sockAt keys data false false).run (List.replicate (n + 3) .go)).pc = .ended := by
    intro n cs keys data hd
    rw [List.replicate_succ, CLoop.run_cons]
    cases data with
    | nil => exact absurd rfl hd
    | cons d ds => cases d with
      | none => exact e1 (n + 1) _ keys ds
      | some d => exact e2 n cs keys ds
  have e4 : ∀ (n : Nat) cs keys data b, (b = true → data ≠ []) → ((CLoop.mk cs true (.after b) keys data false false).run (List.replicate (n + 3) .go)).pc = .ended := by
    intro n cs keys data b hb
    cases b with
    | true => exact e3 n cs keys data (hb rfl)
    | false => exact e1 (n + 2) cs keys data
  have st : ∀ (n : Nat) (s : CLoop) (b : Bool), s.pc = .stopped b → s.run (List.replicate n .go) = s := by
    intro n s b hs
    induction n with
    | zero => rfl
    | succ n ih =>
      rw [List.replicate_succ, CLoop.run_cons]
      have : s.step .go = s := by show s.go = s; unfold CLoop.go; rw [hs]
      rw [this]; exact ih
  have e5 : ∀ (n : Nat) cs keys data b, (b = true → data ≠ []) →
      ((CLoop.mk cs true (.stopped b) keys data false false).run (List.replicate n .go ++ .cont :: List.replicate 4 .go)).pc = .ended := by
    intro n cs keys data b hb
    rw [CLoop.run_append, st n _ b rfl]
    exact e4 1 cs keys data b hb
  have fin : ∀ (s : CLoop) (n : Nat), (s.run (List.replicate n .go)).pc = .ended → (s.run (List.replicate n .go ++ .cont :: List.replicate 4 .go)).pc = .ended := by
    intro s n hs; rw [CLoop.run_append]; exact ended_run hs _
  have e6 : ∀ (n : Nat) cs keys data z b, (b = true → data ≠ []) →
      ((CLoop.mk cs true (.send z b) keys data false false).run (List.replicate (n + 4) .go ++ .cont :: List.replicate 4 .go)).pc = .ended := by
    intro n cs keys data z b hb
    rw [List.replicate_succ, List.cons_append, CLoop.run_cons]
    cases z with
    | true => exact e5 (n + 3) cs keys data b hb
    | false => exact fin _ _ (e4 n cs keys data b hb)
  have e7 : ∀ (n : Nat) cs keys data b, keys ≠ [] → (b = true → data ≠ []) →
      ((CLoop.mk cs true (.keyAt b) keys data false false).run (List.replicate (n + 5) .go ++ .cont :: List.replicate 4 .go)).pc = .ended := by
    intro n cs keys data b hk hb
    rw [List.replicate_succ, List.cons_append, CLoop.run_cons]
    cases keys with
    | nil => exact absurd rfl hk
    | cons k ks => cases k with
      | none => exact fin _ _ (e4 (n + 1) _ ks data b hb)
      | some c =>
        by_cases hc : (cs.key c).2 = []
        · have : (CLoop.mk cs true (.keyAt b) (some c :: ks) data false false).step .go = CLoop.mk (cs.key c).1 true (.after b) ks data false false := by
            show CLoop.mk _ _ (if (cs.key c).2 = [] then _ else _) _ _ _ _ = _
            rw [if_pos hc]
          rw [this]
          exact fin _ _ (e4 (n + 1) _ ks data b hb)
        · have : (CLoop.mk cs true (.keyAt b) (some c :: ks) data false false).step .go = CLoop.mk (cs.key c).1 true (.send (cs.inEsc && c = 0x5A) b) ks data false false := by
            show CLoop.mk _ _ (if (cs.key c).2 = [] then _ else _) _ _ _ _ = _
            rw [if_neg hc]
          rw [this]
          exact e6 n _ ks data _ b hb
  cases pc with
  | test => exact fin _ _ (e1 (m + 7) cs keys data)
  | call =>
    rw [List.replicate_succ, List.cons_append, CLoop.run_cons]
    cases keys with
    | nil => cases data with
      | nil => rcases hc rfl with g | g <;> exact absurd rfl g
      | cons d ds => exact fin _ _ (e3 (m + 4) cs [] (d :: ds) (List.cons_ne_nil _ _))
    | cons k ks =>
      refine e7 (m + 2) cs (k :: ks) data (!data.isEmpty) (List.cons_ne_nil _ _) ?_
      intro hb; cases data with
      | nil => cases hb
      | cons d ds => exact List.cons_ne_nil _ _
  | blocked => exact absurd rfl hp
  | keyAt b => exact e7 (m + 3) cs keys data b h.1 h.2
  | send z b => exact e6 (m + 4) cs keys data z b h.1
  | stopped b => exact e5 (m + 8) cs keys data b h.1
  | sockAt => exact fin _ _ (e3 (m + 5) cs keys data h)
  | shown => exact fin _ _ (e2 (m + 6) cs keys data)
  | ended => exact ended_run rfl _

theorem term_kept (s : CLoop) (h : List CLEv) (ht : s.term = true ∨ .term ∈ h) : (s.run h).term = true := by
  induction h generalizing s with
  | nil => rcases ht with g | g
           · exact g
           · cases g
  | cons e h ih =>
    refine ih (s.step e) ?_
    rcases ht with g | g
    · left
      cases e with
      | go => 
        show s.go.term = true
        unfold CLoop.go
        repeat' split
        all_goals exact g
      | term => rfl
      | cont => unfold CLoop.step; dsimp only; split <;> exact g
      | _ => exact g
    · rcases List.mem_cons.1 g with e1 | e1
      · left; subst e1; rfl
      · right; exact e1

/-- One key: the escape character stays, the mode begins with it, `&.` closes, and the loop ends because of a key only after that. -/
theorem key_facts {s : CState} {c : UInt8} (hd : s.done = false) :
    (s.key c).1.esc = s.esc ∧ ((s.key c).1.inEsc = true → c = s.esc) ∧ ((s.key c).1.wrClosed = true → s.wrClosed = true ∨ (s.inEsc = true ∧ c = 0x2E)) ∧
    ((s.key c).1.done = true → s.wrClosed = true) := by
  have hs : ∀ (t : CState) o, s.wrClosed = t.wrClosed → t.esc = s.esc → t.inEsc = false → t.done = false →
      (t.send o).1.esc = s.esc ∧ ((t.send o).1.inEsc = true → c = s.esc) ∧ ((t.send o).1.wrClosed = true → s.wrClosed = true ∨ (s.inEsc = true ∧ c = 0x2E)) ∧
      ((t.send o).1.done = true → s.wrClosed = true) := by
    intro t o h1 h2 h3 h4
    unfold CState.send
    by_cases ht : t.wrClosed = true
    · rw [if_pos ht]; exact ⟨h2, fun g => (nomatch h3.symm.trans g), fun _ => .inl (h1.trans ht), fun _ => h1.trans ht⟩
    · rw [if_neg ht]; exact ⟨h2, fun g => (nomatch h3.symm.trans g), fun g => absurd g ht, fun g => (nomatch h4.symm.trans g)⟩
  have hp : ∀ (t : CState) o, s.wrClosed = t.wrClosed → t.esc = s.esc → t.inEsc = false → t.done = false →
      (t.put o).1.esc = s.esc ∧ ((t.put o).1.inEsc = true → c = s.esc) ∧ ((t.put o).1.wrClosed = true → s.wrClosed = true ∨ (s.inEsc = true ∧ c = 0x2E)) ∧
      ((t.put o).1.done = true → s.wrClosed = true) := by
    intro t o h1 h2 h3 h4
    unfold CState.put; by_cases hc : t.cmd = .connect
    · rw [if_pos hc]; exact hs _ _ h1 h2 h3 h4
    · rw [if_neg hc]; exact ⟨h2, fun g => (nomatch h3.symm.trans g), fun g => .inl (h1.trans g), fun g => (nomatch h4.symm.trans g)⟩
  unfold CState.key
  rw [if_neg (by rw [hd]; simp)]
  dsimp only
  by_cases h1 : ¬ s.inEsc = true ∧ (c = s.esc ∧ s.esc < 0x80)
  · rw [if_pos h1]; exact ⟨rfl, fun _ => h1.2.1, fun g => .inl g, fun g => (nomatch hd.symm.trans g)⟩
  · rw [if_neg h1]
    by_cases h2 : s.inEsc = true
    · rw [if_pos h2]
      cases e : ({ s with inEsc := false } : CState).escape c with
      | some r =>
        refine escape_cases e (P := fun r => r.1.esc = s.esc ∧ (r.1.inEsc = true → c = s.esc) ∧ (r.1.wrClosed = true → s.wrClosed = true ∨ (s.inEsc = true ∧ c = 0x2E)) ∧
          (r.1.done = true → s.wrClosed = true)) ?_ ?_ ?_
        · intro t' o h; exact hs t' o h.1.symm h.2.1 h.2.2.1 (h.2.2.2.trans hd)
        · intro t' h
          exact ⟨h.2.1, fun g => (nomatch h.2.2.1.symm.trans g), fun g => .inl (h.1.symm.trans g), fun g => (nomatch (h.2.2.2.trans hd).symm.trans g)⟩
        · intro hc; exact ⟨rfl, nofun, fun _ => .inr ⟨h2, hc⟩, fun g => (nomatch hd.symm.trans g)⟩
      | none =>
        dsimp only
        by_cases h3 : c = s.esc ∧ s.esc < 0x80
        · rw [if_pos h3]; exact hp { s with inEsc := false } _ rfl rfl rfl hd
        · rw [if_neg h3]; exact hp { s with inEsc := false } _ rfl rfl rfl hd
    · rw [if_neg h2]; exact hp _ _ rfl rfl (by simpa using h2) hd

/-- Between the test of `done` and the handling of a key. -/
def CPc.early : CPc → Bool
  | .call | .blocked | .keyAt _ => true
  | _ => false

/-- What a client knows after a history. -/
structure CLoop.Knows (e : UInt8) (h : List CLEv) (s : CLoop) (d : List (Option UInt8)) : Prop where
  typed : typedIn h = d ++ s.keys
  got : ∀ x ∈ s.data, .data x ∈ h
  esc : s.cs.esc = e
  inEsc : s.cs.inEsc = true → s.cs.done = true ∨ ∃ a, d = a ++ [some e]
  closed : s.cs.wrClosed = true → [some e, some 0x2E] <:+: d
  done : s.cs.done = true → none ∈ d ∨ .data none ∈ h ∨ s.cs.wrClosed = true
  term : s.term = true → .term ∈ h
  ended : s.pc = .ended → s.term = true ∨ s.cs.done = true
  over : s.cs.done = true → s.pc.early = false

theorem CLoop.Knows.ext {esc : UInt8} {h : List CLEv} {s t : CLoop} {d : List (Option UInt8)} (k : s.Knows esc h d) (e : CLEv)
    (he : ∀ x, e ≠ .key x) (h1 : t.cs = s.cs) (h2 : t.keys = s.keys) (h3 : ∀ x ∈ t.data, x ∈ s.data ∨ e = .data x) (h4 : t.term = true → s.term = true ∨ e = .term)
    (h5 : t.pc = .ended → t.term = true ∨ t.cs.done = true)
    (h6 : t.cs.done = true → t.pc.early = false) : t.Knows esc (h ++ [e]) d where
  typed := by
    rw [h2, ← k.typed]
    unfold typedIn
    rw [List.filterMap_append]
    cases e with
    | key x => exact absurd rfl (he x)
    | _ => simp
  got := fun x hx => by
    rcases h3 x hx with g | g
    · exact List.mem_append_left _ (k.got x g)
    · rw [g]; simp
  esc := by rw [h1]; exact k.esc
  inEsc := by rw [h1]; exact k.inEsc
  closed := by rw [h1]; exact k.closed
  done := by
    rw [h1]; intro g
    rcases k.done g with a | a | a
    · exact .inl a
    · exact .inr (.inl (List.mem_append_left _ a))
    · exact .inr (.inr a)
  term := fun g => by
    rcases h4 g with a | a
    · exact List.mem_append_left _ (k.term a)
    · rw [a]; simp
  ended := h5
  over := h6

theorem after_ne (b : Bool) : CPc.after b ≠ .ended := by cases b <;> exact nofun

theorem after_early (b : Bool) : (CPc.after b).early = false := by cases b <;> rfl

theorem knows_step {esc : UInt8} {h : List CLEv} {s : CLoop} {d : List (Option UInt8)} (k : s.Knows esc h d) (e : CLEv) :
    ∃ d', (s.step e).Knows esc (h ++ [e]) d' := by
  cases e with
  | key x =>
    refine ⟨d, ?_, fun y hy => List.mem_append_left _ (k.got y hy), k.esc, k.inEsc, k.closed, ?_, fun g => List.mem_append_left _ (k.term g), k.ended, k.over⟩
    · show typedIn (h ++ [.key x]) = d ++ (s.keys ++ [x])
      unfold typedIn
      rw [List.filterMap_append, ← List.append_assoc, ← k.typed]; rfl
    · intro g
      rcases k.done g with a | a | a
      · exact .inl a
      · exact .inr (.inl (List.mem_append_left _ a))
      · exact .inr (.inr a)
  | data x =>
    refine ⟨d, k.ext _ nofun rfl rfl (fun y hy => ?_) .inl k.ended k.over⟩
    rcases List.mem_append.1 (show y ∈ s.data ++ [x] from hy) with a | a
    · exact .inl a
    · right; rw [List.mem_singleton.1 a]
  | full b => exact ⟨d, k.ext _ nofun rfl rfl (fun y hy => .inl hy) .inl k.ended k.over⟩
  | ttyFull b => exact ⟨d, k.ext _ nofun rfl rfl (fun y hy => .inl hy) .inl k.ended k.over⟩
  | term => exact ⟨d, k.ext _ nofun rfl rfl (fun y hy => .inl hy) (fun _ => .inr rfl) (fun _ => .inl rfl) (fun g => by
      have := k.over g
      show (if s.pc = .blocked then CPc.test else s.pc).early = false
      by_cases hb : s.pc = .blocked
      · rw [if_pos hb]; rfl
      · rw [if_neg hb]; exact this)⟩
  | ignored => exact ⟨d, k.ext _ nofun rfl rfl (fun y hy => .inl hy) .inl k.ended k.over⟩
  | cont =>
    obtain ⟨cs, term, pc, keys, data, full, ttyFull⟩ := s
    cases pc with
    | stopped b => exact ⟨d, k.ext _ nofun rfl rfl (fun y hy => .inl hy) .inl (fun g => absurd g (after_ne b)) (fun _ => after_early b)⟩
    | _ => exact ⟨d, k.ext _ nofun rfl rfl (fun y hy => .inl hy) .inl k.ended k.over⟩
  | go =>
    obtain ⟨cs, term, pc, keys, data, full, ttyFull⟩ := s
    have pcs : ∀ pc', (pc' = .ended → term = true ∨ cs.done = true) → (cs.done = true → pc'.early = false) → ∃ d', (CLoop.mk cs term pc' keys data full ttyFull).Knows esc (h ++ [.go]) d' :=
      fun pc' g g' => ⟨d, k.ext _ nofun rfl rfl (fun y hy => .inl hy) .inl g g'⟩
    have grow : ∀ {x : CLEv}, x ∈ h → x ∈ h ++ [CLEv.go] := fun g => List.mem_append_left _ g
    have ty : typedIn (h ++ [.go]) = typedIn h := by unfold typedIn; rw [List.filterMap_append]; simp
    show ∃ d', (CLoop.go _).Knows esc _ d'
    unfold CLoop.go
    dsimp only
    cases pc with
    | test =>
      dsimp only
      by_cases hc : (term || cs.done) = true
      · rw [if_pos hc]; exact pcs _ (fun _ => by simpa using hc) (fun _ => rfl)
      · rw [if_neg hc]; exact pcs _ nofun (fun g => absurd (by rw [g]; simp) hc)
    | call =>
      cases keys with
      | nil => cases data with
        | nil => exact pcs _ nofun (fun g => k.over g)
        | cons _ _ => exact pcs _ nofun (fun _ => rfl)
      | cons _ _ => exact pcs _ nofun (fun g => k.over g)
    | blocked =>
      cases keys with
      | nil => cases data with
        | nil => exact pcs _ nofun (fun g => k.over g)
        | cons _ _ => exact pcs _ nofun (fun _ => rfl)
      | cons _ _ => exact pcs _ nofun (fun g => k.over g)
    | keyAt b =>
      cases keys with
      | nil => exact pcs _ nofun k.over
      | cons x ks =>
        cases x with
        | none =>
          refine ⟨d ++ [none], ?_, fun y hy => grow (k.got y hy), k.esc, ?_, ?_, fun _ => .inl (by simp), fun g => grow (k.term g), fun g => absurd g (after_ne b), fun _ => after_early b⟩
          · rw [ty, k.typed, List.append_assoc]; rfl
          · intro _; exact .inl rfl
          · intro g; exact (k.closed g).trans (List.infix_append' [] d [none])
        | some c =>
          have hd : cs.done = false := by
            cases hx : cs.done with
            | false => rfl
            | true => exact (nomatch k.over hx)
          obtain ⟨f1, f2, f3, f4⟩ := key_facts (c := c) hd
          refine ⟨d ++ [some c], ?_, fun y hy => grow (k.got y hy), f1.trans k.esc, ?_, ?_, ?_, fun g => grow (k.term g), ?_, ?_⟩
          · rw [ty, k.typed, List.append_assoc]; rfl
          · intro g; refine .inr ⟨d, ?_⟩; rw [f2 g]; exact congrArg (d ++ [some ·]) k.esc
          · intro g
            rcases f3 g with a | ⟨a, a'⟩
            · exact (k.closed a).trans (List.infix_append' [] d [some c])
            · rcases k.inEsc a with hx | ⟨p, hp⟩
              · exact (nomatch hd.symm.trans hx)
              rw [hp, a']
              exact ⟨p, [], by simp⟩
          · intro g
            have := f4 g
            rcases key_wrClosed cs c this with ⟨w, -⟩
            exact .inr (.inr w)
          · intro g
            dsimp only at g
            by_cases hk : (cs.key c).2 = []
            · rw [if_pos hk] at g; exact absurd g (after_ne b)
            · rw [if_neg hk] at g; cases g
          · intro _
            dsimp only
            by_cases hk : (cs.key c).2 = []
            · rw [if_pos hk]; exact after_early b
            · rw [if_neg hk]; rfl
    | send z b =>
      dsimp only
      by_cases hf : full = true
      · rw [if_pos hf]; exact pcs _ nofun (fun _ => rfl)
      · rw [if_neg hf]
        cases z
        · exact pcs _ (fun g => absurd g (after_ne b)) (fun _ => after_early b)
        · exact pcs _ nofun (fun _ => rfl)
    | stopped b => exact pcs _ nofun (fun _ => rfl)
    | sockAt =>
      cases data with
      | nil => exact pcs _ nofun (fun _ => rfl)
      | cons x ds =>
        cases x with
        | none =>
          refine ⟨d, by rw [ty]; exact k.typed, fun y hy => grow (k.got y (by simp only [List.mem_cons]; exact .inr hy)), k.esc, fun _ => .inl rfl, k.closed,
            fun _ => .inr (.inl (grow (k.got none (by simp)))), fun g => grow (k.term g), nofun, fun _ => rfl⟩
        | some x => exact ⟨d, k.ext _ nofun rfl rfl (fun y hy => .inl (by simp only [List.mem_cons]; exact .inr hy)) .inl nofun (fun _ => rfl)⟩
    | shown =>
      dsimp only
      by_cases hf : ttyFull = true
      · rw [if_pos hf]; exact pcs _ nofun (fun _ => rfl)
      · rw [if_neg hf]; exact pcs _ nofun (fun _ => rfl)
    | ended => exact pcs _ k.ended k.over

theorem knows_run {esc : UInt8} (hs : List CLEv) : ∀ {h : List CLEv} {s : CLoop} {d : List (Option UInt8)}, s.Knows esc h d → ∃ d', (s.run hs).Knows esc (h ++ hs) d' := by
  induction hs with
  | nil => intro h s d k; exact ⟨d, by rw [List.append_nil]; exact k⟩
  | cons e hs ih =>
    intro h s d k
    obtain ⟨d', k'⟩ := knows_step k e
    obtain ⟨d'', k''⟩ := ih k'
    exact ⟨d'', by rw [List.append_assoc] at k''; exact k''⟩

theorem start_knows {cs : CState} (hn : cs.inEsc = false) (hw : cs.wrClosed = false) (hd : cs.done = false) : (CLoop.start cs).Knows cs.esc [] [] where
  typed := rfl
  got := nofun
  esc := rfl
  inEsc := fun g => (nomatch hn.symm.trans g)
  closed := fun g => (nomatch hw.symm.trans g)
  done := fun g => (nomatch hd.symm.trans g)
  term := nofun
  ended := nofun
  over := fun g => (nomatch hd.symm.trans g)

/-- Steps left. -/
def CLoop.left (s : CLoop) : Nat :=
  10 * (s.keys.length + s.data.length) + match s.pc with
    | .test => 4
    | .call | .blocked => 3
    | .keyAt _ => 2
    | .sockAt => 1
    | .shown => 5
    | _ => 0

theorem left_after (cs : CState) (t : Bool) (b : Bool) (ks : List (Option UInt8)) (ds : List (Option (List UInt8))) (f y : Bool) :
    (CLoop.mk cs t (.after b) ks ds f y).left ≤ 10 * (ks.length + ds.length) + 4 := by
  cases b
  · exact Nat.le_refl _
  · show 10 * (ks.length + ds.length) + 1 ≤ _; omega

/-- A closed session, the end of which the server has sent. -/
structure CLoop.Closing (s : CLoop) : Prop where
  inv : s.Inv
  wr : s.cs.wrClosed = true
  tty : s.ttyFull = false
  bye : none ∈ s.data ∨ (s.cs.done = true ∧ s.pc.early = false)

theorem closing_go {s : CLoop} (h : s.Closing) (hp : s.pc ≠ .ended) : s.go.Closing ∧ s.go.left < s.left := by
  have hI := h.inv.go
  obtain ⟨hi, hw, ht, hb⟩ := h
  obtain ⟨cs, term, pc, keys, data, full, ttyFull⟩ := s
  dsimp only at hw ht hp
  subst ht
  cases pc with
  | test =>
    by_cases hc : (term || cs.done) = true
    · have e : (CLoop.mk cs term .test keys data full false).go = CLoop.mk cs term .ended keys data full false := by unfold CLoop.go; dsimp only; rw [if_pos hc]
      rw [e] at hI ⊢
      refine ⟨⟨hI, hw, rfl, hb.imp id (fun g => ⟨g.1, rfl⟩)⟩, ?_⟩
      show 10 * (keys.length + data.length) + 0 < 10 * (keys.length + data.length) + 4; omega
    · have e : (CLoop.mk cs term .test keys data full false).go = CLoop.mk cs term .call keys data full false := by unfold CLoop.go; dsimp only; rw [if_neg hc]
      rw [e] at hI ⊢
      refine ⟨⟨hI, hw, rfl, ?_⟩, ?_⟩
      · rcases hb with g | g
        · exact .inl g
        · exact absurd (by have := g.1; dsimp only at this; rw [this]; simp) hc
      · show 10 * (keys.length + data.length) + 3 < 10 * (keys.length + data.length) + 4; omega
  | call =>
    rcases hb with g | g
    · cases data with
      | nil => cases g
      | cons x ds =>
        cases keys with
        | nil => exact ⟨⟨hI, hw, rfl, .inl g⟩, by show 10 * _ + 1 < 10 * _ + 3; exact Nat.add_lt_add_left (by omega) _⟩
        | cons y ks => exact ⟨⟨hI, hw, rfl, .inl g⟩, by show 10 * _ + 2 < 10 * _ + 3; exact Nat.add_lt_add_left (by omega) _⟩
    · exact (nomatch g.2)
  | blocked =>
    rcases hb with g | g
    · cases data with
      | nil => cases g
      | cons x ds =>
        cases keys with
        | nil => exact ⟨⟨hI, hw, rfl, .inl g⟩, by show 10 * _ + 1 < 10 * _ + 3; exact Nat.add_lt_add_left (by omega) _⟩
        | cons y ks => exact ⟨⟨hI, hw, rfl, .inl g⟩, by show 10 * _ + 2 < 10 * _ + 3; exact Nat.add_lt_add_left (by omega) _⟩
    · exact (nomatch g.2)
  | keyAt b =>
    rcases hb with g | g
    · cases keys with
      | nil => exact absurd rfl hi.1
      | cons x ks =>
        cases x with
        | none =>
          refine ⟨⟨hI, hw, rfl, .inl g⟩, Nat.lt_of_le_of_lt (left_after _ _ b _ _ _ _) ?_⟩
          show 10 * (ks.length + data.length) + 4 < 10 * ((none :: ks).length + data.length) + 2
          rw [List.length_cons]; omega
        | some c =>
          obtain ⟨w1, w2⟩ := key_wrClosed cs c hw
          have e : (CLoop.mk cs term (.keyAt b) (some c :: ks) data full false).go = CLoop.mk (cs.key c).1 term (.after b) ks data full false := by
            show CLoop.mk _ _ (if (cs.key c).2 = [] then _ else _) _ _ _ _ = _
            rw [if_pos w2]
          rw [e] at hI ⊢
          refine ⟨⟨hI, w1, rfl, .inl g⟩, Nat.lt_of_le_of_lt (left_after _ _ b _ _ _ _) ?_⟩
          show _ < 10 * ((some c :: ks).length + data.length) + 2
          rw [List.length_cons]; omega
    · exact (nomatch g.2)
  | send z b => exact (nomatch hw.symm.trans hi.2)
  | stopped b => exact (nomatch hw.symm.trans hi.2)
  | sockAt =>
    cases data with
    | nil => exact absurd rfl hi
    | cons x ds =>
      cases x with
      | none =>
        refine ⟨⟨hI, hw, rfl, .inr ⟨rfl, rfl⟩⟩, ?_⟩
        show 10 * (keys.length + ds.length) + 4 < 10 * (keys.length + (none :: ds).length) + 1
        rw [List.length_cons]; omega
      | some x =>
        refine ⟨⟨hI, hw, rfl, ?_⟩, ?_⟩
        · rcases hb with g | g
          · rcases List.mem_cons.1 g with a | a
            · cases a
            · exact .inl a
          · exact .inr ⟨g.1, rfl⟩
        · show 10 * (keys.length + ds.length) + 5 < 10 * (keys.length + (some x :: ds).length) + 1
          rw [List.length_cons]; omega
  | shown =>
    refine ⟨⟨hI, hw, rfl, hb.imp id (fun g => ⟨g.1, rfl⟩)⟩, ?_⟩
    show 10 * (keys.length + data.length) + 4 < 10 * (keys.length + data.length) + 5; omega
  | ended => exact absurd rfl hp

theorem closing_ends (n : Nat) : ∀ {s : CLoop}, s.Closing → s.left ≤ n → ∃ m, (s.run (List.replicate m .go)).pc = .ended := by
  induction n with
  | zero =>
    intro s h hl
    by_cases hp : s.pc = .ended
    · exact ⟨0, hp⟩
    · have := (closing_go h hp).2; omega
  | succ n ih =>
    intro s h hl
    by_cases hp : s.pc = .ended
    · exact ⟨0, hp⟩
    · obtain ⟨h1, h2⟩ := closing_go h hp
      obtain ⟨m, hm⟩ := ih h1 (by omega)
      exact ⟨m + 1, by rw [List.replicate_succ, CLoop.run_cons]; exact hm⟩

end Conman
