import Verif.Lemma.CliLoop

/-
C112: how a client that is connected ends.
`(CLoop.start cs).run h` is the client after the history `h` (what is typed, sent by the server, signals, how far it got).
-/
namespace Conman
open Spec

variable {cs : CState}

/-- C112. SIGTERM ends the client without anything else having to happen, wherever its loop is, except between the test of the flag and the wait; if the socket and the
terminal take what is being written, and it is continued if it is suspended. -/
theorem C112_term_partial (h : List CLEv) (hf : ((CLoop.start cs).run h).full = false) (hy : ((CLoop.start cs).run h).ttyFull = false)
    (hp : ((CLoop.start cs).run h).pc ≠ .call) :
    ((CLoop.start cs).run (h ++ .term :: (List.replicate 8 .go ++ .cont :: List.replicate 4 .go))).pc = .ended := by
  rw [CLoop.run_append, CLoop.run_cons]
  have hi := (cloop_start_inv cs).run h
  generalize (CLoop.start cs).run h = s at *
  refine term_runs 0 (hi.step .term) rfl hf hy ?_ ?_
  · show (if s.pc = .blocked then CPc.test else s.pc) ≠ .blocked
    by_cases hb : s.pc = .blocked
    · rw [if_pos hb]; simp
    · rw [if_neg hb]; exact hb
  · intro hc
    have hc' : (if s.pc = .blocked then CPc.test else s.pc) = .call := hc
    by_cases hb : s.pc = .blocked
    · rw [if_pos hb] at hc'; cases hc'
    · rw [if_neg hb] at hc'; exact absurd hc' hp

/-- C112. Wherever the loop was when SIGTERM came, the client ends at the latest when the next key is typed (if the socket and the terminal take what is written; it is
continued if it is suspended). -/
theorem C112_term_key (h : List CLEv) (ht : .term ∈ h) (k : Option UInt8) :
    ((CLoop.start cs).run (h ++ [.full false, .ttyFull false, .key k] ++ (List.replicate 9 .go ++ .cont :: List.replicate 4 .go))).pc = .ended := by
  rw [CLoop.run_append]
  have hi := (cloop_start_inv cs).run (h ++ [.full false, .ttyFull false, .key k])
  have htt := term_kept (CLoop.start cs) (h ++ [.full false, .ttyFull false, .key k]) (.inr (by simp [ht]))
  have h1 : ((CLoop.start cs).run (h ++ [.full false, .ttyFull false, .key k])).full = false := by rw [CLoop.run_append]; rfl
  have h2 : ((CLoop.start cs).run (h ++ [.full false, .ttyFull false, .key k])).ttyFull = false := by rw [CLoop.run_append]; rfl
  have h3 : ((CLoop.start cs).run (h ++ [.full false, .ttyFull false, .key k])).keys ≠ [] := by
    rw [CLoop.run_append]
    show ((CLoop.start cs).run h).keys ++ [k] ≠ []
    simp
  generalize (CLoop.start cs).run (h ++ [.full false, .ttyFull false, .key k]) = s at *
  by_cases hb : s.pc = .blocked
  · rw [List.replicate_succ, List.cons_append, CLoop.run_cons]
    have hg : (s.step .go).term = true ∧ (s.step .go).full = false ∧ (s.step .go).ttyFull = false ∧ (s.step .go).pc ≠ .blocked ∧ (s.step .go).pc ≠ .call := by
      obtain ⟨cs, term, pc, keys, data, full, ttyFull⟩ := s
      dsimp only at *
      subst hb
      cases keys with
      | nil => exact absurd rfl h3
      | cons k ks => exact ⟨htt, h1, h2, nofun, nofun⟩
    exact term_runs 0 (hi.step .go) hg.1 hg.2.1 hg.2.2.1 hg.2.2.2.1 (fun g => absurd g hg.2.2.2.2)
  · exact term_runs 1 hi htt h1 h2 hb (fun _ => .inl h3)

/-- C112, what fails: a signal that comes after the test of the flag and before the wait has no effect, however long nothing else happens. -/
theorem C112_lost_wakeup (hd : cs.done = false) : ∃ h, .term ∈ h ∧ ∀ n, ((CLoop.start cs).run (h ++ List.replicate n .go)).pc ≠ .ended := by
  refine ⟨[.go, .term], by simp, ?_⟩
  intro n
  have h1 : (CLoop.start cs).run [.go, .term] = { cs := cs, term := true, pc := .call } := by
    have : (CLoop.start cs).go = { cs := cs, pc := .call } := by unfold CLoop.go CLoop.start; dsimp only; rw [hd]; rfl
    show ((CLoop.start cs).go).step .term = _
    rw [this]; rfl
  rw [CLoop.run_append, h1]
  cases n with
  | zero => exact nofun
  | succ n =>
    rw [List.replicate_succ, CLoop.run_cons]
    have h2 : ∀ n, (CLoop.mk cs true .blocked [] [] false false).run (List.replicate n .go) = CLoop.mk cs true .blocked [] [] false false := by
      intro n
      induction n with
      | zero => rfl
      | succ n ih => rw [List.replicate_succ, CLoop.run_cons]; exact ih
    have h3 := h2 n
    show ((CLoop.mk cs true .blocked [] [] false false).run (List.replicate n .go)).pc ≠ .ended
    rw [h3]; exact nofun

/-- C112, what fails: while the server does not take what was typed, no signal ends the client, whatever else happens. -/
theorem C112_stuck (hd : cs.done = false) (hw : cs.wrClosed = false) (hc : cs.cmd = .connect) (he : cs.inEsc = false) {c : UInt8} (hn : c ≠ cs.esc) :
    ∀ h, .full false ∉ h → ((CLoop.start cs).run ([.full true, .key (some c), .go, .go, .go] ++ h)).pc ≠ .ended := by
  intro h hf
  have hk : (cs.key c).2 ≠ [] := by
    unfold CState.key
    rw [if_neg (by rw [hd]; simp)]
    dsimp only
    rw [if_neg (by rw [he]; simp [hn]), if_neg (by rw [he]; simp)]
    unfold CState.put
    rw [if_pos hc]
    unfold CState.send
    rw [if_neg (by rw [hw]; simp)]
    show stuffLoop [c] 1 ≠ []
    unfold stuffLoop
    by_cases hx : [c][0]? = some escChar
    · rw [if_pos hx]; unfold stuffLoop; simp
    · rw [if_neg hx]; unfold stuffLoop; simp
  rw [CLoop.run_append]
  have h0 : ((CLoop.start cs).run [.full true, .key (some c), .go, .go, .go]).full = true ∧ ∃ z, ((CLoop.start cs).run [.full true, .key (some c), .go, .go, .go]).pc = .send z false := by
    have h1 : (CLoop.start cs).run [.full true, .key (some c), .go] = { cs := cs, pc := .call, keys := [some c], full := true } := by
      show CLoop.go { cs := cs, keys := [some c], full := true } = _
      unfold CLoop.go; dsimp only; rw [hd]; rfl
    have h2 : (CLoop.start cs).run [.full true, .key (some c), .go, .go, .go] = ((CLoop.start cs).run [.full true, .key (some c), .go]).run [.go, .go] := rfl
    rw [h2, h1]
    have h3 : (CLoop.mk cs false .call [some c] [] true false).run [.go, .go] = CLoop.mk (cs.key c).1 false (.send (cs.inEsc && c = 0x5A) false) [] [] true false := by
      show CLoop.mk _ _ (if (cs.key c).2 = [] then _ else _) _ _ _ _ = _
      rw [if_neg hk]; rfl
    rw [h3]
    exact ⟨rfl, _, rfl⟩
  generalize (CLoop.start cs).run [.full true, .key (some c), .go, .go, .go] = s at h0
  have key : ∀ (h : List CLEv) (s : CLoop), .full false ∉ h → s.full = true → (∃ z b, s.pc = .send z b) → ∃ z b, (s.run h).pc = .send z b := by
    intro h
    induction h with
    | nil => intro s _ _ hp; exact hp
    | cons e h ih =>
      intro s hf hs ⟨z, b, hp⟩
      refine ih (s.step e) (fun g => hf (by simp [g])) ?_ ⟨z, b, ?_⟩
      · cases e with
        | go => show s.go.full = true; unfold CLoop.go; rw [hp]; dsimp only; rw [if_pos hs]; exact hs
        | full b =>
          cases b with
          | true => rfl
          | false => exact absurd (by simp) hf
        | cont => unfold CLoop.step; rw [hp]; exact hs
        | _ => exact hs
      · cases e with
        | go => show s.go.pc = _; unfold CLoop.go; rw [hp]; dsimp only; rw [if_pos hs]; exact hp
        | term => show (if s.pc = .blocked then CPc.test else s.pc) = _; rw [hp]; rfl
        | cont => unfold CLoop.step; rw [hp]; exact hp
        | _ => exact hp
  obtain ⟨z, hz⟩ := h0.2
  obtain ⟨z', b', e⟩ := key h s hf h0.1 ⟨z, false, hz⟩
  rw [e]; exact nofun

/-- C112. The client does not end by itself: only after SIGTERM, the end of its input, the end of the connection by the server, or the closing command. -/
theorem C112_only (hn : cs.inEsc = false) (hw : cs.wrClosed = false) (hd : cs.done = false) (h : List CLEv) (he : ((CLoop.start cs).run h).pc = .ended) :
    .term ∈ h ∨ none ∈ typedIn h ∨ .data none ∈ h ∨ [some cs.esc, some 0x2E] <:+: typedIn h := by
  obtain ⟨d, k⟩ := knows_run h (start_knows hn hw hd)
  rw [List.nil_append] at k
  rcases k.ended he with g | g
  · exact .inl (k.term g)
  · rcases k.done g with a | a | a
    · right; left; rw [k.typed]; exact List.mem_append_left _ a
    · exact .inr (.inr (.inl a))
    · right; right; right; rw [k.typed]; exact (k.closed a).trans (List.infix_append' [] d _)

/-- C112. After the closing command the client ends when the server ends the connection, whatever the server has sent before and is typed in the meantime, if the terminal
takes the output. -/
theorem C112_close (h : List CLEv) (hw : ((CLoop.start cs).run h).cs.wrClosed = true) (hy : ((CLoop.start cs).run h).ttyFull = false) :
    ∃ n, ((CLoop.start cs).run (h ++ .data none :: List.replicate n .go)).pc = .ended := by
  have hi := (cloop_start_inv cs).run h
  have hc : (((CLoop.start cs).run h).step (.data none)).Closing := by
    refine ⟨hi.step _, hw, hy, .inl ?_⟩
    show none ∈ ((CLoop.start cs).run h).data ++ [none]
    simp
  obtain ⟨n, hn⟩ := closing_ends _ hc (Nat.le_refl _)
  exact ⟨n, by rw [CLoop.run_append, CLoop.run_cons]; exact hn⟩

/-- C112. If the server does not, the next key that would be sent ends the client. -/
theorem C112_close_key (h : List CLEv) (hb : ((CLoop.start cs).run h).pc = .blocked) (hk : ((CLoop.start cs).run h).keys = []) (hd : ((CLoop.start cs).run h).data = [])
    (hw : ((CLoop.start cs).run h).cs.wrClosed = true) (hc : ((CLoop.start cs).run h).cs.cmd = .connect) (he : ((CLoop.start cs).run h).cs.inEsc = false)
    {c : UInt8} (hn : c ≠ ((CLoop.start cs).run h).cs.esc) : ((CLoop.start cs).run (h ++ [.key (some c), .go, .go, .go])).pc = .ended := by
  rw [CLoop.run_append]
  generalize (CLoop.start cs).run h = s at *
  obtain ⟨cs, term, pc, keys, data, full, ttyFull⟩ := s
  dsimp only at *
  subst hb hk hd
  obtain ⟨-, w2⟩ := key_wrClosed cs c hw
  have hdn : (cs.key c).1.done = true := by
    unfold CState.key
    by_cases hd : cs.done = true
    · rw [if_pos hd]; exact hd
    · rw [if_neg hd]
      dsimp only
      rw [if_neg (by rw [he]; simp [hn]), if_neg (by rw [he]; simp)]
      unfold CState.put
      rw [if_pos hc]
      unfold CState.send
      rw [if_pos hw]
  have e : (CLoop.mk cs term .blocked [] [] full ttyFull).run [.key (some c), .go, .go, .go] = (CLoop.mk (cs.key c).1 term .test [] [] full ttyFull).go := by
    show (CLoop.mk _ _ (if (cs.key c).2 = [] then _ else _) _ _ _ _).go = _
    rw [if_pos w2]; rfl
  rw [e]
  unfold CLoop.go
  dsimp only
  rw [hdn, Bool.or_true]; rfl

/-- C112, what fails: a client that only monitors does not end by ordinary keys typed after the closing command, if the server does not end the connection. -/
theorem C112_close_monitor (hn : cs.inEsc = false) (hd : cs.done = false) (hc : cs.cmd = .monitor) (h : List CLEv)
    (hh : ∀ e ∈ h, e = .go ∨ ∃ c, e = .key (some c) ∧ c ≠ cs.esc) : ((CLoop.start { cs with wrClosed := true }).run h).pc ≠ .ended := by
  have kk : ∀ (t : CState) (c : UInt8), t.inEsc = false → t.done = false → t.cmd = .monitor → c ≠ t.esc → t.key c = (t, []) := by
    intro t c h1 h2 h3 h4
    unfold CState.key
    rw [if_neg (by rw [h2]; simp)]
    dsimp only
    rw [if_neg (by rw [h1]; simp [h4]), if_neg (by rw [h1]; simp)]
    unfold CState.put
    rw [if_neg (by rw [h3]; exact nofun)]
  have key : ∀ (h : List CLEv) (s : CLoop), (∀ e ∈ h, e = .go ∨ ∃ c, e = .key (some c) ∧ c ≠ s.cs.esc) → s.cs.inEsc = false → s.cs.done = false → s.cs.cmd = .monitor →
      s.term = false → s.data = [] → (∀ k ∈ s.keys, ∃ c, k = some c ∧ c ≠ s.cs.esc) → (s.pc = .test ∨ s.pc = .call ∨ s.pc = .blocked ∨ s.pc = .keyAt false) → (s.run h).pc ≠ .ended := by
    intro h
    induction h with
    | nil => intro s _ _ _ _ _ _ _ hp; rcases hp with g | g | g | g <;> (show s.pc ≠ _; rw [g]; exact nofun)
    | cons e h ih =>
      intro s hh h1 h2 h3 h4 h5 h6 hp
      rw [CLoop.run_cons]
      obtain ⟨cs, term, pc, keys, data, full, ttyFull⟩ := s
      dsimp only at *
      subst h4 h5
      rcases hh e (by simp) with g | ⟨c, g, hce⟩
      · subst g
        rcases hp with g | g | g | g <;> subst g
        · have e : (CLoop.mk cs false .test keys [] full ttyFull).step .go = CLoop.mk cs false .call keys [] full ttyFull := by
            show CLoop.go (CLoop.mk cs false .test keys [] full ttyFull) = _; unfold CLoop.go; dsimp only; rw [h2]; rfl
          rw [e]; exact ih _ (fun x hx => hh x (by simp [hx])) h1 h2 h3 rfl rfl h6 (.inr (.inl rfl))
        · cases keys with
          | nil => exact ih _ (fun x hx => hh x (by simp [hx])) h1 h2 h3 rfl rfl h6 (.inr (.inr (.inl rfl)))
          | cons k ks => exact ih _ (fun x hx => hh x (by simp [hx])) h1 h2 h3 rfl rfl h6 (.inr (.inr (.inr rfl)))
        · cases keys with
          | nil => exact ih _ (fun x hx => hh x (by simp [hx])) h1 h2 h3 rfl rfl h6 (.inr (.inr (.inl rfl)))
          | cons k ks => exact ih _ (fun x hx => hh x (by simp [hx])) h1 h2 h3 rfl rfl h6 (.inr (.inr (.inr rfl)))
        · cases keys with
          | nil => exact ih _ (fun x hx => hh x (by simp [hx])) h1 h2 h3 rfl rfl h6 (.inr (.inr (.inr rfl)))
          | cons k ks =>
            obtain ⟨c, rfl, hce⟩ := h6 k (by simp)
            have e : (CLoop.mk cs false (.keyAt false) (some c :: ks) [] full ttyFull).step .go = CLoop.mk cs false .test ks [] full ttyFull := by
              show CLoop.mk (cs.key c).1 _ (if (cs.key c).2 = [] then _ else _) _ _ _ _ = _
              rw [kk cs c h1 h2 h3 hce]; rfl
            rw [e]
            exact ih _ (fun x hx => hh x (by simp [hx])) h1 h2 h3 rfl rfl (fun k hk => h6 k (by simp [hk])) (.inl rfl)
      · subst g
        refine ih _ (fun x hx => hh x (by simp [hx])) h1 h2 h3 rfl rfl ?_ hp
        intro k hk
        rcases List.mem_append.1 (show k ∈ keys ++ [some c] from hk) with a | a
        · exact h6 k a
        · exact ⟨c, List.mem_singleton.1 a, hce⟩
  exact key h _ hh hn hd hc rfl rfl nofun (.inl rfl)

/-- A client types `a`, then `&.`; the server ends the connection, and the client ends. -/
example : let h := [.key (some 0x61), .key (some 0x26), .key (some 0x2E)] ++ List.replicate 13 CLEv.go
    ((CLoop.start { esc := 0x26 }).run h).pc = .blocked ∧ ((CLoop.start { esc := 0x26 }).run h).cs.wrClosed = true ∧
    ((CLoop.start { esc := 0x26 }).run h).ttyFull = false ∧ ((CLoop.start { esc := 0x26 }).run h).keys = [] ∧ ((CLoop.start { esc := 0x26 }).run h).data = [] ∧
    ((CLoop.start { esc := 0x26 }).run (h ++ [.data none, .go, .go, .go])).pc = .ended := by decide +kernel

/-- A client that is stopped when SIGTERM comes. -/
example : let h := [.key (some 0x26), .key (some 0x5A)] ++ List.replicate 7 CLEv.go
    ((CLoop.start { esc := 0x26 }).run h).pc = .stopped false ∧ ((CLoop.start { esc := 0x26 }).run (h ++ [.term, .go, .go])).pc = .stopped false ∧
    ((CLoop.start { esc := 0x26 }).run (h ++ [.term, .go, .go, .cont, .go])).pc = .ended := by decide +kernel

end Conman
