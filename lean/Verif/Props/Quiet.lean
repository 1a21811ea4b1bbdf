import Verif.Lemma.WorldQuiet
import Verif.Props.Flow

/-
C50, C51, C65: what a client gets to see.  The vocabulary is in `Spec/Flow.lean`.
-/
namespace Conman
open Spec

/-! ### C50 -/

/-- C50. One step of the daemon, whatever it is, with a quiet client that stays and does not itself ask for a log replay
or toggle quiet mode: exactly the console output of the step is added to its waiting bytes, no message is; quiet mode
stays on; what is sent to it is taken from the front. -/
theorem C50_quiet_data_only {env : Env} {w w' : World} (h : Reachable env w) (s : Step) (hs : w.step env s = some w') (c : Nat)
    (hl : c ∈ w.live) (hk : (w.obj c).kind = .client) (hq : (w.obj c).quiet = true)
    (hlen : ∀ i up d wr, s = .poll i up (some (.data d)) wr → d.length ≤ 8191)
    (hself : (wireCommands (w.obj c).gotEscape (readFrom c s)).any isSelf = false)
    (hl' : c ∈ w'.live) (he' : (w'.obj c).eof = false) :
    (w'.obj c).quiet = true ∧
    ∃ x, sentTo c w'.fx = sentTo c w.fx ++ x ∧ x ++ (w'.obj c).pend = lastN queueCap ((w.obj c).pend ++ heard w c s) := by
  obtain ⟨_, g1, _, g2⟩ := quiet_step h.finv s hs c hl hk hq hlen
    (by rintro up d wr rfl; simpa [readFrom] using hself) hl' he'
  exact ⟨g1, g2⟩

/-- C50. For any client that stays, quiet or not, the same console output is added; messages and replays can only follow it. -/
theorem C50_data_delivered {env : Env} {w w' : World} (h : Reachable env w) (s : Step) (hs : w.step env s = some w') (c : Nat)
    (hl : c ∈ w.live) (hk : (w.obj c).kind = .client)
    (hlen : ∀ i up d wr, s = .poll i up (some (.data d)) wr → d.length ≤ 8191)
    (hl' : c ∈ w'.live) (he' : (w'.obj c).eof = false) :
    ∃ x m, sentTo c w'.fx = sentTo c w.fx ++ x ∧
      x ++ (w'.obj c).pend = lastN queueCap ((w.obj c).pend ++ heard w c s ++ m) :=
  (client_step h.finv s hs c hl hk hlen hl' he').2

/-- Console 0 with a quiet client 10: client 11 joins (message for 12, none for 10), then the console says "hi". -/
def Demo.quietly : List Step := [.connUp 0, .check ⟨.connect, [0], false, false, false, true⟩, .grant 10 0,
  .check Demo.mon, .grant 12 0]

example : let w := Demo.after Demo.quietly
    let w1 := Demo.after (Demo.quietly ++ [.check (Demo.con false true), .grant 11 0])
    let w2 := Demo.after (Demo.quietly ++ [.poll 0 true (some (.data [0x68, 0x69])) none])
    Reachable Demo.env w ∧ 10 ∈ w.live ∧ (w.obj 10).kind = .client ∧ (w.obj 10).quiet = true ∧
    10 ∈ w1.live ∧ (w1.obj 10).eof = false ∧ (w1.obj 10).pend = [] ∧ (w1.obj 12).pend = [0x4A] ∧
    heard w 10 (.poll 0 true (some (.data [0x68, 0x69])) none) = [0x68, 0x69] ∧ (w2.obj 10).pend = [0x68, 0x69] :=
  ⟨Demo.reach _ (by decide +kernel), by decide +kernel, by decide +kernel, by decide +kernel, by decide +kernel, by decide +kernel,
    by decide +kernel, by decide +kernel, by decide +kernel, by decide +kernel⟩

/-! ### C51 -/

/-- C51. A suspended client is not polled for writing, and no step sends it anything. -/
theorem C51_suspended_silent {env : Env} {w : World} (h : Reachable env w) (c : Nat)
    (hk : (w.obj c).kind = .client) (hz : (w.obj c).suspend = true) :
    (w.obj c).pout = false ∧ ∀ s w', w.step env s = some w' → sentTo c w'.fx = sentTo c w.fx := by
  have hp := (h.inv.inv.oi c).susp hk hz
  refine ⟨hp, fun s w' hs => ?_⟩
  obtain ⟨l, e1, e2⟩ := step_sent env s hs
  rw [e1, sentTo_append, sentTo_none c l, List.append_nil]
  intro d hd
  rw [(e2 c d hd).1] at hp
  simp at hp

/-- C51. Whether a client is suspended is decided by its own suspend commands only. -/
theorem C51_suspend_by_command {env : Env} {w w' : World} (h : Reachable env w) (s : Step) (hs : w.step env s = some w') (c : Nat)
    (hl : c ∈ w.live) (hk : (w.obj c).kind = .client) (hlen : (readFrom c s).length ≤ 8191) (hl' : c ∈ w'.live)
    (he : (w.obj c).eof = false) :
    (w'.obj c).suspend = suspAfter (w.obj c).suspend (wireCommands (w.obj c).gotEscape (readFrom c s)) :=
  step_susp h.finv s hs c hl hk hlen hl' he

/-- C51. While a quiet client is suspended, nothing is sent to it, and its waiting bytes are the newest 16383 of what waited
and all console output since. -/
theorem C51_suspended_history {env : Env} {w w' : World} (h : Reachable env w) (c : Nat) (ss : List Step)
    (hr : w.run env ss = some w') (hl : c ∈ w.live) (hk : (w.obj c).kind = .client) (hq : (w.obj c).quiet = true)
    (hz : (w.obj c).suspend = true) (hng : ss.all (noGrant c) = true)
    (hlen : ∀ i up d wr, .poll i up (some (.data d)) wr ∈ ss → d.length ≤ 8191)
    (hcmd : ∀ a ∈ wireCommands (w.obj c).gotEscape (ss.flatMap (readFrom c)), isSelf a = false ∧ a ≠ 0x5A)
    (hl' : c ∈ w'.live) (he' : (w'.obj c).eof = false) :
    sentTo c w'.fx = sentTo c w.fx ∧ (w'.obj c).suspend = true ∧
    (w'.obj c).pend = lastN queueCap ((w.obj c).pend ++ heardAll env w c ss) := by
  replace h := h.finv
  induction ss generalizing w with
  | nil =>
    simp only [World.run, Option.some.injEq] at hr; subst hr
    refine ⟨rfl, hz, ?_⟩
    rw [heardAll, List.append_nil, lastN_self _ _ (h.e.d.inv.oi c).cap]
  | cons s ss ih =>
    simp only [World.run, Option.bind_eq_some_iff] at hr
    obtain ⟨w1, h1, h2⟩ := hr
    simp only [List.all_cons, Bool.and_eq_true] at hng
    have h3 := (h.step s h1).tick (w1.tick + 1)
    have hrl : ∀ t ∈ s :: ss, (readFrom c t).length ≤ 8191 := by
      intro t ht
      unfold readFrom
      split
      · split
        · exact hlen _ _ _ _ ht
        · simp
      · simp
    have hl1 : c ∈ w1.live := by
      by_cases g : c ∈ w1.live
      · exact g
      · exact absurd hl' (run_gone (w := { w1 with tick := w1.tick + 1 }) c ss h3.e h2 hng.2 g)
    have hsm := step_mode h.e s h1 c hl hk (hrl s List.mem_cons_self) hl1
    have he1 : (w1.obj c).eof = false := by
      cases hh : (w1.obj c).eof with
      | false => rfl
      | true =>
        have := (run_mode (w := { w1 with tick := w1.tick + 1 }) c ss h3.e h2 hng.2
          (fun t ht => hrl t (List.mem_cons_of_mem _ ht)) hl1 hsm.1 hl').2.1 hh
        rw [this] at he'; simp at he'
    have hsplit : (wireCommands (w.obj c).gotEscape ((s :: ss).flatMap (readFrom c))) =
        wireCommands (w.obj c).gotEscape (readFrom c s) ++ wireCommands (w1.obj c).gotEscape (ss.flatMap (readFrom c)) := by
      rw [List.flatMap_cons, ← (unescRef_wire _ _).2, ← (unescRef_wire _ _).2, ← (unescRef_wire _ _).2, unescRef_append,
        (hsm.2.2 he1).esc]
    rw [hsplit] at hcmd
    have hA : ∀ a ∈ wireCommands (w.obj c).gotEscape (readFrom c s), isSelf a = false ∧ a ≠ 0x5A :=
      fun a ha => hcmd a (List.mem_append_left _ ha)
    obtain ⟨q1, q2, q3, x, q4, q5⟩ := quiet_step h s h1 c hl hk hq
      (fun i up d wr e => hlen i up d wr (by rw [e]; exact List.mem_cons_self))
      (by
        rintro up d wr rfl
        rw [List.any_eq_false]
        intro a ha
        have := (hA a (by simpa [readFrom] using ha)).1
        rw [this]; simp) hl1 he1
    have hz1 : (w1.obj c).suspend = true := by
      rw [step_susp h s h1 c hl hk (hrl s List.mem_cons_self) hl1 q3, hz]
      have : ∀ (l : List UInt8), (∀ a ∈ l, a ≠ 0x5A) → suspAfter true l = true := by
        intro l
        induction l with
        | nil => intro _; rfl
        | cons a l ih =>
          intro hl
          show suspAfter (if a = 0x5A then !true else true) l = true
          rw [if_neg (hl a List.mem_cons_self)]
          exact ih (fun b hb => hl b (List.mem_cons_of_mem _ hb))
      exact this _ (fun a ha => (hA a ha).2)
    have hx : sentTo c w1.fx = sentTo c w.fx := by
      have hp := (h.e.d.inv.oi c).susp hk hz
      obtain ⟨l, e1, e2⟩ := step_sent env s h1
      rw [e1, sentTo_append, sentTo_none c l, List.append_nil]
      intro d hd
      rw [(e2 c d hd).1] at hp
      simp at hp
    have hx0 : x = [] := by
      rw [hx] at q4
      have := congrArg List.length q4
      rw [List.length_append] at this
      exact List.length_eq_zero_iff.1 (by omega)
    subst hx0
    rw [List.nil_append] at q5
    obtain ⟨a1, a2, a3⟩ := ih (w := { w1 with tick := w1.tick + 1 }) h2 hl1 q1 q2 hz1 hng.2
      (fun i up d wr hm => hlen i up d wr (List.mem_cons_of_mem _ hm)) (fun a ha => hcmd a (List.mem_append_right _ ha)) h3
    refine ⟨by rw [a1]; exact hx, a2, ?_⟩
    rw [a3]
    have e : heardAll env w c (s :: ss) = heard w c s ++ heardAll env { w1 with tick := w1.tick + 1 } c ss := by
      rw [heardAll, h1]
    dsimp only
    rw [e, q5, lastN_append_lastN, List.append_assoc]

/-- C51. The suspend command in a read of its own: waiting bytes stay, nothing is sent, suspension flips; when the client is
resumed its descriptor is polled for writing. -/
theorem C51_toggle {env : Env} {w w' : World} (h : Reachable env w) (c : Nat) (hl : c ∈ w.live) (hk : (w.obj c).kind = .client)
    (he : (w.obj c).eof = false) (up : Bool) (d : List UInt8) (hd : d.length ≤ 8191)
    (hc : wireCommands (w.obj c).gotEscape d = [0x5A]) (hdata : wireData (w.obj c).gotEscape d = [])
    (hs : w.step env (.poll c up (some (.data d)) none) = some w') :
    (w'.obj c).pend = (w.obj c).pend ∧ sentTo c w'.fx = sentTo c w.fx ∧ (w'.obj c).suspend = !(w.obj c).suspend ∧
    (w'.obj c).pout = (w.obj c).suspend ∧ c ∈ w'.live ∧ (w'.obj c).eof = false := by
  have ci := h.finv.e.cl c hl hk
  obtain ⟨_, hr⟩ := poll_read h c hl (Or.inl (ci.pin he)) up _ hs
  unfold World.read at hr
  rw [if_neg (by simp [ci.fd]), if_neg (by simp [hk]), if_neg (by rw [hk]; simp)] at hr
  simp only [hk, Option.map_eq_some_iff] at hr
  rw [List.take_of_length_le (by rw [readBufSize_eq]; exact hd)] at hr
  obtain ⟨w1, h1, rfl⟩ := hr
  obtain ⟨u1, u2, u3⟩ := unesc_data (w.obj c).gotEscape d
  rw [u2, hc] at h1
  simp only [World.acts, World.act, Option.bind_some, Option.some.injEq] at h1
  rw [if_neg (by decide), if_neg (by decide), if_neg (by decide), if_neg (by decide), if_neg (by decide), if_neg (by decide),
    if_neg (by decide), if_neg (by decide), if_pos trivial] at h1
  simp only [Option.bind_some, Option.some.injEq] at h1
  subst h1
  rw [u1, hdata, deliver_nil, World.mod_self, World.mod_self]
  exact ⟨rfl, rfl, rfl, by simp [ci.fd], hl, he⟩

/-- C51. A client that is polled for writing and can take `n` bytes gets the first `n` waiting bytes, in order. -/
theorem C51_flush_in_order {env : Env} {w w' : World} (h : Reachable env w) (c : Nat) (hl : c ∈ w.live) (hk : (w.obj c).kind = .client)
    (he : (w.obj c).eof = false) (hp : (w.obj c).pout = true) (up : Bool) (n : Nat)
    (hs : w.step env (.poll c up none (some (.accept n))) = some w') :
    sentTo c w'.fx = sentTo c w.fx ++ (w.obj c).pend.take n ∧ (w'.obj c).pend = (w.obj c).pend.drop n := by
  have x0 := h.finv.x c hl
  simp only [World.step] at hs
  rw [if_neg (by simp [hl, hp])] at hs
  simp only [Option.map_some, Option.some.injEq] at hs
  rw [if_neg (by simp [hl]), if_pos hp] at hs
  subst hs
  obtain ⟨m, f1, f2, f3, f4⟩ := flush_self h.inv.inv env up c (.accept n) (x0.client hk)
    (fun hpd => by have := (x0.pending hpd).1; rw [hk] at this; simp at this)
  have hm := f3 n rfl
  have t : (w.obj c).pend.take m = (w.obj c).pend.take n ∧ (w.obj c).pend.drop m = (w.obj c).pend.drop n := by
    rcases Nat.le_total n (w.obj c).pend.length with g | g
    · rw [Nat.min_eq_left g] at hm; rw [hm]; exact ⟨rfl, rfl⟩
    · rw [Nat.min_eq_right g] at hm
      subst hm
      rw [List.take_length, List.drop_length, List.take_of_length_le g, List.drop_of_length_le g]; exact ⟨rfl, rfl⟩
  rw [t.1] at f2
  refine ⟨f2, ?_⟩
  rcases f4 with ⟨_, g2, _, _, _⟩ | ⟨g1, g2, _⟩
  · rw [g2, t.2]
  · rcases g2 with g | g
    · simp at g
    · rw [he] at g; simp at g

/-- Quiet client 10 suspends its output, types "x", the console says "hi", the client resumes and gets it. -/
example : let w := Demo.after (Demo.quietly ++ [.poll 10 true (some (.data [0xFF, 0x5A])) none])
    let ss : List Step := [.poll 10 true (some (.data [0x78])) none, .poll 0 true (some (.data [0x68, 0x69])) none]
    let w' := Demo.after (Demo.quietly ++ [.poll 10 true (some (.data [0xFF, 0x5A])) none] ++ ss)
    let w'' := Demo.after (Demo.quietly ++ [.poll 10 true (some (.data [0xFF, 0x5A])) none] ++ ss ++
      [.poll 10 true (some (.data [0xFF, 0x5A])) none, .poll 10 true none (some (.accept 1))])
    Reachable Demo.env w ∧ 10 ∈ w.live ∧ (w.obj 10).kind = .client ∧ (w.obj 10).quiet = true ∧ (w.obj 10).suspend = true ∧
    wireCommands (w.obj 10).gotEscape (ss.flatMap (readFrom 10)) = [] ∧ 10 ∈ w'.live ∧ (w'.obj 10).eof = false ∧
    heardAll Demo.env w 10 ss = [0x68, 0x69] ∧ (w'.obj 10).pend = [0x68, 0x69] ∧ wireCommands (w'.obj 10).gotEscape [0xFF, 0x5A] = [0x5A] ∧
    sentTo 10 w''.fx = [0x68] :=
  ⟨Demo.reach _ (by decide +kernel), by decide +kernel, by decide +kernel, by decide +kernel, by decide +kernel, by decide +kernel,
    by decide +kernel, by decide +kernel, by decide +kernel, by decide +kernel, by decide +kernel, by decide +kernel⟩

/-! ### C65 -/

/-- C65. Through any history in which a quiet client stays and its backlog never overflows, the bytes sent to it followed by
those waiting are the ones at the start followed by all output of its consoles, in order. -/
theorem C65_output_faithful {env : Env} {w w' : World} (h : Reachable env w) (c : Nat) (ss : List Step)
    (hr : w.run env ss = some w') (hl : c ∈ w.live) (hk : (w.obj c).kind = .client) (hq : (w.obj c).quiet = true)
    (hng : ss.all (noGrant c) = true)
    (hlen : ∀ i up d wr, .poll i up (some (.data d)) wr ∈ ss → d.length ≤ 8191)
    (hself : (wireCommands (w.obj c).gotEscape (ss.flatMap (readFrom c))).any isSelf = false)
    (hno : noOverflow env w c ss = true) (hl' : c ∈ w'.live) (he' : (w'.obj c).eof = false) :
    sentTo c w'.fx ++ (w'.obj c).pend = sentTo c w.fx ++ (w.obj c).pend ++ heardAll env w c ss :=
  quiet_run c ss h.finv hr hl hk hq hng hlen hself hno hl' he'

/-- "h", a keystroke of another client, a partial flush, "i". -/
def Demo.chat : List Step := [.poll 0 true (some (.data [0x68])) none, .poll 12 true (some (.data [0x78])) none,
  .poll 10 true none (some (.accept 1)), .poll 0 true (some (.data [0x69])) none]

example : let w := Demo.after Demo.quietly
    let w' := Demo.after (Demo.quietly ++ Demo.chat)
    Reachable Demo.env w ∧ w.run Demo.env Demo.chat ≠ none ∧ 10 ∈ w.live ∧ (w.obj 10).quiet = true ∧
    Demo.chat.all (noGrant 10) = true ∧ Demo.chat.flatMap (readFrom 10) = [] ∧ noOverflow Demo.env w 10 Demo.chat = true ∧ heardAll Demo.env w 10 Demo.chat = [0x68, 0x69] ∧
    sentTo 10 w'.fx = [0x68] ∧ (w'.obj 10).pend = [0x69] ∧ 10 ∈ w'.live ∧ (w'.obj 10).eof = false :=
  ⟨Demo.reach _ (by decide +kernel), by
    intro h
    have : ((Demo.after Demo.quietly).run Demo.env Demo.chat).isSome = true := by decide +kernel
    rw [h] at this; simp at this, by decide +kernel, by decide +kernel, by decide +kernel, by decide +kernel, by decide +kernel,
    by decide +kernel, by decide +kernel, by decide +kernel, by decide +kernel, by decide +kernel⟩

end Conman
