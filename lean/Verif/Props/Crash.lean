import Verif.Lemma.WorldFeed
import Verif.Spec.Demo
import Verif.Props.Flow

/-
C62: which input makes the daemon dereference a NULL pointer (`World.step` is `none`).
-/
namespace Conman
open Spec

theorem act_none {w : World} (env : Env) (c : Nat) (a : UInt8) :
    w.act env c a = none ↔ (w.obj c).bcast = false ∧ (w.obj c).writers = [] ∧ modeSwitch a = true := by
  have tog : ∀ f j, (w.mod c (fun o => { o with force := f, join := j })).toggle env c = none ↔
      (w.obj c).bcast = false ∧ (w.obj c).writers = [] := by
    intro f j
    unfold World.toggle
    rw [World.mod_self]
    dsimp only
    cases hb : (w.obj c).bcast with
    | true => simp
    | false =>
      rw [if_neg (by simp)]
      cases hw : (w.obj c).writers with
      | nil => simp
      | cons x t =>
        dsimp only
        split <;> simp
  unfold World.act
  split
  · rename_i e; subst e; simp [modeSwitch]
  split
  · rename_i e; subst e; simp [modeSwitch]
  split
  · rename_i e; subst e; rw [tog]; simp [modeSwitch]
  split
  · rename_i e; subst e; rw [tog]; simp [modeSwitch]
  split
  · rename_i e; subst e
    split <;> simp [modeSwitch]
  split
  · rename_i e; subst e; rw [tog]; simp [modeSwitch]
  rename_i h1 h2 h3
  have : modeSwitch a = false := by
    unfold modeSwitch
    simp_all
  rw [this]
  split
  · simp
  split
  · simp
  split
  · simp
  · simp

theorem acts_none (env : Env) (c : Nat) (as : List UInt8) : ∀ {w : World}, WInv w → (w.obj c).kind = .client →
    (w.acts env c as = none ↔ (w.obj c).bcast = false ∧ (w.obj c).writers = [] ∧ as.any modeSwitch = true) := by
  induction as with
  | nil => intro w _ _; simp [World.acts]
  | cons a as ih =>
    intro w h hk
    unfold World.acts
    cases ha : w.act env c a with
    | none =>
      have := (act_none env c a).1 ha
      simp [this]
    | some w1 =>
      rw [Option.bind_some]
      obtain ⟨h3, h4⟩ := act_inv h env c (by simp) hk a ha
      rw [ih h3 (by rw [h4.kind]; exact hk)]
      have l := acts_links env c [a] h hk (w' := w1) (by simp [World.acts, ha])
      rw [l.1, l.2.2.1]
      have : ¬ ((w.obj c).bcast = false ∧ (w.obj c).writers = [] ∧ modeSwitch a = true) := by
        rw [← act_none env c a, ha]; simp
      rw [List.any_cons, Bool.or_eq_true]
      constructor
      · rintro ⟨x, y, z⟩; exact ⟨x, y, Or.inr z⟩
      · rintro ⟨x, y, z | z⟩
        · exact absurd ⟨x, y, z⟩ this
        · exact ⟨x, y, z⟩

/-- C62 (partial). Exactly one kind of event crashes the daemon: a client whose session has been taken away, but whose
connection is still being read, sends a command to switch its mode (`&F`, `&J` or `&M`).  All other input, and every event
concerning consoles, logs, timers and requests, is survived in every reachable state.
Missing: that this event cannot occur (`C62_stolen_client_crashes` refutes it). -/
theorem C62_crash_iff_partial {env : Env} {w : World} (h : Reachable env w) (s : Step)
    (hlen : ∀ i up d wr, s = .poll i up (some (.data d)) wr → d.length ≤ 8191) :
    w.step env s = none ↔
      ∃ c up d wr, s = .poll c up (some (.data d)) wr ∧ c ∈ w.live ∧ (w.obj c).kind = .client ∧
        ((w.obj c).pin = true ∨ (w.obj c).pout = true) ∧ (w.obj c).bcast = false ∧ (w.obj c).readers = [] ∧ (w.obj c).writers = [] ∧
        (w.obj c).eof = true ∧ (wireCommands (w.obj c).gotEscape d).any modeSwitch = true := by
  have f := h.finv
  cases s with
  | poll i up rd wr =>
    simp only [World.step]
    by_cases hp : i ∉ w.live ∨ ((w.obj i).pin = false ∧ (w.obj i).pout = false)
    · rw [if_pos hp]
      simp only [reduceCtorEq, false_iff, not_exists]
      rintro c up' d wr' ⟨e, hl, _, hpp, _⟩
      simp only [Step.poll.injEq] at e
      obtain ⟨rfl, -, -, -⟩ := e
      rcases hp with g | g
      · exact g hl
      · rw [g.1, g.2] at hpp; simp at hpp
    rw [if_neg hp]
    have hl : i ∈ w.live := by
      by_cases g : i ∈ w.live
      · exact g
      · exact absurd (Or.inl g) hp
    have hpp : (w.obj i).pin = true ∨ (w.obj i).pout = true := by
      cases h1 : (w.obj i).pin with
      | true => exact Or.inl rfl
      | false =>
        cases h2 : (w.obj i).pout with
        | true => exact Or.inr rfl
        | false => exact absurd (Or.inr ⟨h1, h2⟩) hp
    rw [Option.map_eq_none_iff]
    have no : ∀ x : Option World, x ≠ none → (∀ d, rd = some (.data d) → (w.obj i).kind ≠ .client) →
        (x = none ↔ ∃ c up' d wr', Step.poll i up rd wr = .poll c up' (some (.data d)) wr' ∧ c ∈ w.live ∧ (w.obj c).kind = .client ∧
        ((w.obj c).pin = true ∨ (w.obj c).pout = true) ∧ (w.obj c).bcast = false ∧ (w.obj c).readers = [] ∧ (w.obj c).writers = [] ∧
        (w.obj c).eof = true ∧ (wireCommands (w.obj c).gotEscape d).any modeSwitch = true) := by
      intro x hx hd
      refine ⟨fun e => absurd e hx, ?_⟩
      rintro ⟨c, up', d, wr', e, _, hk, _⟩
      simp only [Step.poll.injEq] at e
      obtain ⟨rfl, -, rfl, -⟩ := e
      exact absurd hk (hd d rfl)
    cases rd with
    | none => exact no _ (by simp) (by simp)
    | some r =>
      dsimp only
      cases r with
      | again =>
        refine no _ ?_ (by simp)
        unfold World.read
        split; simp
        split; simp
        split
        · simp
        · simp
        · simp
        · rename_i hx
          split at hx <;> simp at hx
      | err =>
        refine no _ ?_ (by simp)
        unfold World.read
        split; simp
        split; simp
        split
        · simp
        · simp
        · simp
        · rename_i hx
          split at hx <;> simp at hx
      | eof =>
        refine no _ ?_ (by simp)
        unfold World.read
        split; simp
        split; simp
        split
        · simp
        · simp
        · simp
        · rename_i hx
          split at hx <;> simp at hx
      | data d =>
        have hd := hlen i up d wr rfl
        by_cases hk : (w.obj i).kind = .client
        · have ci := f.e.cl i hl hk
          unfold World.read
          rw [if_neg (by simp [ci.fd]), if_neg (by simp [hk]), if_neg (by rw [hk]; simp)]
          simp only [hk]
          rw [Option.map_eq_none_iff, cmdsOf_eq, acts_none env i _ f.e.d.inv hk, cmdsOf_wire _ _ hd]
          constructor
          · rintro ⟨h1, h2, h3⟩
            have hr : (w.obj i).readers = [] := by
              rcases (f.e.d.inv.cs i (by simp) hk).2 h1 with g | ⟨con, g, _⟩
              · exact g.1
              · rw [h2] at g; simp at g
            exact ⟨i, up, d, wr, rfl, hl, hk, hpp, h1, hr, h2, f.e.d.inv.orph i hl (by simp) hk hr h2, h3⟩
          · rintro ⟨c, up', d', wr', e, _, _, _, h1, _, h2, _, h3⟩
            simp only [Step.poll.injEq, Option.some.injEq, ReadRes.data.injEq] at e
            obtain ⟨rfl, -, rfl, -⟩ := e
            exact ⟨h1, h2, h3⟩
        · refine no _ ?_ (fun _ _ => hk)
          unfold World.read
          split; simp
          split; simp
          split
          · simp
          · simp
          · simp
          · rename_i d0 _
            dsimp only
            split
            · rename_i hkc; exact absurd hkc hk
            · obtain ⟨t, e1, _⟩ := tel_ok (f.x i hl).iac (d0.take readBufSize)
              rw [e1]; simp
            · simp
  | _ =>
    simp only [World.step, reduceCtorEq, false_iff, not_exists, false_and, not_false_iff, implies_true]

/-- C62. In particular no byte of a client with a session, of a broadcast client or of a console crashes the daemon. -/
theorem C62_attached_clients_safe {env : Env} {w : World} (h : Reachable env w) (s : Step)
    (hlen : ∀ i up d wr, s = .poll i up (some (.data d)) wr → d.length ≤ 8191)
    (hc : ∀ c up d wr, s = .poll c up (some (.data d)) wr → (w.obj c).kind = .client → (w.obj c).eof = false ∨ (w.obj c).bcast = true) :
    w.step env s ≠ none := by
  rw [ne_eq, C62_crash_iff_partial h s hlen]
  rintro ⟨c, up, d, wr, e, _, hk, _, hb, _, _, he, _⟩
  rcases hc c up d wr e hk with g | g
  · rw [he] at g; simp at g
  · rw [hb] at g; simp at g

/-- Finding (refutes C62). Client 10 is connected, client 11 takes the console over, and bytes client 10 had already sent
arrive: the daemon crashes. -/
theorem C62_stolen_client_crashes :
    ∃ w, Reachable Demo.env w ∧ w.step Demo.env (.poll 10 true (some (.data [0xFF, 0x4D])) none) = none := by
  refine ⟨Demo.after Demo.stolen, Demo.reach _ (by decide +kernel), ?_⟩
  have : ((Demo.after Demo.stolen).step Demo.env (.poll 10 true (some (.data [0xFF, 0x4D])) none)).isNone = true := by
    decide +kernel
  simpa using this

/-- Every session of the example survives any keystroke. -/
example : let w := Demo.after Demo.three
    Reachable Demo.env w ∧ (w.obj 10).kind = .client ∧ (w.obj 10).eof = false ∧
    (w.step Demo.env (.poll 10 true (some (.data [0xFF, 0x4D])) none)).isSome = true :=
  ⟨Demo.reach _ (by decide +kernel), by decide +kernel, by decide +kernel, by decide +kernel⟩

end Conman
