import Verif.Lemma.Apart
import Verif.Spec.Demo

/-
C113: consoles that share no client do not influence each other.
-/
namespace Conman
open Spec

/-- C113. A step that concerns other objects changes nothing of the objects that are not linked to them: for any set `A`
of objects that no link leaves, not the objects, not which of them exist, and not what is sent to them. -/
theorem C113_frame {env : Env} {w w' : World} (hr : Reachable env w) (A : Nat → Bool)
    (hA : LinksWithin A w) (s : Step) (hs : w.step env s = some w') (hoff : stepAt A s = false)
    (hq : ∀ c k q, s = .grant c k → w.wait[k]? = some q → ∀ x ∈ q.consoles, A x = false) :
    (∀ i, A i = true → w'.obj i = w.obj i ∧ (i ∈ w'.live ↔ i ∈ w.live)) ∧
    w'.fx.filter (fxAt A) = w.fx.filter (fxAt A) := by
  have hsep : Sep A w := fun i => hA i
  obtain ⟨_, o⟩ := step_out env hr.inv hsep hoff (fun c k q e hk x hx => by
    rw [hq c k q e hk x hx]; subst e; exact hoff.symm) hs
  have e := o.2
  refine ⟨fun i hi => ⟨?_, ?_⟩, ?_⟩
  · rw [← part_obj w' hi, ← part_obj w hi, e]
  · have := congrArg World.live e
    rw [← part_live w' hi, ← part_live w hi, this]
  · exact congrArg World.fx e

/-- C113. Let the consoles (with their logs) be divided in two, and let every client have consoles of one side only.
Whatever happens on the other side, for this side it is as if nothing had happened there: there is a history with the
same events on this side, at the same times, in which nothing happens on the other side, and after it every object of
this side is the same, and the same bytes, breaks, resets and kills went out to it.  Missing, because false: that the
daemon still runs (`C113_crash`). -/
theorem C113_apart_partial (env : Env) (cfg : List ConConf) (hcfg : ∀ c ∈ cfg, c.kind.isConsole = true) (A : Nat → Bool)
    (hA : ∀ k, k < cfg.length → A (2 * k + 1) = A (2 * k)) (h : List Step) (w : World) (hr : (World.boot cfg).run env h = some w)
    (hg : GrantsApart env A (World.boot cfg) h) :
    ∃ h' w', (World.boot cfg).run env h' = some w' ∧
      (∀ s ∈ h', stepAt A s = true ∨ s = idle) ∧ stepsAt A h' = stepsAt A h ∧ w'.tick = w.tick ∧
      (∀ i, A i = true → w'.obj i = w.obj i ∧ (i ∈ w'.live ↔ i ∈ w.live)) ∧
      w'.fx = w.fx.filter (fxAt A) ∧
      (∀ i, A i = false → w'.obj i = (World.boot cfg).obj i ∧ (i ∈ w'.live ↔ i ∈ (World.boot cfg).live)) := by
  have hd := boot_inv cfg hcfg
  have hs := boot_sep cfg A hA
  obtain ⟨h', v, hr', t, hon, hst⟩ := Twin.run env h (v0 := World.boot cfg)
    ⟨rfl, hs, hs, hd, hd, Nat.le_refl _, rfl⟩ hg hr
  have e := part_eqs t.part
  refine ⟨h', v, hr', hon, hst, e.2.2.1.symm, fun i hi => ⟨(e.1 i hi).symm, ?_⟩, ?_, fun i hi => ?_⟩
  · rw [← part_live v hi, ← part_live w hi, t.part]
  · rw [e.2.2.2.1]
    have hf : v.fx.filter (fxAt (fun i => !A i)) = [] := congrArg World.fx t.out.2
    refine (List.filter_eq_self.2 (fun x hx => ?_)).symm
    cases hx' : fxAt A x with
    | true => rfl
    | false =>
      have : fxAt (fun i => !A i) x = true := by cases x <;> simp_all [fxAt]
      have hm := List.mem_filter.2 ⟨hx, this⟩
      rw [hf] at hm; cases hm
  · have hi' : (fun i => !A i) i = true := by simp [hi]
    refine ⟨?_, ?_⟩
    · rw [← part_obj (A := fun i => !A i) v hi', t.out.2]
      exact part_obj (A := fun i => !A i) _ hi'
    · rw [← part_live (A := fun i => !A i) v hi', t.out.2]
      exact part_live (A := fun i => !A i) _ hi'

/-- Finding. What is not kept apart is the end of the daemon: every step is about console 0 and its clients, and ends the
sessions on console 2 (see C62). -/
theorem C113_crash : ∃ h : List Step, (∀ s ∈ h, stepAt (fun i => i = 2 || i = 3) s = false) ∧
    ((World.boot Demo.cfg).run Demo.env h).isNone = true := by
  refine ⟨[.connUp 0, .check Demo.con, .grant 10 0, .check (Demo.con true false), .grant 11 0,
    .poll 10 true (some (.data [0xFF, 0x4D])) none], ?_, by decide +kernel⟩
  intro s hs
  simp only [List.mem_cons, List.not_mem_nil, or_false] at hs
  rcases hs with rfl | rfl | rfl | rfl | rfl | rfl <;> decide

/-- Console 2 and client 20 on one side; console 0 with its log and clients 10 and 11 on the other. -/
def apartSide (i : Nat) : Bool := i = 2 || i = 3 || i = 20

/-- Both sides at work: requests wait together, a reset on console 0, data on both consoles. -/
def apartHist : List Step :=
  [.connUp 0, .connUp 2, .check Demo.con, .check ⟨.connect, [2], false, false, false, false⟩, .grant 20 1, .grant 10 0,
   .poll 10 true (some (.data [0x61, 0xFF, 0x52])) none, .poll 0 true (some (.data [0x62])) none,
   .poll 2 true (some (.data [0x63])) none, .poll 20 true none (some (.accept 100)), .poll 0 true none (some (.accept 100))]

/-- The hypotheses of `C113_apart_partial` hold for it, steps of both sides occur, and each side gets something. -/
example : (∀ c ∈ Demo.cfg, c.kind.isConsole = true) ∧ (∀ k, k < Demo.cfg.length → apartSide (2 * k + 1) = apartSide (2 * k)) ∧
    ((World.boot Demo.cfg).run Demo.env apartHist).isSome = true ∧
    GrantsApart Demo.env apartSide (World.boot Demo.cfg) apartHist ∧
    (stepsAt apartSide apartHist).length = 5 ∧ apartHist.length = 11 := by
  refine ⟨by decide, fun k hk => ?_, by decide +kernel, grantsOk_apart _ _ _ _ (by decide +kernel), by decide +kernel, by decide⟩
  have : k = 0 ∨ k = 1 := by have : k < 2 := hk; omega
  rcases this with rfl | rfl <;> decide

/-- The hypotheses of `C113_frame` hold after a part of it: a byte of client 10 concerns the other side. -/
example : ∃ w, Reachable Demo.env w ∧ LinksWithin apartSide w ∧
    stepAt apartSide (.poll 10 true (some (.data [0x61])) none) = false ∧ (w.obj 20).readers = [2] ∧ (w.obj 10).readers = [0] := by
  obtain ⟨w, hw⟩ := Option.isSome_iff_exists.1
    (show ((World.boot Demo.cfg).run Demo.env (apartHist.take 6)).isSome = true by decide +kernel)
  have h := grantsOk_apart Demo.env apartSide (apartHist.take 6) (World.boot Demo.cfg) (by decide +kernel)
  have hA : ∀ k, k < Demo.cfg.length → apartSide (2 * k + 1) = apartSide (2 * k) := by
    intro k hk
    have : k = 0 ∨ k = 1 := by have : k < 2 := hk; omega
    rcases this with rfl | rfl <;> decide
  have hs := boot_sep Demo.cfg apartSide hA
  have hd := boot_inv Demo.cfg (by decide)
  obtain ⟨_, _, _, t, _⟩ := Twin.run Demo.env (apartHist.take 6) (v0 := World.boot Demo.cfg)
    ⟨rfl, hs, hs, hd, hd, Nat.le_refl _, rfl⟩ h hw
  refine ⟨w, ⟨Demo.cfg, _, by decide, hw⟩, fun i => t.sw i, by decide, ?_, ?_⟩
  · have : ((World.boot Demo.cfg).run Demo.env (apartHist.take 6)).map (fun w => (w.obj 20).readers) = some [2] := by decide +kernel
    rw [hw] at this; exact Option.some.inj this
  · have : ((World.boot Demo.cfg).run Demo.env (apartHist.take 6)).map (fun w => (w.obj 10).readers) = some [0] := by decide +kernel
    rw [hw] at this; exact Option.some.inj this


end Conman
