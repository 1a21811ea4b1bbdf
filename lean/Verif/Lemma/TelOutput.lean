import Verif.Lemma.WorldIac
import Verif.Lemma.WorldLogBook
import Verif.Lemma.Telnet
import Verif.Spec.TelOutput

/-
The bytes that come from the connection of a telnet console, and what is made of them.
-/
namespace Conman
open Spec

theorem gotOf_data (w : World) (k i : Nat) (up : Bool) (d : List UInt8) (wr : Option WriteRes) :
    gotOf w k (.poll i up (some (.data d)) wr) =
    if i = k ∧ ((w.obj k).pin = true ∨ (w.obj k).pout = true) ∧ (w.obj k).conn = .up then d else [] := rfl

/-- A step decodes what it reads. -/
theorem tel_step {env : Env} {w w' : World} (h : FInv w) (s : Step) (hs : w.step env s = some w') (k : Nat) (hl : k ∈ w.live)
    (hk : (w.obj k).kind = .telnet) (hlen : ∀ i up d wr, s = .poll i up (some (.data d)) wr → d.length ≤ 8191) :
    ∃ r, telRef (w.obj k).iac (gotOf w k s) = some ((w'.obj k).iac, said w k s, r) := by
  by_cases hd : ∃ up d wr, s = .poll k up (some (.data d)) wr ∧ ((w.obj k).pin = true ∨ (w.obj k).pout = true) ∧ (w.obj k).conn = .up
  · obtain ⟨up, d, wr, rfl, hp, hc⟩ := hd
    have c1 : k = k ∧ ((w.obj k).pin = true ∨ (w.obj k).pout = true) ∧ (w.obj k).conn = .up := ⟨rfl, hp, hc⟩
    have c2 : k = k ∧ ((w.obj k).pin = true ∨ (w.obj k).pout = true) := ⟨rfl, hp⟩
    rw [gotOf_data, said_data, if_pos c1, if_pos c2, if_pos hk, if_pos hc]
    have hw := h.e.d.inv
    have hfd : (w.obj k).fd = true := by
      cases hf : (w.obj k).fd with
      | true => rfl
      | false =>
        have := (hw.oi k).closed hf
        rcases hp with z | z
        · rw [this.1] at z; simp at z
        · rw [this.2] at z; simp at z
    have hpl : ¬ (k ∉ w.live ∨ ((w.obj k).pin = false ∧ (w.obj k).pout = false)) := by
      rintro (z | ⟨z1, z2⟩)
      · exact z hl
      · rw [z1, z2] at hp; simp at hp
    simp only [World.step] at hs
    rw [if_neg hpl] at hs
    obtain ⟨w1, e1, e2⟩ := Option.map_eq_some_iff.1 hs
    obtain ⟨t, t1, t2⟩ := read_tel_ic e1 hfd hk hc (by rw [readBufSize_eq]; exact hlen _ _ _ _ rfl)
    obtain ⟨t', f1, f2⟩ := tel_ok (h.x k hl).iac d
    rw [t1, Option.some.injEq] at f1
    subst f1
    have h2 : (w'.obj k).iac = (w1.obj k).iac := by
      subst e2
      split
      · rfl
      · split
        · rfl
        · exact flush_ic _ _ _ _ _ k
    rw [f2]
    rw [telChunks_eq, List.flatten_singleton] at f2
    exact ⟨_, by rw [f2, h2, t2]⟩
  · have e := step_ic hs hl (fun up d wr _ hc hp z => hd ⟨up, d, wr, z, hp, hc⟩)
    have hg : gotOf w k s = [] ∧ said w k s = [] := by
      cases s with
      | poll i up rd wr =>
        cases rd with
        | none => exact ⟨rfl, rfl⟩
        | some r =>
          cases r with
          | data d =>
            rw [gotOf_data, said_data]
            have n1 : ¬ (i = k ∧ ((w.obj k).pin = true ∨ (w.obj k).pout = true) ∧ (w.obj k).conn = .up) := by
              rintro ⟨rfl, a, b⟩
              exact hd ⟨up, d, wr, rfl, a, b⟩
            refine ⟨if_neg n1, ?_⟩
            by_cases n2 : i = k ∧ ((w.obj k).pin = true ∨ (w.obj k).pout = true)
            · have n3 : ¬ (w.obj k).conn = .up := fun z => n1 ⟨n2.1, n2.2, z⟩
              rw [if_pos n2, if_pos hk, if_neg n3]
            · rw [if_neg n2]
          | _ => exact ⟨rfl, rfl⟩
      | _ => exact ⟨rfl, rfl⟩
    rw [hg.1, hg.2, e]
    exact ⟨[], rfl⟩

/-- A history decodes what it reads. -/
theorem tel_run {env : Env} (k : Nat) (ss : List Step) : ∀ {w w' : World}, FInv w → w.run env ss = some w' → k ∈ w.live →
    (w.obj k).kind = .telnet → (∀ i up d wr, .poll i up (some (.data d)) wr ∈ ss → d.length ≤ 8191) →
    ∃ r, telRef (w.obj k).iac (gotAll env w k ss) = some ((w'.obj k).iac, saidAll env w k ss, r) := by
  induction ss with
  | nil =>
    intro w w' _ hr _ _ _
    simp only [World.run, Option.some.injEq] at hr; subst hr
    exact ⟨[], rfl⟩
  | cons s ss ih =>
    intro w w' h hr hl hk hlen
    simp only [World.run, Option.bind_eq_some_iff] at hr
    obtain ⟨w1, h1, h2⟩ := hr
    have h3 := (h.step s h1).tick (w1.tick + 1)
    obtain ⟨r1, a1⟩ := tel_step h s h1 k hl hk (fun i up d wr e => hlen i up d wr (by simp [e]))
    obtain ⟨-, l2, l3⟩ := step_live h.e.d s h1
    have hkc : (w.obj k).kind.isConsole = true := by rw [hk]; rfl
    have hl1 : k ∈ w1.live := (l2 k hl).resolve_right (fun g => not_client_of_console hkc g.2)
    obtain ⟨r2, a2⟩ := ih (w := { w1 with tick := w1.tick + 1 }) h3 h2 hl1 (by rw [← hk]; exact l3 k hl) (fun i up d wr hm => hlen i up d wr (by simp [hm]))
    have e1 : gotAll env w k (s :: ss) = gotOf w k s ++ gotAll env { w1 with tick := w1.tick + 1 } k ss := by rw [gotAll, h1]
    have e2 : saidAll env w k (s :: ss) = said w k s ++ saidAll env { w1 with tick := w1.tick + 1 } k ss := by rw [saidAll, h1]
    have a2 : telRef (w1.obj k).iac (gotAll env { w1 with tick := w1.tick + 1 } k ss) = some ((w'.obj k).iac, saidAll env { w1 with tick := w1.tick + 1 } k ss, r2) := a2
    refine ⟨r1 ++ r2, ?_⟩
    rw [e1, e2, telRef_append, a1]
    dsimp only
    rw [a2]
    rfl

/-- Who watches one console only hears what that console says. -/
theorem heard_said {env : Env} (c k : Nat) (ss : List Step) : ∀ {w : World}, watches env w c k ss = true → heardAll env w c ss = saidAll env w k ss := by
  induction ss with
  | nil => intro w _; rfl
  | cons s ss ih =>
    intro w hw
    rw [watches, Bool.and_eq_true, decide_eq_true_eq] at hw
    have e : heard w c s = said w k s := by
      cases s with
      | poll i up rd wr =>
        cases rd with
        | none => rfl
        | some r =>
          cases r with
          | data d =>
            rw [said_data]
            unfold heard
            dsimp only
            rw [hw.1]
            by_cases hi : i = k
            · subst hi
              simp
              rfl
            · rw [if_neg (by simp [hi]), if_neg (by simp [hi])]
          | _ => rfl
      | _ => rfl
    rw [heardAll, saidAll, e]
    cases h1 : w.step env s with
    | none => rfl
    | some w1 =>
      dsimp only
      rw [ih (by have := hw.2; rw [h1] at this; exact this)]

end Conman
