import Verif.Props.LogMsg
import Verif.Model.Startup

/-
Lemmas about starting the daemon.
-/
namespace Conman
open Spec

theorem Starter.go_ok (target : Option (Int × Bool)) (syslog : Bool) (out : SStage → StageRes) (buf : List UInt8) (r : List SStage) : ∀ (a : List SStage) (s : Starter),
    (∀ y ∈ a, out y = .ok) → Starter.go target syslog out buf s (a ++ r) = Starter.go target syslog out buf (a.foldl (Starter.done target syslog) s) r := by
  intro a
  induction a with
  | nil => intro s _; rfl
  | cons x a ih =>
    intro s h
    rw [List.cons_append, Starter.go, h x (by simp)]
    dsimp only
    rw [ih _ (fun y hy => h y (by simp [hy])), List.foldl_cons]

theorem stages_split {a b : List SStage} {x : SStage} (h : SStage.all = a ++ x :: b) : a = SStage.all.takeWhile (· ≠ x) := by
  have nd : SStage.all.Nodup := by decide
  rw [h] at nd ⊢
  have hx : x ∉ a := by
    intro hm
    rw [List.nodup_append] at nd
    exact nd.2.2 x hm x (by simp) rfl
  rw [List.takeWhile_append_of_pos (by
    intro y hy
    simpa using fun e : y = x => hx (e ▸ hy))]
  simp

/-- The process before the part `x`. -/
def Starter.at (target : Option (Int × Bool)) (syslog : Bool) (x : SStage) : Starter := (SStage.all.takeWhile (· ≠ x)).foldl (Starter.done target syslog) {}

theorem Starter.at_pipe (target : Option (Int × Bool)) (syslog : Bool) (x : SStage) :
    (Starter.at target syslog x).pipe = [] ∧ (Starter.at target syslog x).term = [] ∧ ((Starter.at target syslog x).errPipe = true ↔ x ∈ SStage.early) ∧
      ((Starter.at target syslog x).stderr = true → (Starter.at target syslog x).log = { file := some (6, false) }) ∧
      ((Starter.at target syslog x).errPipe = false → (Starter.at target syslog x).stderr = false) := by
  cases x <;> exact ⟨rfl, rfl, by first | exact ⟨fun _ => by decide, fun _ => rfl⟩ | exact ⟨fun h => Bool.noConfusion h, fun h => absurd h (by decide)⟩, by first | exact fun _ => rfl | exact (fun h => Bool.noConfusion h), by first | exact fun _ => rfl | exact (fun h => Bool.noConfusion h)⟩

theorem go_bad {target : Option (Int × Bool)} {syslog : Bool} {out : SStage → StageRes} {buf : List UInt8} {x : SStage} (h : firstBad out x) :
    (∀ c, out x = .fail c → Starter.go target syslog out buf {} SStage.all = (logErr (Starter.at target syslog x) buf c).map (·, false)) ∧
      (out x = .killed → Starter.go target syslog out buf {} SStage.all = some (Starter.at target syslog x, false)) := by
  obtain ⟨a, b, e, ha, _⟩ := h
  have hs := stages_split e
  constructor
  · intro c hc
    rw [e, Starter.go_ok _ _ _ _ _ _ _ ha, Starter.go, hc]
    dsimp only
    unfold Starter.at
    rw [← hs]
  · intro hc
    rw [e, Starter.go_ok _ _ _ _ _ _ _ ha, Starter.go, hc]
    dsimp only
    unfold Starter.at
    rw [← hs]

/-- What the first failing part writes to terminal and pipe. -/
theorem logErr_eq {s : Starter} {buf : List UInt8} {c : LogCall} (hb : buf.length = 1024) (hc : c.ok) :
    ∃ s', logErr s buf c = some s' ∧
      s'.pipe = s.pipe ++ (if s.errPipe then 3 :: (if s.stderr then [] else if (({ c with prio := 3 } : LogCall).line.drop (c.stamp.length + 11)) ≠ [] then
        (({ c with prio := 3 } : LogCall).line.drop (c.stamp.length + 11)).takeWhile (· ≠ 0x0A) ++ [0] else []) else []) ∧
      (s.stderr = false → s'.term = s.term) ∧
      (s.stderr = true → s.log = { file := some (6, false) } → s'.term = s.term ++ ({ c with prio := 3 } : LogCall).line.drop c.stamp.length) := by
  obtain ⟨l, o, e, _, h1, _, _, _, _, h6⟩ := C79_line s.log buf { c with prio := 3 } false hb hc
  unfold logErr
  rw [e, Option.map_some]
  refine ⟨_, rfl, ?_, ?_, ?_⟩
  · dsimp only at h6 ⊢
    rw [h6]
    cases s.errPipe <;> cases s.stderr <;> simp
  · intro g
    dsimp only
    rw [g]
    cases s.errPipe <;> simp
  · intro g gl
    obtain ⟨_, k⟩ := h1 6 false (by rw [gl]) (show (3 : Int) ≤ 6 by decide) rfl
    dsimp only at k ⊢
    rw [g, k]
    cases s.errPipe <;> simp

/-- The parent, when a message was sent over the pipe (or only the priority). -/
theorem parentEnd_msg {buf ebuf stamp m : List UInt8} (hb : buf.length = 1024) (he : ebuf.length = 1024) (hs : LogCall.ok { stamp := stamp, prio := 3, text := m })
    (hm : m.length ≤ 1023) :
    parentEnd {} buf ebuf stamp [3] = some (1, []) ∧
    parentEnd {} buf ebuf stamp (3 :: (m ++ [0])) = some (1, if m = [] then [] else (LogCall.line { stamp := stamp, prio := 3, text := m }).drop stamp.length) := by
  constructor
  · unfold parentEnd
    dsimp only
    rw [if_pos (by decide), List.take_nil]
    rfl
  · unfold parentEnd
    dsimp only
    rw [if_pos (by decide), List.take_of_length_le (by simp; omega), pokes_eq _ (by simp; omega), Option.bind_some]
    have mz : (0 : UInt8) ∉ m := hs.2.2.2.1
    cases m with
    | nil =>
      rw [if_neg (by
        unfold over
        rintro ⟨_, h⟩
        exact h (by simp)), if_pos rfl]
    | cons x t =>
      rw [if_pos (by
        refine ⟨by simp, ?_⟩
        unfold over
        simp only [List.take_zero, List.nil_append, List.cons_append, List.head?_cons, ne_eq, Option.some.injEq]
        intro e
        exact mz (by simp [e])), cstr_over mz, Option.bind_some]
      obtain ⟨l, o, e, _, h1, _⟩ := C79_line (logSetFile {} (some (3, false))) buf { stamp := stamp, prio := 3, text := x :: t } false hb hs
      have k := (h1 3 false rfl (show (3 : Int) ≤ 3 by decide) rfl).2
      have e' : logAux (logSetFile {} (some (((3 : UInt8).toNat : Int), false))) buf { stamp := stamp, prio := ((3 : UInt8).toNat : Int), text := x :: t } false = some (l, o) := e
      rw [e', Option.map_some, k, if_neg (by simp)]
      rfl

theorem line3 (c : LogCall) (h : c.short) : c.line = c.stamp ++ c.shown ∧ ({ c with prio := 3 } : LogCall) = c ∧ c.line.drop (c.stamp.length + 11) = c.shown.drop 11 := by
  obtain ⟨ok, h1, h2, h3, h4, h5, h6⟩ := h
  have e := (C79_shape c ok h1).2.2.2 h3
  have e2 : c.line = c.stamp ++ c.shown := by
    rw [e]
    unfold LogCall.full LogCall.shown
    rw [h2, h1]
    have : logHead 3 = bs "ERROR:     " := rfl
    rw [this]
    simp
  refine ⟨e2, by cases c; simp_all, ?_⟩
  rw [e2, List.drop_append, List.drop_eq_nil_of_le (by omega), List.nil_append]
  congr 1; omega

end Conman
