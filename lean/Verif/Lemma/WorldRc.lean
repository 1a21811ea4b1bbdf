import Verif.Lemma.WorldStep

/-
No step changes whether a console has a reset command, or which log it has.
-/
namespace Conman
open Spec

/-- What does not change: the reset command and the log of a console. -/
def Obj.fixed (o : Obj) : Bool × Option Nat := (o.resetCmd, o.log)

/-- It is the same in both states. -/
def Rc (w w' : World) : Prop := ∀ j, (w'.obj j).fixed = (w.obj j).fixed

theorem Rc.refl (w : World) : Rc w w := fun _ => rfl
theorem Rc.trans {a b c : World} (h : Rc a b) (h' : Rc b c) : Rc a c := fun j => (h' j).trans (h j)
theorem Rc.tick {w w1 : World} (h : Rc w w1) {t : Nat} : Rc w { w1 with tick := t } := h
theorem Rc.mod (w : World) (i : Nat) (f : Obj → Obj) (hf : ∀ o, (f o).fixed = o.fixed) : Rc w (w.mod i f) := by
  intro j
  simp only [World.mod]
  split
  · exact hf _
  · rfl
theorem Rc.tmod {w w1 : World} (h : Rc w w1) (i : Nat) (f : Obj → Obj) (hf : ∀ o, (f o).fixed = o.fixed) : Rc w (w1.mod i f) := h.trans (.mod _ _ _ hf)
/-- First a change of one object, then more. -/
theorem Rc.pre {w w1 : World} {i : Nat} {f : Obj → Obj} (h : Rc (w.mod i f) w1) (hf : ∀ o, (f o).fixed = o.fixed) : Rc w w1 := (Rc.mod w i f hf).trans h
theorem Rc.foldl {α : Type} (f : World → α → World) (hf : ∀ w a, Rc w (f w a)) (l : List α) : ∀ w, Rc w (l.foldl f w) := by
  induction l with
  | nil => exact fun w => .refl w
  | cons a l ih => exact fun w => (hf w a).trans (ih _)

theorem write_rc (o : Obj) (d : List UInt8) (b : Bool) : (o.write d b).fixed = o.fixed := by
  rcases o.write_cases d b with h | ⟨_, h⟩ <;> unfold Obj.fixed <;> rw [h]

theorem writes_rc (l : List (List UInt8)) : ∀ o : Obj, (l.foldl (fun o b => o.write b false) o).fixed = o.fixed := by
  induction l with
  | nil => exact fun _ => rfl
  | cons a l ih => intro o; exact (ih _).trans (write_rc o a false)

theorem writeLog_rc (o : Obj) (clk : Nat → List UInt8) (d : List UInt8) : (o.writeLog clk d).fixed = o.fixed := by
  rw [Obj.writeLog]; exact writes_rc _ _

theorem note_rc (w : World) (env : Env) (n : Note) (i : Nat) : Rc w (w.note env n i) := .mod _ _ _ fun o => write_rc o _ _

theorem notify_rc (w : World) (env : Env) (con : Nat) (n : Note) : Rc w (w.notify env con n) :=
  (Rc.foldl _ (fun w i => note_rc w env n i) _ _).trans (Rc.foldl _ (fun w i => note_rc w env n i) _ _)

theorem cut_rc (w : World) (a b : Nat) : Rc w (w.cut a b) := by
  rw [World.cut]; refine Rc.tmod ?_ _ _ ?_
  · refine Rc.mod _ _ _ ?_
    exact fun _ => rfl
  · exact fun _ => rfl

theorem unlinkObjs_rc (w : World) (env : Env) (a b : Nat) : Rc w (w.unlinkObjs env a b) := by
  rw [World.unlinkObjs]
  have h2 : Rc w (if (w.obj b).writers.count a > 0 ∧ ((w.cut a b).obj a).kind = .client ∧ ((w.cut a b).obj b).kind.isConsole then
      (w.cut a b).notify env b (.departed a b) else w.cut a b) := by
    split
    · exact (cut_rc w a b).trans (notify_rc _ _ _ _)
    · exact cut_rc w a b
  generalize (if (w.obj b).writers.count a > 0 ∧ ((w.cut a b).obj a).kind = .client ∧ ((w.cut a b).obj b).kind.isConsole then
      (w.cut a b).notify env b (.departed a b) else w.cut a b) = w2 at h2
  split
  · exact h2.trans (.mod _ _ _ fun _ => rfl)
  · split
    · exact h2.trans (.mod _ _ _ fun _ => rfl)
    · exact h2

theorem unlinkWriters_rc (env : Env) (i n : Nat) : ∀ w : World, Rc w (w.unlinkWriters env i n) := by
  induction n with
  | zero => exact fun w => .refl w
  | succ n ih =>
    intro w
    rw [World.unlinkWriters]
    split
    · exact .refl w
    · exact (unlinkObjs_rc w env _ _).trans (ih _)

theorem unlinkReaders_rc (env : Env) (i n : Nat) : ∀ w : World, Rc w (w.unlinkReaders env i n) := by
  induction n with
  | zero => exact fun w => .refl w
  | succ n ih =>
    intro w
    rw [World.unlinkReaders]
    split
    · exact .refl w
    · exact (unlinkObjs_rc w env _ _).trans (ih _)

theorem unlinkObj_rc (w : World) (env : Env) (i : Nat) : Rc w (w.unlinkObj env i) :=
  (unlinkWriters_rc env i _ w).trans (unlinkReaders_rc env i _ _)

theorem linkObjs_rc (w : World) (env : Env) (a b : Nat) : Rc w (w.linkObjs env a b) := by
  rw [World.linkObjs]
  dsimp only
  refine Rc.tmod ?_ _ _ ?_
  rotate_left
  · exact fun _ => rfl
  refine Rc.tmod ?_ _ _ ?_
  rotate_left
  · exact fun _ => rfl
  split
  · have h : ∀ (n : Note) (f : Nat → Note) (l : List Nat), Rc w (l.foldl (fun w x => w.note env (f x) a) (w.notify env b n)) :=
      fun n f l => (notify_rc w env b n).trans (Rc.foldl _ (fun w x => note_rc w env (f x) a) _ _)
    split
    · exact (h _ _ _).trans (Rc.foldl _ (fun w x => unlinkObj_rc w env x) _ _)
    · exact h _ _ _
  · exact .refl w

theorem break1_rc (w : World) (con : Nat) : Rc w (w.break1 con) := by
  rw [World.break1]
  split
  · exact .mod _ _ _ fun o => write_rc o _ _
  · exact fun _ => rfl
  · exact fun _ => rfl
  · split
    · exact .mod _ _ _ fun o => write_rc o _ _
    · exact .refl w
  · exact .refl w

theorem toggle_rc {w w' : World} {env : Env} {c : Nat} (h : w.toggle env c = some w') : Rc w w' := by
  rw [World.toggle] at h
  split at h
  · cases h; exact .refl w
  · split at h
    · cases h
    · split at h
      · cases h; exact Rc.pre (unlinkObjs_rc _ _ _ _) fun _ => rfl
      · cases h; exact Rc.pre (linkObjs_rc _ _ _ _) fun _ => rfl

theorem reset1_rc (w : World) (env : Env) (c con : Nat) : Rc w (w.reset1 env c con) := by
  rw [World.reset1]
  refine Rc.tick ?_
  split
  · exact .refl w
  · split
    · exact notify_rc _ _ _ _
    · split
      · exact notify_rc _ _ _ _
      · split
        · exact notify_rc _ _ _ _
        · rename_i pid _
          exact Rc.trans (b := ({ w with running := w.running ++ [(con, pid)], fx := w.fx ++ [.resetStart con pid] } : World)) (fun _ => rfl)
            (Rc.pre (notify_rc _ _ _ _) fun _ => rfl)

theorem act_rc {w w' : World} {env : Env} {c : Nat} {a : UInt8} (h : w.act env c a = some w') : Rc w w' := by
  rw [World.act] at h
  split at h
  · cases h; exact Rc.foldl _ break1_rc _ _
  · split at h
    · cases h; exact Rc.foldl _ (fun w i => .mod _ _ _ fun o => write_rc o _ _) _ _
    · split at h
      · exact Rc.pre (toggle_rc h) fun _ => rfl
      · split at h
        · exact Rc.pre (toggle_rc h) fun _ => rfl
        · split at h
          · split at h
            · cases h; exact .refl w
            · cases h; exact .mod _ _ _ fun o => write_rc o _ _
          · split at h
            · exact Rc.pre (toggle_rc h) fun _ => rfl
            · split at h
              · cases h
                exact .mod _ _ _ fun o => write_rc _ _ _
              · split at h
                · cases h; exact Rc.foldl _ (fun w x => reset1_rc w env c x) _ _
                · split at h
                  · cases h; exact .mod _ _ _ fun _ => rfl
                  · cases h; exact .refl w

theorem acts_rc {env : Env} {c : Nat} (as : List UInt8) : ∀ {w w' : World}, w.acts env c as = some w' → Rc w w' := by
  induction as with
  | nil => intro w w' h; rw [World.acts] at h; cases h; exact .refl w
  | cons a as ih =>
    intro w w' h
    rw [World.acts] at h
    obtain ⟨w1, h1, h2⟩ := Option.bind_eq_some_iff.1 h
    exact (act_rc h1).trans (ih h2)

theorem give_rc (w : World) (env : Env) (d : List UInt8) (i : Nat) : Rc w (w.give env d i) := by
  refine .mod _ _ _ fun o => ?_
  split
  · exact writeLog_rc o _ _
  · exact write_rc o _ _

theorem deliver_rc (w : World) (env : Env) (i : Nat) (d : List UInt8) : Rc w (w.deliver env i d) := by
  rw [World.deliver]
  split
  · exact .refl w
  · exact Rc.foldl _ (fun w i => give_rc w env d i) _ _

theorem shutdown_rc (w : World) (env : Env) (up : Bool) (i : Nat) : Rc w (w.shutdown env up i) := by
  rw [World.shutdown]
  split
  · exact .refl w
  · dsimp only
    refine Rc.trans (Rc.mod w i (fun o => { o with fd := false, pin := false, pout := false, pend := [], eof := false, gen := o.gen + 1, hist := o.hist ++ [none] }) fun _ => rfl) ?_
    generalize (w.mod i (fun o => { o with fd := false, pin := false, pout := false, pend := [], eof := false, gen := o.gen + 1, hist := o.hist ++ [none] })) = w1
    split
    · exact (unlinkObj_rc w1 env i).trans fun _ => rfl
    · exact .refl w1
    · split
      · exact Rc.pre (notify_rc _ _ _ _) fun _ => rfl
      · exact .mod _ _ _ fun _ => rfl
    · exact .mod _ _ _ fun _ => rfl
    · exact Rc.pre (notify_rc _ _ _ _) fun _ => rfl

theorem read_rc {w w' : World} {env : Env} {up : Bool} {i : Nat} {r : ReadRes} (h : w.read env up i r = some w') : Rc w w' := by
  rw [World.read] at h
  split at h
  · cases h; exact .refl w
  · split at h
    · cases h; exact .refl w
    · split at h
      · cases h; exact .refl w
      · cases h; exact shutdown_rc _ _ _ _
      · cases h
        have h1 := Rc.mod w i (fun o => { o with eof := true, pin := false }) fun _ => rfl
        generalize w.mod i (fun o => { o with eof := true, pin := false }) = w1 at h1 ⊢
        split
        · exact h1.trans (shutdown_rc _ _ _ _)
        · exact h1
      · dsimp only at h
        split at h
        · obtain ⟨w1, e1, e2⟩ := Option.map_eq_some_iff.1 h
          cases e2
          exact (acts_rc _ e1).trans (Rc.pre (deliver_rc _ _ _ _) fun _ => rfl)
        · obtain ⟨t, e1, e2⟩ := Option.map_eq_some_iff.1 h
          cases e2
          exact Rc.pre (deliver_rc _ _ _ _) fun o => write_rc _ _ _
        · cases h; exact deliver_rc _ _ _ _

theorem flush_rc (w : World) (env : Env) (up : Bool) (i : Nat) (r : WriteRes) : Rc w (w.flush env up i r) := by
  have h1 : ∀ n, Rc w ((w.push i n).drained i) := by
    intro n
    have hp : Rc w (w.push i n) := by
      rw [World.push]
      exact Rc.trans (b := ({ w with fx := if n = 0 then w.fx else w.fx ++ [.sent i ((w.obj i).pend.take n)] } : World)) (fun _ => rfl)
        (.mod _ _ _ fun _ => rfl)
    refine hp.trans ?_
    rw [World.drained]
    split
    · exact .mod _ _ _ fun _ => rfl
    · exact .refl _
  rw [World.flush]
  dsimp only
  split
  · exact .refl w
  · split
    · exact .refl w
    · split
      · exact (h1 _).trans (shutdown_rc _ _ _ _)
      · exact h1 _

theorem checkState_rc (w : World) (env : Env) (a b : Nat) : Rc w (w.checkState env a b) := by
  rw [World.checkState]
  split
  · exact .refl w
  · exact note_rc _ _ _ _

theorem grant_rc (w : World) (env : Env) (c : Nat) (q : Req) (j : Nat) (hj : j ≠ c) : ((w.grant env c q).obj j).fixed = (w.obj j).fixed := by
  have h : Rc (w.newClient c q) (w.grant env c q) := by
    rw [World.grant]
    split
    · exact (linkObjs_rc _ _ _ _).trans (checkState_rc _ _ _ _)
    · exact (linkObjs_rc _ _ _ _).trans ((linkObjs_rc _ _ _ _).trans (checkState_rc _ _ _ _))
    · exact Rc.foldl _ (fun w x => (linkObjs_rc w env c x).trans (checkState_rc _ _ _ _)) _ _
    · exact .refl _
  rw [h j, World.newClient, World.mod]
  dsimp only
  rw [if_neg hj]

theorem connUp_rc (w : World) (env : Env) (i : Nat) : Rc w (w.connUp env i) := by
  rw [World.connUp]
  dsimp only
  split
  · exact .refl w
  · split
    · exact .refl w
    · have h1 := Rc.mod w i (fun o => { o with fd := true, pin := true, conn := .up, eof := false }) fun _ => rfl
      generalize w.mod i (fun o => { o with fd := true, pin := true, conn := .up, eof := false }) = w1 at h1 ⊢
      have h2 : Rc w (if (w.obj i).kind = .test then w1 else w1.notify env i (.connected i)) := by
        split
        · exact h1
        · exact h1.trans (notify_rc _ _ _ _)
      split
      · exact h2.trans (.mod _ _ _ fun o => write_rc o _ _)
      · exact h2

/-- Objects that exist keep what they have of a reset command and a log. -/
theorem step_rc {w w' : World} {env : Env} {s : Step} (h : w.step env s = some w') {j : Nat} (hj : j ∈ w.live) :
    (w'.obj j).fixed = (w.obj j).fixed := by
  cases s with
  | check q => simp only [World.step, Option.some.injEq] at h; subst h; split <;> rfl
  | grant c k =>
    simp only [World.step, Option.some.injEq] at h
    subst h
    split
    · split
      · rfl
      · rename_i hc
        exact grant_rc _ env c _ j fun e => hc (e ▸ hj)
    · rfl
  | poll i up rd wr =>
    simp only [World.step] at h
    split at h
    · cases h; rfl
    · obtain ⟨w1, e1, e2⟩ := Option.map_eq_some_iff.1 h
      have h1 : Rc w w1 := by
        split at e1
        · cases e1; exact .refl w
        · exact read_rc e1
      subst e2
      have h2 : ∀ x : Option WriteRes, Rc w1 (if i ∉ w1.live then w1 else match x with | none => w1 | some r => w1.flush env up i r) := by
        intro x
        split
        · exact .refl _
        · cases x with
          | none => exact .refl _
          | some r => exact flush_rc _ _ _ _ _
      exact (h1.trans (h2 _)) j
  | connUp i =>
    simp only [World.step, Option.some.injEq] at h; subst h
    split
    · exact connUp_rc _ _ _ j
    · rfl
  | connPend i =>
    simp only [World.step, Option.some.injEq] at h; subst h
    split
    · refine Rc.mod _ _ _ ?_ j; exact fun _ => rfl
    · rfl
  | connDown i =>
    simp only [World.step, Option.some.injEq] at h; subst h
    split
    · refine Rc.mod _ _ _ ?_ j; exact fun _ => rfl
    · rfl
  | connFail i =>
    simp only [World.step, Option.some.injEq] at h; subst h
    split
    · exact notify_rc _ _ _ _ j
    · rfl
  | resetTimeout con =>
    simp only [World.step, Option.some.injEq] at h
    subst h
    split
    · split
      · refine Rc.mod _ _ _ ?_ j; exact fun _ => rfl
      · split
        · exact Rc.mod w con (fun o => { o with resetPid := none, resetTimer := false }) (fun _ => rfl) j
        · refine Rc.mod _ _ _ ?_ j; exact fun _ => rfl
    · rfl
  | childExit con pid => simp only [World.step, Option.some.injEq] at h; subst h; rfl
  | logOpen i ok =>
    simp only [World.step, Option.some.injEq] at h
    subst h
    split
    · refine Rc.mod _ _ _ (fun o => ?_) j
      split
      · exact write_rc _ _ _
      · rfl
    · rfl
  | logStamp i =>
    simp only [World.step, Option.some.injEq] at h; subst h
    split
    · exact note_rc _ _ _ _ j
    · rfl

end Conman
