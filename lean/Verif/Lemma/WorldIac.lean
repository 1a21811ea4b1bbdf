import Verif.Lemma.WorldStep

/-
What has been read of a telnet command is changed only by what the connection brings.
-/
namespace Conman
open Spec

/-- The decoders of both states are the same. -/
def Ic (w w' : World) : Prop := ∀ j, (w'.obj j).iac = (w.obj j).iac

theorem Ic.refl (w : World) : Ic w w := fun _ => rfl
theorem Ic.trans {a b c : World} (h : Ic a b) (h' : Ic b c) : Ic a c := fun j => (h' j).trans (h j)
theorem Ic.tick {w w1 : World} (h : Ic w w1) {t : Nat} : Ic w { w1 with tick := t } := h
theorem Ic.mod (w : World) (i : Nat) (f : Obj → Obj) (hf : ∀ o, (f o).iac = o.iac) : Ic w (w.mod i f) := by
  intro j
  simp only [World.mod]
  split
  · exact hf _
  · rfl
theorem Ic.tmod {w w1 : World} (h : Ic w w1) (i : Nat) (f : Obj → Obj) (hf : ∀ o, (f o).iac = o.iac) : Ic w (w1.mod i f) := h.trans (.mod _ _ _ hf)
/-- First a change of one object, then more. -/
theorem Ic.pre {w w1 : World} {i : Nat} {f : Obj → Obj} (h : Ic (w.mod i f) w1) (hf : ∀ o, (f o).iac = o.iac) : Ic w w1 := (Ic.mod w i f hf).trans h
theorem Ic.foldl {α : Type} (f : World → α → World) (hf : ∀ w a, Ic w (f w a)) (l : List α) : ∀ w, Ic w (l.foldl f w) := by
  induction l with
  | nil => exact fun w => .refl w
  | cons a l ih => exact fun w => (hf w a).trans (ih _)

theorem write_ic (o : Obj) (d : List UInt8) (b : Bool) : (o.write d b).iac = o.iac := by
  rw [Obj.write]
  split
  · rfl
  · split
    · rfl
    · split <;> rfl

theorem writes_ic (l : List (List UInt8)) : ∀ o : Obj, (l.foldl (fun o b => o.write b false) o).iac = o.iac := by
  induction l with
  | nil => exact fun _ => rfl
  | cons a l ih => intro o; exact (ih _).trans (write_ic o a false)

theorem writeLog_ic (o : Obj) (clk : Nat → List UInt8) (d : List UInt8) : (o.writeLog clk d).iac = o.iac := by
  rw [Obj.writeLog]; exact writes_ic _ _

theorem note_ic (w : World) (env : Env) (n : Note) (i : Nat) : Ic w (w.note env n i) := .mod _ _ _ fun o => write_ic o _ _

theorem notify_ic (w : World) (env : Env) (con : Nat) (n : Note) : Ic w (w.notify env con n) :=
  (Ic.foldl _ (fun w i => note_ic w env n i) _ _).trans (Ic.foldl _ (fun w i => note_ic w env n i) _ _)

theorem cut_ic (w : World) (a b : Nat) : Ic w (w.cut a b) := by
  rw [World.cut]; refine Ic.tmod ?_ _ _ ?_
  · refine Ic.mod _ _ _ ?_
    exact fun _ => rfl
  · exact fun _ => rfl

theorem unlinkObjs_ic (w : World) (env : Env) (a b : Nat) : Ic w (w.unlinkObjs env a b) := by
  rw [World.unlinkObjs]
  have h2 : Ic w (if (w.obj b).writers.count a > 0 ∧ ((w.cut a b).obj a).kind = .client ∧ ((w.cut a b).obj b).kind.isConsole then
      (w.cut a b).notify env b (.departed a b) else w.cut a b) := by
    split
    · exact (cut_ic w a b).trans (notify_ic _ _ _ _)
    · exact cut_ic w a b
  generalize (if (w.obj b).writers.count a > 0 ∧ ((w.cut a b).obj a).kind = .client ∧ ((w.cut a b).obj b).kind.isConsole then
      (w.cut a b).notify env b (.departed a b) else w.cut a b) = w2 at h2
  split
  · exact h2.trans (.mod _ _ _ fun _ => rfl)
  · split
    · exact h2.trans (.mod _ _ _ fun _ => rfl)
    · exact h2

theorem unlinkWriters_ic (env : Env) (i n : Nat) : ∀ w : World, Ic w (w.unlinkWriters env i n) := by
  induction n with
  | zero => exact fun w => .refl w
  | succ n ih =>
    intro w
    rw [World.unlinkWriters]
    split
    · exact .refl w
    · exact (unlinkObjs_ic w env _ _).trans (ih _)

theorem unlinkReaders_ic (env : Env) (i n : Nat) : ∀ w : World, Ic w (w.unlinkReaders env i n) := by
  induction n with
  | zero => exact fun w => .refl w
  | succ n ih =>
    intro w
    rw [World.unlinkReaders]
    split
    · exact .refl w
    · exact (unlinkObjs_ic w env _ _).trans (ih _)

theorem unlinkObj_ic (w : World) (env : Env) (i : Nat) : Ic w (w.unlinkObj env i) :=
  (unlinkWriters_ic env i _ w).trans (unlinkReaders_ic env i _ _)

theorem linkObjs_ic (w : World) (env : Env) (a b : Nat) : Ic w (w.linkObjs env a b) := by
  rw [World.linkObjs]
  dsimp only
  refine Ic.tmod ?_ _ _ ?_
  rotate_left
  · exact fun _ => rfl
  refine Ic.tmod ?_ _ _ ?_
  rotate_left
  · exact fun _ => rfl
  split
  · have h : ∀ (n : Note) (f : Nat → Note) (l : List Nat), Ic w (l.foldl (fun w x => w.note env (f x) a) (w.notify env b n)) :=
      fun n f l => (notify_ic w env b n).trans (Ic.foldl _ (fun w x => note_ic w env (f x) a) _ _)
    split
    · exact (h _ _ _).trans (Ic.foldl _ (fun w x => unlinkObj_ic w env x) _ _)
    · exact h _ _ _
  · exact .refl w

theorem break1_ic (w : World) (con : Nat) : Ic w (w.break1 con) := by
  rw [World.break1]
  split
  · exact .mod _ _ _ fun o => write_ic o _ _
  · exact fun _ => rfl
  · exact fun _ => rfl
  · split
    · exact .mod _ _ _ fun o => write_ic o _ _
    · exact .refl w
  · exact .refl w

theorem toggle_ic {w w' : World} {env : Env} {c : Nat} (h : w.toggle env c = some w') : Ic w w' := by
  rw [World.toggle] at h
  split at h
  · cases h; exact .refl w
  · split at h
    · cases h
    · split at h
      · cases h; exact Ic.pre (unlinkObjs_ic _ _ _ _) fun _ => rfl
      · cases h; exact Ic.pre (linkObjs_ic _ _ _ _) fun _ => rfl

theorem reset1_ic (w : World) (env : Env) (c con : Nat) : Ic w (w.reset1 env c con) := by
  rw [World.reset1]
  refine Ic.tick ?_
  split
  · exact .refl w
  · split
    · exact notify_ic _ _ _ _
    · split
      · exact notify_ic _ _ _ _
      · split
        · exact notify_ic _ _ _ _
        · rename_i pid _
          exact Ic.trans (b := ({ w with running := w.running ++ [(con, pid)], fx := w.fx ++ [.resetStart con pid] } : World)) (fun _ => rfl)
            (Ic.pre (notify_ic _ _ _ _) fun _ => rfl)

theorem act_ic {w w' : World} {env : Env} {c : Nat} {a : UInt8} (h : w.act env c a = some w') : Ic w w' := by
  rw [World.act] at h
  split at h
  · cases h; exact Ic.foldl _ break1_ic _ _
  · split at h
    · cases h; exact Ic.foldl _ (fun w i => .mod _ _ _ fun o => write_ic o _ _) _ _
    · split at h
      · exact Ic.pre (toggle_ic h) fun _ => rfl
      · split at h
        · exact Ic.pre (toggle_ic h) fun _ => rfl
        · split at h
          · split at h
            · cases h; exact .refl w
            · cases h; exact .mod _ _ _ fun o => write_ic o _ _
          · split at h
            · exact Ic.pre (toggle_ic h) fun _ => rfl
            · split at h
              · cases h
                exact .mod _ _ _ fun o => write_ic _ _ _
              · split at h
                · cases h; exact Ic.foldl _ (fun w x => reset1_ic w env c x) _ _
                · split at h
                  · cases h; exact .mod _ _ _ fun _ => rfl
                  · cases h; exact .refl w

theorem acts_ic {env : Env} {c : Nat} (as : List UInt8) : ∀ {w w' : World}, w.acts env c as = some w' → Ic w w' := by
  induction as with
  | nil => intro w w' h; rw [World.acts] at h; cases h; exact .refl w
  | cons a as ih =>
    intro w w' h
    rw [World.acts] at h
    obtain ⟨w1, h1, h2⟩ := Option.bind_eq_some_iff.1 h
    exact (act_ic h1).trans (ih h2)

theorem give_ic (w : World) (env : Env) (d : List UInt8) (i : Nat) : Ic w (w.give env d i) := by
  refine .mod _ _ _ fun o => ?_
  split
  · exact writeLog_ic o _ _
  · exact write_ic o _ _

theorem deliver_ic (w : World) (env : Env) (i : Nat) (d : List UInt8) : Ic w (w.deliver env i d) := by
  rw [World.deliver]
  split
  · exact .refl w
  · exact Ic.foldl _ (fun w i => give_ic w env d i) _ _

theorem shutdown_ic (w : World) (env : Env) (up : Bool) (i : Nat) : Ic w (w.shutdown env up i) := by
  rw [World.shutdown]
  split
  · exact .refl w
  · dsimp only
    refine Ic.trans (Ic.mod w i (fun o => { o with fd := false, pin := false, pout := false, pend := [], eof := false, gen := o.gen + 1, hist := o.hist ++ [none] }) fun _ => rfl) ?_
    generalize (w.mod i (fun o => { o with fd := false, pin := false, pout := false, pend := [], eof := false, gen := o.gen + 1, hist := o.hist ++ [none] })) = w1
    split
    · exact (unlinkObj_ic w1 env i).trans fun _ => rfl
    · exact .refl w1
    · split
      · exact Ic.pre (notify_ic _ _ _ _) fun _ => rfl
      · exact .mod _ _ _ fun _ => rfl
    · exact .mod _ _ _ fun _ => rfl
    · exact Ic.pre (notify_ic _ _ _ _) fun _ => rfl

/-- A read from `i`: the others keep their decoders, and so does `i` unless telnet data comes. -/
theorem read_ic {w w' : World} {env : Env} {up : Bool} {i : Nat} {r : ReadRes} (h : w.read env up i r = some w') (j : Nat)
    (hj : j = i → (w.obj i).kind = .telnet → (w.obj i).conn = .up → ∀ d, r ≠ .data d) : (w'.obj j).iac = (w.obj j).iac := by
  rw [World.read] at h
  split at h
  · cases h; rfl
  · split at h
    · cases h; rfl
    · rename_i hnu
      split at h
      · cases h; rfl
      · cases h; exact shutdown_ic _ _ _ _ j
      · cases h
        have h1 := Ic.mod w i (fun o => { o with eof := true, pin := false }) fun _ => rfl
        generalize w.mod i (fun o => { o with eof := true, pin := false }) = w1 at h1 ⊢
        split
        · exact (h1.trans (shutdown_ic _ _ _ _)) j
        · exact h1 j
      · rename_i d hd
        dsimp only at h
        split at h
        · obtain ⟨w1, e1, e2⟩ := Option.map_eq_some_iff.1 h
          cases e2
          rw [deliver_ic, Ic.mod w1 i (fun o => { o with gotEscape := (processClientEscapes (w.obj i).gotEscape (d.take readBufSize)).gotEscape }) (fun _ => rfl) j]
          exact acts_ic _ e1 j
        · rename_i hk
          obtain ⟨t, e1, e2⟩ := Option.map_eq_some_iff.1 h
          cases e2
          rw [deliver_ic, World.mod]
          dsimp only
          split
          · rename_i hji
            exfalso
            have hc : (w.obj i).conn = .up := Decidable.byContradiction fun z => hnu ⟨hk, z⟩
            rw [if_neg (by rw [hk]; decide)] at hd
            exact hj hji hk hc d hd
          · rfl
        · cases h; exact deliver_ic _ _ _ _ j

/-- Telnet data. -/
theorem read_tel_ic {w w' : World} {env : Env} {up : Bool} {i : Nat} {d : List UInt8} (h : w.read env up i (.data d) = some w') (hf : (w.obj i).fd = true)
    (hk : (w.obj i).kind = .telnet) (hc : (w.obj i).conn = .up) (hd : d.length ≤ readBufSize) :
    ∃ t, processTelnetEscapes (w.obj i).iac d = some t ∧ (w'.obj i).iac = t.iac := by
  rw [World.read, if_neg (by rw [hf]; decide), if_neg (fun z => z.2 hc), if_neg (by rw [hk]; decide)] at h
  dsimp only at h
  rw [List.take_of_length_le hd, hk] at h
  dsimp only at h
  obtain ⟨t, e1, e2⟩ := Option.map_eq_some_iff.1 h
  cases e2
  refine ⟨t, e1, ?_⟩
  rw [deliver_ic, World.mod_self, write_ic]

theorem flush_ic (w : World) (env : Env) (up : Bool) (i : Nat) (r : WriteRes) : Ic w (w.flush env up i r) := by
  have h1 : ∀ n, Ic w ((w.push i n).drained i) := by
    intro n
    have hp : Ic w (w.push i n) := by
      rw [World.push]
      exact Ic.trans (b := ({ w with fx := if n = 0 then w.fx else w.fx ++ [.sent i ((w.obj i).pend.take n)] } : World)) (fun _ => rfl)
        (.mod _ _ _ fun _ => rfl)
    refine hp.trans ?_
    rw [World.drained]
    split
    · exact .mod _ _ _ fun _ => rfl
    · exact .refl _
  rw [World.flush]
  dsimp only
  split
  · exact .refl w
  · split
    · exact .refl w
    · split
      · exact (h1 _).trans (shutdown_ic _ _ _ _)
      · exact h1 _

theorem checkState_ic (w : World) (env : Env) (a b : Nat) : Ic w (w.checkState env a b) := by
  rw [World.checkState]
  split
  · exact .refl w
  · exact note_ic _ _ _ _

theorem grant_ic (w : World) (env : Env) (c : Nat) (q : Req) (j : Nat) (hj : j ≠ c) : ((w.grant env c q).obj j).iac = (w.obj j).iac := by
  have h : Ic (w.newClient c q) (w.grant env c q) := by
    rw [World.grant]
    split
    · exact (linkObjs_ic _ _ _ _).trans (checkState_ic _ _ _ _)
    · exact (linkObjs_ic _ _ _ _).trans ((linkObjs_ic _ _ _ _).trans (checkState_ic _ _ _ _))
    · exact Ic.foldl _ (fun w x => (linkObjs_ic w env c x).trans (checkState_ic _ _ _ _)) _ _
    · exact .refl _
  rw [h j, World.newClient, World.mod]
  dsimp only
  rw [if_neg hj]

theorem connUp_ic (w : World) (env : Env) (i : Nat) : Ic w (w.connUp env i) := by
  rw [World.connUp]
  dsimp only
  split
  · exact .refl w
  · split
    · exact .refl w
    · have h1 := Ic.mod w i (fun o => { o with fd := true, pin := true, conn := .up, eof := false }) fun _ => rfl
      generalize w.mod i (fun o => { o with fd := true, pin := true, conn := .up, eof := false }) = w1 at h1 ⊢
      have h2 : Ic w (if (w.obj i).kind = .test then w1 else w1.notify env i (.connected i)) := by
        split
        · exact h1
        · exact h1.trans (notify_ic _ _ _ _)
      split
      · exact h2.trans (.mod _ _ _ fun o => write_ic o _ _)
      · exact h2

/-- Objects that exist keep their decoders, except for telnet data. -/
theorem step_ic {w w' : World} {env : Env} {s : Step} (h : w.step env s = some w') {j : Nat} (hj : j ∈ w.live)
    (hs : ∀ up d wr, (w.obj j).kind = .telnet → (w.obj j).conn = .up → ((w.obj j).pin = true ∨ (w.obj j).pout = true) → s ≠ .poll j up (some (.data d)) wr) :
    (w'.obj j).iac = (w.obj j).iac := by
  cases s with
  | check q => simp only [World.step, Option.some.injEq] at h; subst h; split <;> rfl
  | grant c k =>
    simp only [World.step, Option.some.injEq] at h
    subst h
    split
    · split
      · rfl
      · rename_i hc
        exact grant_ic _ env c _ j fun e => hc (e ▸ hj)
    · rfl
  | poll i up rd wr =>
    simp only [World.step] at h
    split at h
    · cases h; rfl
    · rename_i hpl
      obtain ⟨w1, e1, e2⟩ := Option.map_eq_some_iff.1 h
      have h1 : (w1.obj j).iac = (w.obj j).iac := by
        split at e1
        · cases e1; rfl
        · refine read_ic e1 j ?_
          rintro rfl hk hc d rfl
          refine hs up d wr hk hc ?_ rfl
          apply Decidable.byContradiction
          intro z
          rw [not_or, Bool.not_eq_true, Bool.not_eq_true] at z
          exact hpl (Or.inr z)
      subst e2
      have h2 : ∀ x : Option WriteRes, Ic w1 (if i ∉ w1.live then w1 else match x with | none => w1 | some r => w1.flush env up i r) := by
        intro x
        split
        · exact .refl _
        · cases x with
          | none => exact .refl _
          | some r => exact flush_ic _ _ _ _ _
      exact (h2 _ j).trans h1
  | connUp i =>
    simp only [World.step, Option.some.injEq] at h; subst h
    split
    · exact connUp_ic _ _ _ j
    · rfl
  | connPend i =>
    simp only [World.step, Option.some.injEq] at h; subst h
    split
    · refine Ic.mod _ _ _ ?_ j; exact fun _ => rfl
    · rfl
  | connDown i =>
    simp only [World.step, Option.some.injEq] at h; subst h
    split
    · refine Ic.mod _ _ _ ?_ j; exact fun _ => rfl
    · rfl
  | connFail i =>
    simp only [World.step, Option.some.injEq] at h; subst h
    split
    · exact notify_ic _ _ _ _ j
    · rfl
  | resetTimeout con =>
    simp only [World.step, Option.some.injEq] at h
    subst h
    split
    · split
      · refine Ic.mod _ _ _ ?_ j; exact fun _ => rfl
      · split
        · exact Ic.mod w con (fun o => { o with resetPid := none, resetTimer := false }) (fun _ => rfl) j
        · refine Ic.mod _ _ _ ?_ j; exact fun _ => rfl
    · rfl
  | childExit con pid => simp only [World.step, Option.some.injEq] at h; subst h; rfl
  | logOpen i ok =>
    simp only [World.step, Option.some.injEq] at h
    subst h
    split
    · refine Ic.mod _ _ _ (fun o => ?_) j
      split
      · exact write_ic _ _ _
      · rfl
    · rfl
  | logStamp i =>
    simp only [World.step, Option.some.injEq] at h; subst h
    split
    · exact note_ic _ _ _ _ j
    · rfl

end Conman
