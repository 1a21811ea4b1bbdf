import Verif.Lemma.WorldMode

/-
Facts about output, end-of-file and external effects.
-/
namespace Conman
open Spec

/-! ### Objects at end-of-file -/

structure AtEof (o o' : Obj) : Prop where
  eof : o'.eof = true
  pend : o'.pend = o.pend
  pin : o'.pin = o.pin
  pout : o'.pout = o.pout
  fd : o'.fd = o.fd
  suspend : o'.suspend = o.suspend
  kind : o'.kind = o.kind

theorem AtEof.refl {o : Obj} (h : o.eof = true) : AtEof o o := ⟨h, rfl, rfl, rfl, rfl, rfl, rfl⟩
theorem AtEof.trans {a b c : Obj} (h : AtEof a b) (h' : AtEof b c) : AtEof a c :=
  ⟨h'.eof, by rw [h'.pend, h.pend], by rw [h'.pin, h.pin], by rw [h'.pout, h.pout], by rw [h'.fd, h.fd],
    by rw [h'.suspend, h.suspend], by rw [h'.kind, h.kind]⟩

theorem Passive.atEof {o o' : Obj} (h : Passive env o o') : o.eof = true → AtEof o o' := by
  induction h with
  | refl => exact .refl
  | trans _ _ h1 h2 => exact fun h => (h1 h).trans (h2 (h1 h).eof)
  | info o n t _ => intro h; rw [o.write_of_eof (env.txt n t) true h]; exact .refl h
  | links => exact fun h => ⟨h, rfl, rfl, rfl, rfl, rfl, rfl⟩
  | orphan => exact fun h => ⟨rfl, rfl, rfl, rfl, rfl, rfl, rfl⟩

theorem Ext.atEof {b : Bool} {o o' : Obj} (h : Ext env b o o') : o.eof = true → AtEof o o' := by
  induction h with
  | refl => exact .refl
  | trans _ _ h1 h2 => exact fun h => (h1 h).trans (h2 (h1 h).eof)
  | pass p => exact p.atEof
  | reset => exact fun h => ⟨h, rfl, rfl, rfl, rfl, rfl, rfl⟩
  | data o d _ => intro h; rw [o.write_of_eof d false h]; exact .refl h
  | log => exact fun h => ⟨h, rfl, rfl, rfl, rfl, rfl, rfl⟩

theorem Ext.gen {b : Bool} {o o' : Obj} (h : Ext env b o o') : o'.gen = o.gen := by
  induction h with
  | refl => rfl
  | trans _ _ h1 h2 => rw [h2, h1]
  | pass p => exact p.same.gen
  | reset => rfl
  | data o d _ => exact (SameFlags.write o d false).gen
  | log => rfl

theorem COwn.gen {b p : Bool} {o o' : Obj} (h : COwn env b p o o') : o'.gen = o.gen := by
  induction h with
  | refl => rfl
  | trans _ _ h1 h2 => rw [h2, h1]
  | pass p => exact p.same.gen
  | data o d _ => exact (SameFlags.write o d false).gen
  | quiet => rfl
  | flags => rfl
  | susp => rfl
  | eofRead => rfl
  | push => rfl
  | drain => rfl

theorem COwn.pend_at_eof {b p : Bool} {o o' : Obj} (h : COwn env b p o o') : p = false → o.eof = true → o'.pend = o.pend := by
  induction h with
  | refl => exact fun _ _ => rfl
  | trans h1' _ h1 h2 => exact fun hp h => by rw [h2 hp (h1'.eofStays h), h1 hp h]
  | pass p => exact fun _ h => (p.atEof h).pend
  | data o d _ => intro _ h; rw [o.write_of_eof d false h]
  | quiet => exact fun _ _ => rfl
  | flags => exact fun _ _ => rfl
  | susp => exact fun _ _ => rfl
  | eofRead => exact fun _ _ => rfl
  | push _ _ h => intro hp; rw [hp] at h; simp at h
  | drain => exact fun _ _ => rfl

/-! ### External effects -/

/-- No change of the recorded effects and running commands. -/
def SameFx (w w' : World) : Prop := w'.fx = w.fx ∧ w'.running = w.running
theorem SameFx.refl (w : World) : SameFx w w := ⟨rfl, rfl⟩
theorem SameFx.trans {a b c : World} (h : SameFx a b) (h' : SameFx b c) : SameFx a c := ⟨by rw [h'.1, h.1], by rw [h'.2, h.2]⟩
theorem SameFx.mod (w : World) (i : Nat) (f : Obj → Obj) : SameFx w (w.mod i f) := ⟨rfl, rfl⟩
theorem SameFx.foldl {α : Type} (f : World → α → World) (l : List α) (w : World) (h : ∀ v a, SameFx v (f v a)) :
    SameFx w (l.foldl f w) := by
  induction l generalizing w with
  | nil => exact .refl _
  | cons a l ih => rw [List.foldl_cons]; exact (h w a).trans (ih _)

theorem note_fx (w : World) (env : Env) (n : Note) (i : Nat) : SameFx w (w.note env n i) := .mod _ _ _
theorem notify_fx (w : World) (env : Env) (con : Nat) (n : Note) : SameFx w (w.notify env con n) := by
  unfold World.notify
  exact (SameFx.foldl _ _ _ (fun v a => note_fx v env n a)).trans (SameFx.foldl _ _ _ (fun v a => note_fx v env n a))

theorem unlinkObjs_fx (w : World) (env : Env) (src dst : Nat) : SameFx w (w.unlinkObjs env src dst) := by
  unfold World.unlinkObjs
  dsimp only
  have h1 : SameFx w (w.cut src dst) := (SameFx.mod _ _ _).trans (.mod _ _ _)
  have h2 : SameFx w (if List.count src (w.obj dst).writers > 0 ∧ ((w.cut src dst).obj src).kind = .client ∧
      ((w.cut src dst).obj dst).kind.isConsole = true then (w.cut src dst).notify env dst (.departed src dst) else w.cut src dst) := by
    split
    · exact h1.trans (notify_fx _ _ _ _)
    · exact h1
  generalize (if List.count src (w.obj dst).writers > 0 ∧ ((w.cut src dst).obj src).kind = .client ∧
      ((w.cut src dst).obj dst).kind.isConsole = true then (w.cut src dst).notify env dst (.departed src dst) else w.cut src dst) = v at h2 ⊢
  split
  · exact h2.trans (.mod _ _ _)
  split
  · exact h2.trans (.mod _ _ _)
  · exact h2

theorem unlinkWriters_fx (env : Env) (i n : Nat) : ∀ w : World, SameFx w (w.unlinkWriters env i n) := by
  induction n with
  | zero => intro w; exact .refl _
  | succ n ih =>
    intro w; unfold World.unlinkWriters
    split
    · exact .refl _
    · exact (unlinkObjs_fx _ _ _ _).trans (ih _)
theorem unlinkReaders_fx (env : Env) (i n : Nat) : ∀ w : World, SameFx w (w.unlinkReaders env i n) := by
  induction n with
  | zero => intro w; exact .refl _
  | succ n ih =>
    intro w; unfold World.unlinkReaders
    split
    · exact .refl _
    · exact (unlinkObjs_fx _ _ _ _).trans (ih _)
theorem unlinkObj_fx (w : World) (env : Env) (i : Nat) : SameFx w (w.unlinkObj env i) :=
  (unlinkWriters_fx env i _ w).trans (unlinkReaders_fx env i _ _)

theorem linkObjs_fx (w : World) (env : Env) (src dst : Nat) : SameFx w (w.linkObjs env src dst) := by
  unfold World.linkObjs
  dsimp only
  have : ∀ v : World, SameFx w v → SameFx w ((v.mod src (fun o => { o with readers := o.readers ++ [dst] })).mod dst
      (fun o => { o with writers := o.writers ++ [src] })) := fun v hv => hv.trans ((SameFx.mod _ _ _).trans (.mod _ _ _))
  apply this
  split
  · split
    · exact ((notify_fx w env _ _).trans (SameFx.foldl (fun w x => w.note env (.stolenFrom x dst) src) _ _
        (fun v a => note_fx v env _ src))).trans (SameFx.foldl (fun w x => w.unlinkObj env x) _ _ (fun v a => unlinkObj_fx v env a))
    · exact (notify_fx w env _ _).trans (SameFx.foldl (fun w x => w.note env (.joinedWith x dst) src) _ _
        (fun v a => note_fx v env _ src))
  · exact .refl _

theorem shutdown_sameFx (w : World) (env : Env) (up : Bool) (i : Nat) : SameFx w (w.shutdown env up i) := by
  unfold World.shutdown
  split
  · exact .refl _
  dsimp only
  have h1 : SameFx w (w.mod i (fun o =>
      { o with fd := false, pin := false, pout := false, pend := [], eof := false, gen := o.gen + 1, hist := o.hist ++ [none] })) := .mod _ _ _
  generalize (w.mod i (fun o =>
      { o with fd := false, pin := false, pout := false, pend := [], eof := false, gen := o.gen + 1, hist := o.hist ++ [none] })) = v at h1 ⊢
  split
  · have := unlinkObj_fx v env i
    exact h1.trans ⟨this.1, this.2⟩
  · exact h1
  · split
    · exact h1.trans ((SameFx.mod _ _ _).trans (notify_fx _ _ _ _))
    · exact h1.trans (.mod _ _ _)
  · exact h1.trans (.mod _ _ _)
  · exact h1.trans ((SameFx.mod _ _ _).trans (notify_fx _ _ _ _))

theorem checkState_fx (w : World) (env : Env) (c con : Nat) : SameFx w (w.checkState env c con) := by
  unfold World.checkState; split
  · exact .refl _
  · exact note_fx _ _ _ _

theorem grant_fx (w : World) (env : Env) (c : Nat) (q : Req) : SameFx w (w.grant env c q) := by
  have h0 : SameFx w (w.newClient c q) := ⟨rfl, rfl⟩
  unfold World.grant
  dsimp only
  split
  · exact h0.trans ((linkObjs_fx _ _ _ _).trans (checkState_fx _ _ _ _))
  · exact h0.trans ((linkObjs_fx _ _ _ _).trans ((linkObjs_fx _ _ _ _).trans (checkState_fx _ _ _ _)))
  · exact h0.trans (SameFx.foldl _ _ _ (fun v a => (linkObjs_fx _ _ _ _).trans (checkState_fx _ _ _ _)))
  · exact h0

theorem connUp_fx (w : World) (env : Env) (i : Nat) : SameFx w (w.connUp env i) := by
  unfold World.connUp
  dsimp only
  split
  · exact .refl _
  split
  · exact .refl _
  have h1 : SameFx w (w.mod i (fun o => { o with fd := true, pin := true, conn := .up, eof := false })) := .mod _ _ _
  generalize (w.mod i (fun o => { o with fd := true, pin := true, conn := .up, eof := false })) = v at h1 ⊢
  have h2 : SameFx w (if (w.obj i).kind = .test then v else v.notify env i (.connected i)) := by
    split
    · exact h1
    · exact h1.trans (notify_fx _ _ _ _)
  split
  · exact h2.trans (.mod _ _ _)
  · exact h2

theorem deliver_fx (w : World) (env : Env) (src : Nat) (d : List UInt8) : SameFx w (w.deliver env src d) := by
  unfold World.deliver
  split
  · exact .refl _
  · exact SameFx.foldl _ _ _ (fun v a => .mod _ _ _)

/-- Effects are only added; none of them sends bytes. -/
def NoSent (w w' : World) : Prop := ∃ l, w'.fx = w.fx ++ l ∧ ∀ i d, Fx.sent i d ∉ l
theorem NoSent.refl (w : World) : NoSent w w := ⟨[], by simp, by simp⟩
theorem SameFx.ns {w w' : World} (h : SameFx w w') : NoSent w w' := ⟨[], by simp [h.1], by simp⟩
theorem NoSent.trans {a b c : World} (h : NoSent a b) (h' : NoSent b c) : NoSent a c := by
  obtain ⟨l, h1, h2⟩ := h
  obtain ⟨m, h3, h4⟩ := h'
  refine ⟨l ++ m, by rw [h3, h1, List.append_assoc], fun i d hm => ?_⟩
  rcases List.mem_append.1 hm with g | g
  · exact h2 i d g
  · exact h4 i d g
theorem NoSent.foldl {α : Type} (f : World → α → World) (l : List α) (w : World) (h : ∀ v a, NoSent v (f v a)) :
    NoSent w (l.foldl f w) := by
  induction l generalizing w with
  | nil => exact .refl _
  | cons a l ih => rw [List.foldl_cons]; exact (h w a).trans (ih _)

theorem break1_ns (w : World) (con : Nat) : NoSent w (w.break1 con) := by
  unfold World.break1
  split
  · exact (SameFx.mod _ _ _).ns
  · exact ⟨[.brk con], rfl, by simp⟩
  · exact ⟨[.brk con], rfl, by simp⟩
  · split
    · exact (SameFx.mod _ _ _).ns
    · exact .refl _
  · exact .refl _

theorem reset1_ns (w : World) (env : Env) (c con : Nat) : NoSent w (w.reset1 env c con) := by
  unfold World.reset1
  dsimp only
  have fin : ∀ v : World, NoSent w v → NoSent w { v with tick := v.tick + 1 } := fun v h => h
  apply fin
  split
  · exact .refl _
  split
  · exact (notify_fx _ _ _ _).ns
  split
  · exact (notify_fx _ _ _ _).ns
  split
  · exact (notify_fx _ _ _ _).ns
  · rename_i pid _
    refine NoSent.trans (b := ({ w with running := w.running ++ [(con, pid)], fx := w.fx ++ [.resetStart con pid] } : World))
      ⟨[.resetStart con pid], rfl, by simp⟩ ?_
    exact ((SameFx.mod _ _ _).trans (notify_fx _ _ _ _)).ns

theorem toggle_ns {w w' : World} (env : Env) (c : Nat) (h : w.toggle env c = some w') : SameFx w w' := by
  unfold World.toggle at h
  split at h
  · simp only [Option.some.injEq] at h; subst h; exact .refl _
  split at h
  · simp at h
  split at h
  · simp only [Option.some.injEq] at h; subst h
    exact (SameFx.mod _ _ _).trans (unlinkObjs_fx _ _ _ _)
  · simp only [Option.some.injEq] at h; subst h
    exact (SameFx.mod _ _ _).trans (linkObjs_fx _ _ _ _)

theorem act_ns {w w' : World} (env : Env) (c : Nat) (a : UInt8) (ht : w.act env c a = some w') : NoSent w w' := by
  unfold World.act at ht
  split at ht
  · simp only [Option.some.injEq] at ht; subst ht; exact .foldl _ _ _ break1_ns
  split at ht
  · simp only [Option.some.injEq] at ht; subst ht; exact .foldl _ _ _ (fun v a => (SameFx.mod _ _ _).ns)
  split at ht
  · exact ((SameFx.mod _ _ _).trans (toggle_ns env c ht)).ns
  split at ht
  · exact ((SameFx.mod _ _ _).trans (toggle_ns env c ht)).ns
  split at ht
  · split at ht
    · simp only [Option.some.injEq] at ht; subst ht; exact .refl _
    · simp only [Option.some.injEq] at ht; subst ht; exact (SameFx.mod _ _ _).ns
  split at ht
  · exact ((SameFx.mod _ _ _).trans (toggle_ns env c ht)).ns
  split at ht
  · simp only [Option.some.injEq] at ht; subst ht; exact (SameFx.mod _ _ _).ns
  split at ht
  · simp only [Option.some.injEq] at ht; subst ht; exact .foldl _ _ _ (fun v a => reset1_ns v env c a)
  split at ht
  · simp only [Option.some.injEq] at ht; subst ht; exact (SameFx.mod _ _ _).ns
  · simp only [Option.some.injEq] at ht; subst ht; exact .refl _

theorem acts_ns (env : Env) (c : Nat) (as : List UInt8) : ∀ {w w' : World}, w.acts env c as = some w' → NoSent w w' := by
  induction as with
  | nil => intro w w' h; simp only [World.acts, Option.some.injEq] at h; subst h; exact .refl _
  | cons a as ih =>
    intro w w' h
    simp only [World.acts, Option.bind_eq_some_iff] at h
    obtain ⟨w1, h1, h2⟩ := h
    exact (act_ns env c a h1).trans (ih h2)

theorem read_ns {w w' : World} (env : Env) (up : Bool) (i : Nat) (r : ReadRes) (ht : w.read env up i r = some w') :
    NoSent w w' := by
  unfold World.read at ht
  split at ht
  · simp only [Option.some.injEq] at ht; subst ht; exact .refl _
  split at ht
  · simp only [Option.some.injEq] at ht; subst ht; exact .refl _
  split at ht
  · simp only [Option.some.injEq] at ht; subst ht; exact .refl _
  · simp only [Option.some.injEq] at ht; subst ht; exact (shutdown_sameFx _ _ _ _).ns
  · simp only [Option.some.injEq] at ht; subst ht
    split
    · exact ((SameFx.mod _ _ _).trans (shutdown_sameFx _ _ _ _)).ns
    · exact (SameFx.mod _ _ _).ns
  · dsimp only at ht
    split at ht
    · simp only [Option.map_eq_some_iff] at ht
      obtain ⟨w1, h1, rfl⟩ := ht
      exact (acts_ns env i _ h1).trans ((SameFx.mod _ _ _).trans (deliver_fx _ _ _ _)).ns
    · simp only [Option.map_eq_some_iff] at ht
      obtain ⟨t, h1, rfl⟩ := ht
      exact ((SameFx.mod _ _ _).trans (deliver_fx _ _ _ _)).ns
    · simp only [Option.some.injEq] at ht; subst ht; exact (deliver_fx _ _ _ _).ns

theorem flush_sent (w : World) (env : Env) (up : Bool) (i : Nat) (r : WriteRes) :
    ∃ l, (w.flush env up i r).fx = w.fx ++ l ∧ ∀ e ∈ l, ∃ d, e = Fx.sent i d := by
  unfold World.flush
  dsimp only
  split
  · exact ⟨[], by simp, by simp⟩
  split
  · exact ⟨[], by simp, by simp⟩
  have e : ((w.push i (r.count (w.obj i).pend.length)).drained i).fx = (w.push i (r.count (w.obj i).pend.length)).fx := by
    unfold World.drained
    split <;> rfl
  have e0 : ∃ l, (w.push i (r.count (w.obj i).pend.length)).fx = w.fx ++ l ∧ ∀ e ∈ l, ∃ d, e = Fx.sent i d := by
    by_cases hn : r.count (w.obj i).pend.length = 0
    · exact ⟨[], by simp [World.push, World.mod, hn], by simp⟩
    · exact ⟨[.sent i ((w.obj i).pend.take (r.count (w.obj i).pend.length))], by simp [World.push, World.mod, hn], by simp⟩
  split
  · rw [(shutdown_sameFx _ _ _ _).1, e]; exact e0
  · rw [e]; exact e0

/-- Bytes leave only by a poll of the object, which must be polled for writing. -/
theorem step_sent {w w' : World} (env : Env) (s : Step) (hs : w.step env s = some w') :
    ∃ l, w'.fx = w.fx ++ l ∧ ∀ i d, Fx.sent i d ∈ l → (w.obj i).pout = true ∧ ∃ up rd wr, s = .poll i up rd (some wr) := by
  have same : SameFx w w' → ∃ l, w'.fx = w.fx ++ l ∧ ∀ i d, Fx.sent i d ∈ l → (w.obj i).pout = true ∧ ∃ up rd wr, s = .poll i up rd (some wr) := by
    intro h; exact ⟨[], by simp [h.1], by simp⟩
  cases s with
  | check q =>
    simp only [World.step, Option.some.injEq] at hs; subst hs
    apply same; split <;> exact ⟨rfl, rfl⟩
  | grant c k =>
    simp only [World.step, Option.some.injEq] at hs; subst hs
    apply same
    split
    · split
      · exact .refl _
      · exact SameFx.trans (b := { w with wait := w.wait.eraseIdx k }) ⟨rfl, rfl⟩ (grant_fx _ _ _ _)
    · exact .refl _
  | poll i up rd wr =>
    simp only [World.step] at hs
    split at hs
    · simp only [Option.some.injEq] at hs; subst hs; exact same (.refl _)
    simp only [Option.map_eq_some_iff] at hs
    obtain ⟨w1, h1, h2⟩ := hs
    have n1 : NoSent w w1 := by
      cases rd with
      | none => simp only [Option.some.injEq] at h1; subst h1; exact .refl _
      | some r => exact read_ns env up i r h1
    obtain ⟨l, l1, l2⟩ := n1
    have triv : w' = w1 → ∃ l, w'.fx = w.fx ++ l ∧ ∀ j d, Fx.sent j d ∈ l → (w.obj j).pout = true ∧
        ∃ up' rd' wr', Step.poll i up rd wr = .poll j up' rd' (some wr') := by
      rintro rfl; exact ⟨l, l1, fun j d hm => absurd hm (l2 j d)⟩
    split at h2
    · exact triv h2.symm
    split at h2
    · exact triv h2.symm
    · rename_i r hw
      subst h2
      have hp : (w.obj i).pout = true ∧ wr = some r := by
        by_cases hp : (w.obj i).pout = true
        · rw [if_pos hp] at hw; exact ⟨hp, hw⟩
        · rw [if_neg hp] at hw; simp at hw
      obtain ⟨m, m1, m2⟩ := flush_sent w1 env up i r
      refine ⟨l ++ m, by rw [m1, l1, List.append_assoc], fun j d hm => ?_⟩
      rcases List.mem_append.1 hm with g | g
      · exact absurd g (l2 j d)
      · obtain ⟨d', e⟩ := m2 _ g
        simp only [Fx.sent.injEq] at e
        rw [e.1]
        exact ⟨hp.1, up, rd, r, by rw [hp.2]⟩
  | connUp i =>
    simp only [World.step, Option.some.injEq] at hs; subst hs
    apply same; split
    · exact connUp_fx _ _ _
    · exact .refl _
  | connPend i =>
    simp only [World.step, Option.some.injEq] at hs; subst hs
    apply same; split
    · exact .mod _ _ _
    · exact .refl _
  | connDown i =>
    simp only [World.step, Option.some.injEq] at hs; subst hs
    apply same; split
    · exact .mod _ _ _
    · exact .refl _
  | connFail i =>
    simp only [World.step, Option.some.injEq] at hs; subst hs
    apply same; split
    · exact notify_fx _ _ _ _
    · exact .refl _
  | resetTimeout con =>
    simp only [World.step, Option.some.injEq] at hs; subst hs
    split
    · split
      · exact ⟨[], by simp, by simp⟩
      · rename_i p _
        split
        · exact ⟨[.kill con p], rfl, by simp⟩
        · exact ⟨[], by simp, by simp⟩
    · exact ⟨[], by simp, by simp⟩
  | childExit con pid =>
    simp only [World.step, Option.some.injEq] at hs; subst hs
    exact ⟨[], by simp, by simp⟩
  | logOpen i ok =>
    simp only [World.step, Option.some.injEq] at hs; subst hs
    apply same; split
    · exact .mod _ _ _
    · exact .refl _
  | logStamp i =>
    simp only [World.step, Option.some.injEq] at hs; subst hs
    apply same; split
    · exact note_fx _ _ _ _
    · exact .refl _

/-! ### Reads and the object itself -/

theorem LInv.not_self {w : World} (h : LInv w) (i : Nat) : i ∉ (w.obj i).readers := by
  intro hm
  rcases h.kinds i i hm with ⟨h1, h2⟩ | ⟨h1, h2⟩
  · exact not_client_of_console h2 h1
  · rw [h1] at h2; simp at h2

/-- What a read does to its object unless it closes it. -/
theorem read_self {w w' : World} (h : WInv w) (env : Env) (up : Bool) (i : Nat) (r : ReadRes)
    (ht : w.read env up i r = some w') :
    ((w'.obj i).gen = (w.obj i).gen ∧ ((w.obj i).eof = true → (w'.obj i).pend = (w.obj i).pend ∧ (w'.obj i).eof = true)) ∨
    (r = .err ∨ (w.obj i).kind = .logfile ∨ (r = .eof ∧ (w.obj i).pend = [])) := by
  unfold World.read at ht
  split at ht
  · simp only [Option.some.injEq] at ht; subst ht; exact Or.inl ⟨rfl, fun h => ⟨rfl, h⟩⟩
  split at ht
  · simp only [Option.some.injEq] at ht; subst ht; exact Or.inl ⟨rfl, fun h => ⟨rfl, h⟩⟩
  by_cases hlog : (w.obj i).kind = .logfile
  · exact Or.inr (Or.inr (Or.inl hlog))
  rw [if_neg hlog] at ht
  cases r with
  | again => simp only [Option.some.injEq] at ht; subst ht; exact Or.inl ⟨rfl, fun h => ⟨rfl, h⟩⟩
  | err => exact Or.inr (Or.inl rfl)
  | eof =>
    simp only [Option.some.injEq] at ht
    subst ht
    rw [World.mod_self]
    dsimp only
    split
    · rename_i hp; exact Or.inr (Or.inr (Or.inr ⟨rfl, hp⟩))
    · left; rw [World.mod_self]; exact ⟨rfl, fun _ => ⟨rfl, rfl⟩⟩
  | data d0 =>
    left
    dsimp only at ht
    split at ht
    · rename_i hk
      simp only [Option.map_eq_some_iff] at ht
      obtain ⟨w1, h1, rfl⟩ := ht
      rw [cmdsOf_eq] at h1
      have hi := acts_inv env i none (by simp) _ h hk h1
      have e1 := acts_cown env i _ h hk h1
      rw [deliver_other env i _ (by
        rw [World.mod_self]; exact hi.1.l.not_self i), World.mod_self]
      exact ⟨e1.gen, fun he => ⟨e1.pend_at_eof rfl he, e1.eofStays he⟩⟩
    · simp only [Option.map_eq_some_iff] at ht
      obtain ⟨t, h1, rfl⟩ := ht
      have hm : i ∉ ((w.mod i (fun o => ({ o with iac := t.iac }).write t.sent false)).obj i).readers := by
        rw [World.mod_self]; simpa using h.l.not_self i
      rw [deliver_other env i _ hm, World.mod_self]
      refine ⟨(SameFlags.write _ _ _).gen, fun he => ?_⟩
      rw [Obj.write_of_eof _ _ _ (by exact he)]
      exact ⟨rfl, he⟩
    · simp only [Option.some.injEq] at ht; subst ht
      rw [deliver_other env i _ (h.l.not_self i)]
      exact ⟨rfl, fun he => ⟨rfl, he⟩⟩

theorem drained_obj (w : World) (i : Nat) :
    ((w.drained i).obj i).pend = (w.obj i).pend ∧ ((w.drained i).obj i).eof = (w.obj i).eof ∧
    ((w.drained i).obj i).gen = (w.obj i).gen ∧ ((w.drained i).obj i).fd = (w.obj i).fd := by
  unfold World.drained
  split
  · rw [World.mod_self]; exact ⟨rfl, rfl, rfl, rfl⟩
  · exact ⟨rfl, rfl, rfl, rfl⟩

theorem Passive.console_eof {o o' : Obj} (h : Passive env o o') : o.kind.isConsole = true → o'.eof = o.eof ∧ o'.kind.isConsole = true := by
  induction h with
  | refl => exact fun h => ⟨rfl, h⟩
  | trans _ _ h1 h2 => exact fun h => ⟨by rw [(h2 (h1 h).2).1, (h1 h).1], (h2 (h1 h).2).2⟩
  | info o _ _ hk => intro h; rw [h] at hk; simp at hk
  | links => exact fun h => ⟨rfl, h⟩
  | orphan o hk => intro h; rw [hk] at h; simp [OKind.isConsole] at h

/-- The first effect of `shutdown`: the object is closed. -/
theorem shutdown_gen {w : World} (h : WInv w) (env : Env) (up : Bool) (i : Nat) (hf : (w.obj i).fd = true) :
    ((w.shutdown env up i).obj i).gen = (w.obj i).gen + 1 ∧ ((w.shutdown env up i).obj i).pend = [] ∧
      ((w.shutdown env up i).obj i).eof = false ∨
    (w.obj i).kind = .client ∧ i ∉ (w.shutdown env up i).live ∧ ((w.shutdown env up i).obj i).gen = (w.obj i).gen + 1 := by
  by_cases hk : (w.obj i).kind = .client
  · right
    refine ⟨hk, shutdown_client env up i hf hk, ?_⟩
    unfold World.shutdown
    rw [if_neg (by simp [hf])]
    dsimp only
    have hsl : SL w (w.mod i (fun o =>
        { o with fd := false, pin := false, pout := false, pend := [], eof := false, gen := o.gen + 1, hist := o.hist ++ [none] })) := by
      refine ⟨fun j => ?_, rfl⟩
      rw [World.mod_obj]; split <;> exact ⟨rfl, rfl, rfl⟩
    rw [World.mod_self]
    dsimp only
    rw [hk]
    dsimp only
    have := ((unlinkObj_spec (h.l.same hsl) env i).pstep.touched i).same.gen
    rw [this, World.mod_self]
  · left
    unfold World.shutdown
    rw [if_neg (by simp [hf])]
    dsimp only
    have hsl : SL w (w.mod i (fun o =>
        { o with fd := false, pin := false, pout := false, pend := [], eof := false, gen := o.gen + 1, hist := o.hist ++ [none] })) := by
      refine ⟨fun j => ?_, rfl⟩
      rw [World.mod_obj]; split <;> exact ⟨rfl, rfl, rfl⟩
    have hg : ((w.mod i (fun o =>
        { o with fd := false, pin := false, pout := false, pend := [], eof := false, gen := o.gen + 1, hist := o.hist ++ [none] })).obj i).gen = (w.obj i).gen + 1 ∧
        ((w.mod i (fun o =>
        { o with fd := false, pin := false, pout := false, pend := [], eof := false, gen := o.gen + 1, hist := o.hist ++ [none] })).obj i).pend = [] ∧
        ((w.mod i (fun o =>
        { o with fd := false, pin := false, pout := false, pend := [], eof := false, gen := o.gen + 1, hist := o.hist ++ [none] })).obj i).eof = false := by
      rw [World.mod_self]; exact ⟨rfl, rfl, rfl⟩
    have hkk : ((w.mod i (fun o =>
        { o with fd := false, pin := false, pout := false, pend := [], eof := false, gen := o.gen + 1, hist := o.hist ++ [none] })).obj i).kind = (w.obj i).kind := by
      rw [World.mod_self]
    generalize (w.mod i (fun o =>
        { o with fd := false, pin := false, pout := false, pend := [], eof := false, gen := o.gen + 1, hist := o.hist ++ [none] })) = w1 at hsl hg hkk ⊢
    have hl1 := h.l.same hsl
    have notif : ∀ (f : Obj → Obj) (n : Note), (∀ o : Obj, (f o).kind = o.kind ∧ (f o).readers = o.readers ∧ (f o).writers = o.writers ∧
        (f o).gen = o.gen ∧ (f o).pend = o.pend ∧ (f o).eof = o.eof) → (w1.obj i).kind.isConsole = true →
        (((w1.mod i f).notify env i n).obj i).gen = (w.obj i).gen + 1 ∧ (((w1.mod i f).notify env i n).obj i).pend = [] ∧
        (((w1.mod i f).notify env i n).obj i).eof = false := by
      intro f n hq hc
      have hs2 : SL w1 (w1.mod i f) := by
        refine ⟨fun j => ?_, rfl⟩
        rw [World.mod_obj]; split
        · rename_i e; subst e; exact ⟨(hq _).1, (hq _).2.1, (hq _).2.2.1⟩
        · exact ⟨rfl, rfl, rfl⟩
      have p := (notify_step (hl1.same hs2) env i n (by rw [(hs2.1 i).1]; exact hc)).pstep.touched i
      refine ⟨?_, ?_, ?_⟩
      · rw [p.same.gen, World.mod_self, (hq _).2.2.2.1, hg.1]
      · rw [(p.console_pend (by rw [(hs2.1 i).1]; exact hc)).1, World.mod_self, (hq _).2.2.2.2.1, hg.2.1]
      · rw [(p.console_eof (by rw [(hs2.1 i).1]; exact hc)).1, World.mod_self, (hq _).2.2.2.2.2, hg.2.2]
    cases hk1 : (w1.obj i).kind
    case client => rw [hkk] at hk1; exact absurd hk1 hk
    case logfile => exact hg
    case serial =>
      dsimp only
      split
      · exact notif _ _ (fun o => ⟨rfl, rfl, rfl, rfl, rfl, rfl⟩) (by rw [hk1]; rfl)
      · rw [World.mod_self]; exact hg
    case test => dsimp only; rw [World.mod_self]; exact hg
    all_goals exact notif _ _ (fun o => ⟨rfl, rfl, rfl, rfl, rfl, rfl⟩) (by rw [hk1]; rfl)

end Conman
