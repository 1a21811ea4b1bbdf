import Verif.Lemma.WorldEof

/-
Reset commands: which steps touch their bookkeeping.
-/
namespace Conman
open Spec

/-- No change of the bookkeeping of reset commands. -/
def RK (w w' : World) : Prop :=
  w'.running = w.running ∧ ∀ j, (w'.obj j).resetPid = (w.obj j).resetPid ∧ (w'.obj j).resetTimer = (w.obj j).resetTimer
theorem RK.refl (w : World) : RK w w := ⟨rfl, fun _ => ⟨rfl, rfl⟩⟩
theorem RK.trans {a b c : World} (h : RK a b) (h' : RK b c) : RK a c :=
  ⟨by rw [h'.1, h.1], fun j => ⟨by rw [(h'.2 j).1, (h.2 j).1], by rw [(h'.2 j).2, (h.2 j).2]⟩⟩
theorem RK.post {a b c : World} (h' : RK b c) (h : RK a b) : RK a c := h.trans h'
theorem RK.mod (w : World) (i : Nat) (f : Obj → Obj)
    (hf : ∀ o, (f o).resetPid = o.resetPid ∧ (f o).resetTimer = o.resetTimer) : RK w (w.mod i f) :=
  ⟨rfl, fun j => by rw [World.mod_obj]; split; exact hf _; exact ⟨rfl, rfl⟩⟩
theorem RK.foldl {α : Type} (f : World → α → World) (l : List α) (w : World) (h : ∀ v a, RK v (f v a)) :
    RK w (l.foldl f w) := by
  induction l generalizing w with
  | nil => exact .refl _
  | cons a l ih => rw [List.foldl_cons]; exact (h w a).trans (ih _)

theorem write_rk (o : Obj) (d : List UInt8) (b : Bool) :
    (o.write d b).resetPid = o.resetPid ∧ (o.write d b).resetTimer = o.resetTimer := by
  rcases o.write_cases d b with e | ⟨_, e⟩ <;> rw [e] <;> exact ⟨rfl, rfl⟩

theorem writes_rk (l : List (List UInt8)) : ∀ o : Obj,
    (l.foldl (fun o b => o.write b false) o).resetPid = o.resetPid ∧
    (l.foldl (fun o b => o.write b false) o).resetTimer = o.resetTimer := by
  induction l with
  | nil => intro o; exact ⟨rfl, rfl⟩
  | cons a l ih =>
    intro o
    rw [List.foldl_cons, (ih _).1, (ih _).2]
    exact write_rk o a false

theorem note_rk (w : World) (env : Env) (n : Note) (i : Nat) : RK w (w.note env n i) := .mod _ _ _ (fun o => write_rk o _ _)
theorem notify_rk (w : World) (env : Env) (con : Nat) (n : Note) : RK w (w.notify env con n) := by
  unfold World.notify
  exact (RK.foldl _ _ _ (fun v a => note_rk v env n a)).trans (RK.foldl _ _ _ (fun v a => note_rk v env n a))

theorem unlinkObjs_rk (w : World) (env : Env) (src dst : Nat) : RK w (w.unlinkObjs env src dst) := by
  unfold World.unlinkObjs
  dsimp only
  have h1 : RK w (w.cut src dst) := RK.post (.mod _ _ _ (fun _ => ⟨rfl, rfl⟩)) (.mod _ _ _ (fun _ => ⟨rfl, rfl⟩))
  have h2 : RK w (if List.count src (w.obj dst).writers > 0 ∧ ((w.cut src dst).obj src).kind = .client ∧
      ((w.cut src dst).obj dst).kind.isConsole = true then (w.cut src dst).notify env dst (.departed src dst) else w.cut src dst) := by
    split
    · exact h1.trans (notify_rk _ _ _ _)
    · exact h1
  generalize (if List.count src (w.obj dst).writers > 0 ∧ ((w.cut src dst).obj src).kind = .client ∧
      ((w.cut src dst).obj dst).kind.isConsole = true then (w.cut src dst).notify env dst (.departed src dst) else w.cut src dst) = v at h2 ⊢
  split
  · exact h2.trans (.mod _ _ _ (fun _ => ⟨rfl, rfl⟩))
  split
  · exact h2.trans (.mod _ _ _ (fun _ => ⟨rfl, rfl⟩))
  · exact h2

theorem unlinkWriters_rk (env : Env) (i n : Nat) : ∀ w : World, RK w (w.unlinkWriters env i n) := by
  induction n with
  | zero => intro w; exact .refl _
  | succ n ih =>
    intro w; unfold World.unlinkWriters
    split
    · exact .refl _
    · exact (unlinkObjs_rk _ _ _ _).trans (ih _)
theorem unlinkReaders_rk (env : Env) (i n : Nat) : ∀ w : World, RK w (w.unlinkReaders env i n) := by
  induction n with
  | zero => intro w; exact .refl _
  | succ n ih =>
    intro w; unfold World.unlinkReaders
    split
    · exact .refl _
    · exact (unlinkObjs_rk _ _ _ _).trans (ih _)
theorem unlinkObj_rk (w : World) (env : Env) (i : Nat) : RK w (w.unlinkObj env i) :=
  (unlinkWriters_rk env i _ w).trans (unlinkReaders_rk env i _ _)

theorem linkObjs_rk (w : World) (env : Env) (src dst : Nat) : RK w (w.linkObjs env src dst) := by
  unfold World.linkObjs
  dsimp only
  have : ∀ v : World, RK w v → RK w ((v.mod src (fun o => { o with readers := o.readers ++ [dst] })).mod dst
      (fun o => { o with writers := o.writers ++ [src] })) :=
    fun v hv => hv.trans (RK.post (.mod _ _ _ (fun _ => ⟨rfl, rfl⟩)) (.mod _ _ _ (fun _ => ⟨rfl, rfl⟩)))
  apply this
  split
  · split
    · exact ((notify_rk w env _ _).trans (RK.foldl (fun w x => w.note env (.stolenFrom x dst) src) _ _
        (fun v a => note_rk v env _ src))).trans (RK.foldl (fun w x => w.unlinkObj env x) _ _ (fun v a => unlinkObj_rk v env a))
    · exact (notify_rk w env _ _).trans (RK.foldl (fun w x => w.note env (.joinedWith x dst) src) _ _
        (fun v a => note_rk v env _ src))
  · exact .refl _

theorem shutdown_rk (w : World) (env : Env) (up : Bool) (i : Nat) : RK w (w.shutdown env up i) := by
  unfold World.shutdown
  split
  · exact .refl _
  dsimp only
  have h1 : RK w (w.mod i (fun o =>
      { o with fd := false, pin := false, pout := false, pend := [], eof := false, gen := o.gen + 1, hist := o.hist ++ [none] })) :=
    .mod _ _ _ (fun _ => ⟨rfl, rfl⟩)
  generalize (w.mod i (fun o =>
      { o with fd := false, pin := false, pout := false, pend := [], eof := false, gen := o.gen + 1, hist := o.hist ++ [none] })) = v at h1 ⊢
  split
  · have := unlinkObj_rk v env i
    exact h1.trans ⟨this.1, this.2⟩
  · exact h1
  · split
    · exact h1.trans (RK.post (notify_rk _ _ _ _) (.mod _ _ _ (fun _ => ⟨rfl, rfl⟩)))
    · exact h1.trans (.mod _ _ _ (fun _ => ⟨rfl, rfl⟩))
  · exact h1.trans (.mod _ _ _ (fun _ => ⟨rfl, rfl⟩))
  · exact h1.trans (RK.post (notify_rk _ _ _ _) (.mod _ _ _ (fun _ => ⟨rfl, rfl⟩)))

theorem checkState_rk (w : World) (env : Env) (c con : Nat) : RK w (w.checkState env c con) := by
  unfold World.checkState; split
  · exact .refl _
  · exact note_rk _ _ _ _

theorem grant_rk (w : World) (env : Env) (c : Nat) (q : Req) : RK (w.newClient c q) (w.grant env c q) := by
  unfold World.grant
  dsimp only
  split
  · exact (linkObjs_rk _ _ _ _).trans (checkState_rk _ _ _ _)
  · exact (linkObjs_rk _ _ _ _).trans ((linkObjs_rk _ _ _ _).trans (checkState_rk _ _ _ _))
  · exact RK.foldl _ _ _ (fun v a => (linkObjs_rk _ _ _ _).trans (checkState_rk _ _ _ _))
  · exact .refl _

theorem connUp_rk (w : World) (env : Env) (i : Nat) : RK w (w.connUp env i) := by
  unfold World.connUp
  dsimp only
  split
  · exact .refl _
  split
  · exact .refl _
  have h1 : RK w (w.mod i (fun o => { o with fd := true, pin := true, conn := .up, eof := false })) := .mod _ _ _ (fun _ => ⟨rfl, rfl⟩)
  generalize (w.mod i (fun o => { o with fd := true, pin := true, conn := .up, eof := false })) = v at h1 ⊢
  have h2 : RK w (if (w.obj i).kind = .test then v else v.notify env i (.connected i)) := by
    split
    · exact h1
    · exact h1.trans (notify_rk _ _ _ _)
  split
  · exact h2.trans (.mod _ _ _ (fun o => write_rk o _ _))
  · exact h2

theorem deliver_rk (w : World) (env : Env) (src : Nat) (d : List UInt8) : RK w (w.deliver env src d) := by
  unfold World.deliver
  split
  · exact .refl _
  · refine RK.foldl _ _ _ (fun v a => .mod _ _ _ (fun o => ?_))
    split
    · unfold Obj.writeLog; exact writes_rk _ _
    · exact write_rk _ _ _

theorem push_rk (w : World) (i n : Nat) : RK w (w.push i n) := by
  refine ⟨rfl, fun j => ?_⟩
  unfold World.push
  rw [World.mod_obj]
  split <;> exact ⟨rfl, rfl⟩

theorem flush_rk (w : World) (env : Env) (up : Bool) (i : Nat) (r : WriteRes) : RK w (w.flush env up i r) := by
  unfold World.flush
  dsimp only
  split
  · exact .refl _
  split
  · exact .refl _
  have h1 : RK w ((w.push i (r.count (w.obj i).pend.length)).drained i) := by
    have a := push_rk w i (r.count (w.obj i).pend.length)
    refine a.trans ?_
    unfold World.drained
    split
    · exact .mod _ _ _ (fun _ => ⟨rfl, rfl⟩)
    · exact .refl _
  split
  · exact h1.trans (shutdown_rk _ _ _ _)
  · exact h1

theorem break1_rk (w : World) (con : Nat) : RK w (w.break1 con) := by
  unfold World.break1
  split
  · exact .mod _ _ _ (fun o => write_rk o _ _)
  · exact ⟨rfl, fun _ => ⟨rfl, rfl⟩⟩
  · exact ⟨rfl, fun _ => ⟨rfl, rfl⟩⟩
  · split
    · exact .mod _ _ _ (fun o => write_rk o _ _)
    · exact .refl _
  · exact .refl _

theorem toggle_rk {w w' : World} (env : Env) (c : Nat) (h : w.toggle env c = some w') : RK w w' := by
  unfold World.toggle at h
  split at h
  · simp only [Option.some.injEq] at h; subst h; exact .refl _
  split at h
  · simp at h
  split at h
  · simp only [Option.some.injEq] at h; subst h
    exact RK.post (unlinkObjs_rk _ _ _ _) (.mod _ _ _ (fun _ => ⟨rfl, rfl⟩))
  · simp only [Option.some.injEq] at h; subst h
    exact RK.post (linkObjs_rk _ _ _ _) (.mod _ _ _ (fun _ => ⟨rfl, rfl⟩))

/-! ### The invariant -/

/-- Every running reset command is the one noted in its console, and its timer is set. -/
structure RInv (w : World) : Prop where
  pid : ∀ con p, (con, p) ∈ w.running → (w.obj con).resetPid = some p ∧ (w.obj con).resetTimer = true
  nodup : w.running.Nodup
  live : ∀ con p, (con, p) ∈ w.running → con ∈ w.live ∧ (w.obj con).kind.isConsole = true

theorem RInv.rk {w w' : World} (h : RInv w) (k : RK w w')
    (hl : ∀ j, j ∈ w.live → (w.obj j).kind.isConsole = true → j ∈ w'.live ∧ (w'.obj j).kind = (w.obj j).kind) : RInv w' := by
  refine ⟨fun con p hm => ?_, by rw [k.1]; exact h.nodup, fun con p hm => ?_⟩
  · rw [k.1] at hm; rw [(k.2 con).1, (k.2 con).2]; exact h.pid con p hm
  · rw [k.1] at hm
    have := h.live con p hm
    have g := hl con this.1 this.2
    exact ⟨g.1, by rw [g.2]; exact this.2⟩

theorem reset1_r {w : World} (h : RInv w) (hl : LInv w) (env : Env) (c con : Nat) (hc : con ∈ w.live ∧ (w.obj con).kind.isConsole = true) :
    RInv (w.reset1 env c con) := by
  have fin : ∀ v : World, RInv v → RInv { v with tick := v.tick + 1 } := fun v h => ⟨h.1, h.2, h.3⟩
  unfold World.reset1
  dsimp only
  apply fin
  have nt : ∀ (v : World) n, RInv v → LInv v → (v.obj con).kind.isConsole = true → RInv (v.notify env con n) := by
    intro v n hv hlv hk
    have s := (notify_step hlv env con n hk).pstep
    exact hv.rk (notify_rk _ _ _ _) (fun j hj _ => ⟨by rw [s.live]; exact hj, s.kind j⟩)
  split
  · exact h
  split
  · exact nt _ _ h hl hc.2
  rename_i hp
  have hp : (w.obj con).resetPid = none := by
    cases hh : (w.obj con).resetPid with
    | none => rfl
    | some p => rw [hh] at hp; simp at hp
  split
  · exact nt _ _ h hl hc.2
  split
  · exact nt _ _ h hl hc.2
  · rename_i pid _
    apply nt
    · refine ⟨fun con' p hm => ?_, ?_, fun con' p hm => ?_⟩
      · replace hm : (con', p) ∈ w.running ++ [(con, pid)] := hm
        rw [World.mod_obj]
        split
        · rename_i e; subst e
          rcases List.mem_append.1 hm with g | g
          · have := (h.pid _ _ g).1
            rw [hp] at this; simp at this
          · simp only [List.mem_singleton, Prod.mk.injEq, true_and] at g; subst g; exact ⟨rfl, rfl⟩
        · rename_i e
          rcases List.mem_append.1 hm with g | g
          · exact h.pid _ _ g
          · simp only [List.mem_singleton, Prod.mk.injEq] at g; exact absurd g.1 e
      · show (w.running ++ [(con, pid)]).Nodup
        rw [List.nodup_append]
        refine ⟨h.nodup, by simp, ?_⟩
        intro a ha b hb e
        simp only [List.mem_singleton] at hb
        subst hb; subst e
        have := (h.pid _ _ ha).1
        rw [hp] at this; simp at this
      · replace hm : (con', p) ∈ w.running ++ [(con, pid)] := hm
        have : con' ∈ w.live ∧ (w.obj con').kind.isConsole = true := by
          rcases List.mem_append.1 hm with g | g
          · exact h.live _ _ g
          · simp only [List.mem_singleton, Prod.mk.injEq] at g; rw [g.1]; exact hc
        refine ⟨this.1, ?_⟩
        rw [World.mod_obj]; split
        · exact this.2
        · exact this.2
    · have h1 : LStep w (({ w with running := w.running ++ [(con, pid)], fx := w.fx ++ [.resetStart con pid] } : World).mod con
            (fun o => { o with resetPid := some pid, resetTimer := true })) := by
        refine LStep.trans (b := ({ w with running := w.running ++ [(con, pid)], fx := w.fx ++ [.resetStart con pid] } : World))
          ⟨fun _ => .refl _, rfl, rfl⟩ ?_
        apply LStep.mod
        exact ⟨rfl, rfl, rfl, rfl, rfl, rfl, rfl, fun h => ⟨h.cap, h.susp, h.closed⟩⟩
      exact hl.same h1.sl
    · rw [World.mod_self]; exact hc.2

theorem resets_r (env : Env) (c : Nat) (l : List Nat) : ∀ {w : World}, RInv w → LInv w →
    (∀ con ∈ l, con ∈ w.live ∧ (w.obj con).kind.isConsole = true) → RInv (l.foldl (fun w con => w.reset1 env c con) w) := by
  induction l with
  | nil => intro w h _ _; exact h
  | cons a l ih =>
    intro w h hl hc
    rw [List.foldl_cons]
    have s := reset1_lstep hl env c a (hc a (by simp)).2
    refine ih (reset1_r h hl env c a (hc a (by simp))) (hl.same s.sl) (fun con hm => ?_)
    have := hc con (by simp [hm])
    exact ⟨by rw [s.sl.2]; exact this.1, by rw [(s.loc con).kind]; exact this.2⟩

theorem act_r {w w' : World} (h : WInv w) (hr : RInv w) (env : Env) (c : Nat)
    (hk : (w.obj c).kind = .client) (a : UInt8) (ht : w.act env c a = some w') : RInv w' := by
  obtain ⟨i1, i2⟩ := act_inv h env c (by simp) hk a ht
  have keep : RK w w' → RInv w' := fun k => hr.rk k (fun j hj _ => ⟨by rw [i2.live]; exact hj, i2.kind j⟩)
  have htog : ∀ f j, (w.mod c (fun o => { o with force := f, join := j })).toggle env c = some w' → RInv w' := by
    intro f j hh
    exact keep (RK.post (toggle_rk env c hh) (.mod _ _ _ (fun _ => ⟨rfl, rfl⟩)))
  unfold World.act at ht
  split at ht
  · simp only [Option.some.injEq] at ht; subst ht; exact keep (RK.foldl _ _ _ (fun v a => break1_rk v a))
  split at ht
  · simp only [Option.some.injEq] at ht; subst ht; exact keep (RK.foldl _ _ _ (fun v a => .mod _ _ _ (fun o => write_rk o _ _)))
  split at ht
  · exact htog _ _ ht
  split at ht
  · exact htog _ _ ht
  split at ht
  · split at ht
    · simp only [Option.some.injEq] at ht; subst ht; exact hr
    · simp only [Option.some.injEq] at ht; subst ht; exact keep (.mod _ _ _ (fun o => write_rk o _ _))
  split at ht
  · exact htog _ _ ht
  split at ht
  · simp only [Option.some.injEq] at ht; subst ht
    exact keep (.mod _ _ _ (fun o => write_rk _ _ _))
  split at ht
  · simp only [Option.some.injEq] at ht; subst ht
    exact resets_r env c _ hr h.l (fun con hm => ⟨(h.l.live c con hm).2, h.l.client_readers hk hm⟩)
  split at ht
  · simp only [Option.some.injEq] at ht; subst ht; exact keep (.mod _ _ _ (fun _ => ⟨rfl, rfl⟩))
  · simp only [Option.some.injEq] at ht; subst ht; exact hr

theorem acts_r (env : Env) (c : Nat) (as : List UInt8) :
    ∀ {w w' : World}, WInv w → RInv w → (w.obj c).kind = .client → w.acts env c as = some w' → RInv w' := by
  induction as with
  | nil => intro w w' h hr hk ht; simp only [World.acts, Option.some.injEq] at ht; subst ht; exact hr
  | cons a as ih =>
    intro w w' h hr hk ht
    simp only [World.acts, Option.bind_eq_some_iff] at ht
    obtain ⟨w1, h1, h2⟩ := ht
    obtain ⟨h3, h4⟩ := act_inv h env c (by simp) hk a h1
    exact ih h3 (act_r h hr env c hk a h1) (by rw [h4.kind]; exact hk) h2

theorem Kq.con {w w' : World} {i : Nat} (h : Kq w w' i) (j : Nat) (hj : j ∈ w.live) (hk : (w.obj j).kind.isConsole = true) :
    j ∈ w'.live ∧ (w'.obj j).kind = (w.obj j).kind := by
  refine ⟨?_, h.kind j⟩
  rcases h.live with e | ⟨hc, e⟩
  · rw [e]; exact hj
  · rw [e, List.mem_filter]
    refine ⟨hj, ?_⟩
    rw [decide_eq_true_eq]
    rintro rfl
    exact not_client_of_console hk hc

theorem read_r {w w' : World} (h : WInv w) (hr : RInv w) (env : Env) (up : Bool) (i : Nat) (r : ReadRes)
    (ht : w.read env up i r = some w') : RInv w' := by
  have kq := (read_inv h env up i r ht).2
  have keep : RK w w' → RInv w' := fun k => hr.rk k kq.con
  unfold World.read at ht
  split at ht
  · simp only [Option.some.injEq] at ht; subst ht; exact hr
  split at ht
  · simp only [Option.some.injEq] at ht; subst ht; exact hr
  split at ht
  · simp only [Option.some.injEq] at ht; subst ht; exact hr
  · simp only [Option.some.injEq] at ht; subst ht; exact keep (shutdown_rk _ _ _ _)
  · simp only [Option.some.injEq] at ht; subst ht
    apply keep
    split
    · exact RK.post (shutdown_rk _ _ _ _) (.mod _ _ _ (fun _ => ⟨rfl, rfl⟩))
    · exact .mod _ _ _ (fun _ => ⟨rfl, rfl⟩)
  · dsimp only at ht
    split at ht
    · rename_i hk
      simp only [Option.map_eq_some_iff] at ht
      obtain ⟨w1, h1, rfl⟩ := ht
      have hi := acts_inv env i none (by simp) _ h hk h1
      refine (acts_r env i _ h hr hk h1).rk (RK.post (deliver_rk _ _ _ _) (.mod _ _ _ (fun _ => ⟨rfl, rfl⟩))) ?_
      intro j hj hkj
      rw [hi.2.live] at hj
      rw [hi.2.kind] at hkj ⊢
      exact kq.con j hj hkj
    · simp only [Option.map_eq_some_iff] at ht
      obtain ⟨t, h1, rfl⟩ := ht
      exact keep (RK.post (deliver_rk _ _ _ _) (.mod _ _ _ (fun o => write_rk _ _ _)))
    · simp only [Option.some.injEq] at ht; subst ht; exact keep (deliver_rk _ _ _ _)

theorem RInv.step {env : Env} {w w' : World} (h : DInv w) (hr : RInv w) (s : Step) (hs : w.step env s = some w') : RInv w' := by
  have sl := step_live h s hs
  have keep : RK w w' → RInv w' := fun k => hr.rk k (fun j hj hk => by
    refine ⟨?_, sl.2.2 j hj⟩
    rcases sl.2.1 j hj with g | g
    · exact g
    · exact absurd g.2 (not_client_of_console hk))
  cases s with
  | check q =>
    simp only [World.step, Option.some.injEq] at hs; subst hs
    apply keep
    split
    · exact ⟨rfl, fun _ => ⟨rfl, rfl⟩⟩
    · exact .refl _
  | grant c k =>
    simp only [World.step, Option.some.injEq] at hs
    split at hs
    · rename_i q hq
      split at hs
      · subst hs; exact hr
      · rename_i hc
        subst hs
        have g := grant_rk ({ w with wait := w.wait.eraseIdx k } : World) env c q
        have hne : ∀ con p, (con, p) ∈ w.running → con ≠ c := by
          rintro con p hm rfl; exact hc (hr.live _ _ hm).1
        refine ⟨fun con p hm => ?_, by rw [g.1]; exact hr.nodup, fun con p hm => ?_⟩
        · rw [g.1] at hm
          rw [(g.2 con).1, (g.2 con).2, newClient_obj, if_neg (hne con p hm)]
          exact hr.pid con p hm
        · rw [g.1] at hm
          have := hr.live con p hm
          refine ⟨?_, by rw [sl.2.2 con this.1]; exact this.2⟩
          rcases sl.2.1 con this.1 with g | g
          · exact g
          · exact absurd g.2 (not_client_of_console this.2)
    · subst hs; exact hr
  | poll i up rd wr =>
    simp only [World.step] at hs
    split at hs
    · simp only [Option.some.injEq] at hs; subst hs; exact hr
    simp only [Option.map_eq_some_iff] at hs
    obtain ⟨w1, h1, h2⟩ := hs
    have r1 : WInv w1 ∧ RInv w1 := by
      cases rd with
      | none => simp only [Option.some.injEq] at h1; subst h1; exact ⟨h.inv, hr⟩
      | some r => exact ⟨(read_inv h.inv env up i r h1).1, read_r h.inv hr env up i r h1⟩
    split at h2
    · subst h2; exact r1.2
    split at h2
    · subst h2; exact r1.2
    · subst h2
      exact r1.2.rk (flush_rk _ _ _ _ _) (flush_inv r1.1 env up i _).2.con
  | connUp i =>
    simp only [World.step, Option.some.injEq] at hs; subst hs
    apply keep
    split
    · exact connUp_rk _ _ _
    · exact .refl _
  | connPend i =>
    simp only [World.step, Option.some.injEq] at hs; subst hs
    apply keep
    split
    · exact .mod _ _ _ (fun _ => ⟨rfl, rfl⟩)
    · exact .refl _
  | connDown i =>
    simp only [World.step, Option.some.injEq] at hs; subst hs
    apply keep
    split
    · exact .mod _ _ _ (fun _ => ⟨rfl, rfl⟩)
    · exact .refl _
  | connFail i =>
    simp only [World.step, Option.some.injEq] at hs; subst hs
    apply keep
    split
    · exact notify_rk _ _ _ _
    · exact .refl _
  | resetTimeout con =>
    simp only [World.step, Option.some.injEq] at hs
    split at hs
    case isFalse => subst hs; exact hr
    -- the new list has no command of this console
    have other : ∀ v : World, v.live = w.live → v.obj = (w.mod con (fun o => { o with resetPid := none, resetTimer := false })).obj →
        v.running = w.running.filter (fun x => x.1 ≠ con) → RInv v := by
      intro v e1 e2 e3
      refine ⟨fun c' p hm => ?_, by rw [e3]; exact hr.nodup.filter _, fun c' p hm => ?_⟩
      · rw [e3, List.mem_filter] at hm
        have hne : c' ≠ con := by simpa using hm.2
        rw [e2, World.mod_ne _ _ hne]; exact hr.pid c' p hm.1
      · rw [e3, List.mem_filter] at hm
        have hne : c' ≠ con := by simpa using hm.2
        rw [e1, e2, World.mod_ne _ _ hne]; exact hr.live c' p hm.1
    have none0 : ∀ q, (∀ p, (con, p) ∈ w.running → q = some p) → q = none → w.running = w.running.filter (fun x => x.1 ≠ con) := by
      intro q hq hn
      symm
      rw [List.filter_eq_self]
      rintro ⟨c', p⟩ hm
      rw [decide_eq_true_eq]
      rintro rfl
      have := hq p hm
      rw [hn] at this; simp at this
    split at hs
    · rename_i hp
      subst hs
      exact other _ rfl rfl (none0 (w.obj con).resetPid (fun p hm => (hr.pid con p hm).1) hp)
    · rename_i p hp
      have huniq : ∀ q, (con, q) ∈ w.running → q = p := by
        intro q hm
        have := (hr.pid con q hm).1
        rw [hp] at this; simpa using this.symm
      split at hs
      · subst hs
        refine other _ rfl rfl ?_
        show w.running.filter (· ≠ (con, p)) = _
        apply List.filter_congr
        rintro ⟨c', q⟩ hm
        by_cases e : c' = con
        · subst e
          rw [huniq q hm]; simp
        · simp [e]
      · rename_i hn
        subst hs
        refine other _ rfl rfl ?_
        show w.running = _
        symm
        rw [List.filter_eq_self]
        rintro ⟨c', q⟩ hm
        rw [decide_eq_true_eq]
        rintro rfl
        rw [huniq q hm] at hm
        exact hn hm
  | childExit con pid =>
    simp only [World.step, Option.some.injEq] at hs; subst hs
    refine ⟨fun c' p hm => ?_, hr.nodup.filter _, fun c' p hm => ?_⟩
    · exact hr.pid c' p (List.mem_filter.1 hm).1
    · exact hr.live c' p (List.mem_filter.1 hm).1
  | logOpen i ok =>
    simp only [World.step, Option.some.injEq] at hs; subst hs
    apply keep
    split
    · refine .mod _ _ _ (fun o => ?_)
      split
      · exact write_rk { o with fd := true, pout := false, eof := false } _ _
      · exact ⟨rfl, rfl⟩
    · exact .refl _
  | logStamp i =>
    simp only [World.step, Option.some.injEq] at hs; subst hs
    apply keep
    split
    · exact note_rk _ _ _ _
    · exact .refl _

theorem Reachable.rinv {env : Env} {w : World} (h : Reachable env w) : RInv w := by
  obtain ⟨cfg, ss, hc, hr⟩ := h
  have := world_run_inv (P := fun w => DInv w ∧ RInv w) env
    (fun w s w' h hs => ⟨world_step_inv h.1 env s hs, h.2.step h.1 s hs⟩)
    (fun w n h => ⟨h.1.tick n, ⟨h.2.pid, h.2.nodup, h.2.live⟩⟩) ss
    ⟨boot_inv cfg hc, ⟨fun _ _ h => by simp [World.boot] at h, by simp [World.boot], fun _ _ h => by simp [World.boot] at h⟩⟩ hr
  exact this.2

end Conman
