import Verif.Lemma.WorldRun
import Verif.Lemma.Esc
import Verif.Lemma.Telnet

/-
What a step does to each object.
-/
namespace Conman

/-! ### Exact effect of notifications and deliveries -/

theorem foldl_mod (f : Nat → Obj → Obj) (g : World → Nat → World) (l : List Nat) :
    ∀ (w : World), (∀ (v : World) i, v.tick = w.tick → g v i = v.mod i (f i)) → l.Nodup →
    (∀ j, (l.foldl g w).obj j = if j ∈ l then f j (w.obj j) else w.obj j) ∧ (l.foldl g w).rest = w.rest := by
  induction l with
  | nil => intro w _ _; exact ⟨fun j => by simp, rfl⟩
  | cons a l ih =>
    intro w hg hnd
    rw [List.nodup_cons] at hnd
    simp only [List.foldl_cons]
    rw [hg w a rfl]
    obtain ⟨h1, h2⟩ := ih (w.mod a (f a)) (fun v i hv => hg v i hv) hnd.2
    refine ⟨fun j => ?_, by rw [h2]; rfl⟩
    rw [h1 j]
    by_cases hj : j = a
    · subst hj; simp [hnd.1]
    · rw [World.mod_ne _ _ hj]; simp [hj]

theorem notify_exact {w : World} (h : LInv w) (env : Env) (con : Nat) (n : Note) :
    (∀ j, (w.notify env con n).obj j =
      if j ∈ (w.obj con).readers ∨ j ∈ (w.obj con).writers then (w.obj j).write (env.txt n w.tick) true
      else w.obj j) ∧ (w.notify env con n).rest = w.rest := by
  unfold World.notify
  obtain ⟨h1, h2⟩ := foldl_mod (fun _ o => o.write (env.txt n w.tick) true) (fun w i => w.note env n i)
    (w.obj con).readers w (fun v i hv => by simp only [World.note, hv]) (h.ndR con)
  have ht : (List.foldl (fun w i => w.note env n i) w (w.obj con).readers).tick = w.tick := by
    have := h2; simp only [World.rest, Prod.mk.injEq] at this; exact this.2.1
  obtain ⟨h3, h4⟩ := foldl_mod (fun _ o => o.write (env.txt n w.tick) true) (fun w i => w.note env n i)
    ((w.obj con).writers.filter (fun i => !(w.obj con).readers.contains i))
    (List.foldl (fun w i => w.note env n i) w (w.obj con).readers)
    (fun v i hv => by unfold World.note; rw [hv, ht]) ((h.ndW con).filter _)
  simp only
  refine ⟨fun j => ?_, by rw [h4, h2]⟩
  rw [h3 j, h1 j]
  by_cases hr : j ∈ (w.obj con).readers
  · simp [hr]
  · by_cases hw : j ∈ (w.obj con).writers
    · simp [hr, hw]
    · simp [hr, hw]

theorem deliver_nil (w : World) (env : Env) (src : Nat) : w.deliver env src [] = w := by
  unfold World.deliver; rw [if_pos rfl]

theorem deliver_exact {w : World} (h : LInv w) (env : Env) (src : Nat) (d : List UInt8) (hd : d ≠ []) :
    (∀ j, (w.deliver env src d).obj j =
      if j ∈ (w.obj src).readers then
        (if (w.obj j).kind = .logfile then (w.obj j).writeLog (env.clk j) d else (w.obj j).write d false)
      else w.obj j) ∧ (w.deliver env src d).rest = w.rest := by
  unfold World.deliver
  rw [if_neg hd]
  exact foldl_mod (fun j o => if o.kind = .logfile then o.writeLog (env.clk j) d else o.write d false)
    (fun w i => w.give env d i) (w.obj src).readers w (fun v i _ => rfl) (h.ndR src)

/-! ### Waiting bytes under passive changes -/

theorem Obj.write_pend (o : Obj) (d : List UInt8) (b : Bool) :
    (o.write d b).pend = o.pend ∨ (o.write d b).pend = enq o.pend d := by
  rcases o.write_cases d b with h | ⟨_, h⟩
  · left; rw [h]
  · right; rw [h]

theorem Passive.pend {o o' : Obj} (h : Passive env o o') : ∃ msgs : List (List UInt8), o'.pend = msgs.foldl enq o.pend := by
  induction h with
  | refl => exact ⟨[], rfl⟩
  | trans _ _ h1 h2 =>
    obtain ⟨m1, h1⟩ := h1
    obtain ⟨m2, h2⟩ := h2
    exact ⟨m1 ++ m2, by rw [h2, h1, List.foldl_append]⟩
  | info o n t _ =>
    rcases o.write_pend (env.txt n t) true with h | h
    · exact ⟨[], by rw [h, List.foldl_nil]⟩
    · exact ⟨[env.txt n t], by rw [h, List.foldl_cons, List.foldl_nil]⟩
  | links => exact ⟨[], rfl⟩
  | orphan => exact ⟨[], rfl⟩

/-! ### Objects a step is not about -/

/-- Changes of an object caused by others: messages, link changes, end-of-file of
an orphaned client, the bookkeeping of reset commands, and, if `b`, data. -/
inductive Ext (env : Env) (b : Bool) : Obj → Obj → Prop
  | refl (o : Obj) : Ext env b o o
  | trans {x y z : Obj} : Ext env b x y → Ext env b y z → Ext env b x z
  | pass {o o' : Obj} : Passive env o o' → Ext env b o o'
  | reset (o : Obj) (p : Option Nat) (t : Bool) (h : o.kind.isConsole = true) :
      Ext env b o { o with resetPid := p, resetTimer := t }
  | data (o : Obj) (d : List UInt8) : b = true → Ext env b o (o.write d false)
  | log (o : Obj) (st : LineState) (k : Nat) : b = true → o.kind = .logfile → Ext env b o { o with line := st, stamps := k }

theorem Ext.mono {o o' : Obj} (h : Ext env false o o') (b : Bool) : Ext env b o o' := by
  induction h with
  | refl => exact .refl _
  | trans _ _ h1 h2 => exact .trans h1 h2
  | pass h => exact .pass h
  | reset _ _ _ h => exact .reset _ _ _ h
  | data _ _ h => simp at h
  | log _ _ _ h => simp at h

theorem Ext.writes {b : Bool} (hb : b = true) (l : List (List UInt8)) (o : Obj) :
    Ext env b o (l.foldl (fun o d => o.write d false) o) := by
  induction l generalizing o with
  | nil => exact .refl _
  | cons d l ih => exact .trans (.data _ _ hb) (ih _)

theorem Ext.writeLog {b : Bool} (hb : b = true) (o : Obj) (hk : o.kind = .logfile) (clk : Nat → List UInt8) (d : List UInt8) :
    Ext env b o (o.writeLog clk d) := by
  unfold Obj.writeLog
  exact .trans (.log _ _ _ hb hk) (Ext.writes hb _ _)

/-- Every object but `i` changes by `Ext`; data only where `B` says so. -/
def EStep (env : Env) (B : Nat → Bool) (i : Nat) (w w' : World) : Prop := ∀ j, j ≠ i → Ext env (B j) (w.obj j) (w'.obj j)

theorem EStep.refl (B : Nat → Bool) (i : Nat) (w : World) : EStep env B i w w := fun _ _ => .refl _
theorem EStep.trans {B : Nat → Bool} {i : Nat} {a b c : World} (h : EStep env B i a b) (h' : EStep env B i b c) :
    EStep env B i a c := fun j hj => (h j hj).trans (h' j hj)
theorem PStep.estep {w w' : World} (h : PStep env w w') (B : Nat → Bool) (i : Nat) : EStep env B i w w' :=
  fun j _ => .pass (h.touched j)
theorem EStep.mod (B : Nat → Bool) (i : Nat) (w : World) (f : Obj → Obj) : EStep env B i w (w.mod i f) :=
  fun j hj => by rw [World.mod_ne _ _ hj]; exact .refl _
theorem EStep.mod' (B : Nat → Bool) (i k : Nat) (w : World) (f : Obj → Obj) (h : k ≠ i → Ext env (B k) (w.obj k) (f (w.obj k))) :
    EStep env B i w (w.mod k f) := by
  intro j hj
  rw [World.mod_obj]
  split
  · rename_i e; subst e; exact h hj
  · exact .refl _
theorem EStep.obj {B : Nat → Bool} {i : Nat} {w v v' : World} (h : EStep env B i w v) (he : v'.obj = v.obj) : EStep env B i w v' := by
  intro j hj; rw [he]; exact h j hj

theorem EStep.foldl {α : Type} {B : Nat → Bool} {i : Nat} (f : World → α → World) (l : List α) (w : World)
    (I : World → Prop) (h0 : I w) (hI : ∀ v a, a ∈ l → I v → I (f v a))
    (hf : ∀ v a, a ∈ l → I v → EStep env B i v (f v a)) : EStep env B i w (l.foldl f w) := by
  induction l generalizing w with
  | nil => exact .refl _ _ _
  | cons a l ih =>
    simp only [List.foldl_cons]
    exact (hf w a (by simp) h0).trans (ih (f w a) (hI w a (by simp) h0)
      (fun v b hb => hI v b (by simp [hb])) (fun v b hb => hf v b (by simp [hb])))

/-- Effect of a toggle: at most the client's command changes, then links. -/
theorem toggle_eff {w w' : World} {x : Option Nat} (h : WInvX w x) (env : Env) (c : Nat) (hx : some c ≠ x)
    (hk : (w.obj c).kind = .client) (ht : w.toggle env c = some w') :
    ∃ cm, PStep env (w.mod c (fun o => { o with cmd := cm })) w' := by
  have ht0 := ht
  unfold World.toggle at ht
  split at ht
  · simp only [Option.some.injEq] at ht; subst ht
    refine ⟨(w.obj c).cmd, ⟨rfl, fun j => ?_⟩⟩
    rw [World.mod_obj]
    split
    · rename_i e; subst e; exact .refl _
    · exact .refl _
  rename_i hb
  have hb : (w.obj c).bcast = false := by simpa using hb
  split at ht
  · simp at ht
  rename_i con t hw
  have hcs := (h.cs c hx hk).2 hb
  rw [hw] at hcs
  have hcs' : t = [] ∧ ((w.obj c).readers = [] ∨ (w.obj c).readers = [con]) := by
    rcases hcs with h1 | ⟨con', h1, h2⟩
    · simp at h1
    · simp only [List.cons.injEq] at h1; rw [h1.1]; exact ⟨h1.2, h2⟩
  obtain ⟨rfl, hrd⟩ := hcs'
  have hcon : (w.obj con).kind.isConsole = true := h.l.client_writers hk (x := con) (by simp [hw])
  have hlv := h.l.live con c ((h.l.sym con c).2 (by simp [hw]))
  have hms : ∀ cm, LStep w (w.mod c (fun o => { o with cmd := cm })) := fun cm =>
    .mod _ _ _ ⟨rfl, rfl, rfl, rfl, rfl, rfl, rfl, fun h => ⟨h.cap, h.susp, h.closed⟩⟩
  split at ht
  · simp only [Option.some.injEq] at ht
    subst ht
    exact ⟨.monitor, (unlinkObjs_spec (h.wstep (hms .monitor).ws).l env c con).pstep⟩
  · rename_i hne
    simp only [Option.some.injEq] at ht
    have hr : (w.obj c).readers = [] := by simpa using hne
    subst ht
    have s := hms .connect
    have ok : LinkOk (w.mod c (fun o => { o with cmd := .connect })) c con := by
      refine ⟨Or.inl ⟨?_, ?_⟩, ?_, ?_⟩
      · rw [(s.loc c).kind]; exact hk
      · rw [(s.loc con).kind]; exact hcon
      · rw [(s.loc c).rd, hr]; simp
      · rw [s.live]; exact ⟨hlv.2, hlv.1⟩
    exact ⟨.connect, (linkObjs_spec (h.wstep s.ws).l env ok).pstep⟩

theorem break1_estep (B : Nat → Bool) (i : Nat) (w : World) (con : Nat) (hB : B con = true) :
    EStep env B i w (w.break1 con) := by
  unfold World.break1
  split
  · exact .mod' _ _ _ _ _ (fun _ => .data _ _ hB)
  · exact (EStep.refl B i w).obj rfl
  · exact (EStep.refl B i w).obj rfl
  · split
    · exact .mod' _ _ _ _ _ (fun _ => .data _ _ hB)
    · exact .refl _ _ _
  · exact .refl _ _ _

theorem reset1_estep {w : World} (h : LInv w) (env : Env) (c con : Nat) (hc : (w.obj con).kind.isConsole = true)
    (B : Nat → Bool) (i : Nat) : EStep env B i w (w.reset1 env c con) := by
  unfold World.reset1
  simp only
  apply EStep.obj (h := ?_) rfl
  split
  · exact .refl _ _ _
  split
  · exact (notify_step h env con _ hc).pstep.estep _ _
  split
  · exact (notify_step h env con _ hc).pstep.estep _ _
  split
  · exact (notify_step h env con _ hc).pstep.estep _ _
  · rename_i pid _
    have h1 : LStep w (({ w with running := w.running ++ [(con, pid)], fx := w.fx ++ [.resetStart con pid] } : World).mod con
          (fun o => { o with resetPid := some pid, resetTimer := true })) := by
      refine LStep.trans (b := ({ w with running := w.running ++ [(con, pid)], fx := w.fx ++ [.resetStart con pid] } : World))
        ⟨fun _ => .refl _, rfl, rfl⟩ ?_
      apply LStep.mod
      exact ⟨rfl, rfl, rfl, rfl, rfl, rfl, rfl, fun h => ⟨h.cap, h.susp, h.closed⟩⟩
    have h2 : EStep env B i w (({ w with running := w.running ++ [(con, pid)], fx := w.fx ++ [.resetStart con pid] } : World).mod con
          (fun o => { o with resetPid := some pid, resetTimer := true })) := by
      have : EStep env B i ({ w with running := w.running ++ [(con, pid)], fx := w.fx ++ [.resetStart con pid] } : World)
        (({ w with running := w.running ++ [(con, pid)], fx := w.fx ++ [.resetStart con pid] } : World).mod con
          (fun o => { o with resetPid := some pid, resetTimer := true })) :=
        .mod' _ _ _ _ _ (fun _ => .reset _ _ _ hc)
      exact this
    refine h2.trans ((notify_step (h.same h1.sl) env con _ ?_).pstep.estep _ _)
    rw [(h1.sl.1 con).1]; exact hc

/-- Consoles may get data from the client `c`. -/
def conB (w : World) (j : Nat) : Bool := (w.obj j).kind.isConsole

theorem act_estep {w w' : World} {x : Option Nat} (h : WInvX w x) (env : Env) (c : Nat) (hx : some c ≠ x)
    (hk : (w.obj c).kind = .client) (a : UInt8) (ht : w.act env c a = some w') : EStep env (conB w) c w w' := by
  have htog : ∀ f j, (w.mod c (fun o => { o with force := f, join := j })).toggle env c = some w' →
      EStep env (conB w) c w w' := by
    intro f j hh
    have s : LStep w (w.mod c (fun o => { o with force := f, join := j })) :=
      .mod _ _ _ ⟨rfl, rfl, rfl, rfl, rfl, rfl, rfl, fun h => ⟨h.cap, h.susp, h.closed⟩⟩
    obtain ⟨cm, hp⟩ := toggle_eff (h.wstep s.ws) env c hx (by rw [(s.loc c).kind]; exact hk) hh
    exact (EStep.mod _ _ _ _).trans ((EStep.mod _ _ _ _).trans (hp.estep _ _))
  have hcr : ∀ a ∈ (w.obj c).readers, conB w a = true := fun a ha => h.l.client_readers hk ha
  unfold World.act at ht
  split at ht
  · simp only [Option.some.injEq] at ht; subst ht
    exact .foldl _ _ _ (fun _ => True) trivial (fun _ _ _ _ => trivial) (fun v a ha _ => break1_estep _ _ _ _ (hcr a ha))
  split at ht
  · simp only [Option.some.injEq] at ht; subst ht
    exact .foldl _ _ _ (fun _ => True) trivial (fun _ _ _ _ => trivial)
      (fun v a ha _ => .mod' _ _ _ _ _ (fun _ => .data _ _ (hcr a ha)))
  split at ht
  · exact htog _ _ ht
  split at ht
  · exact htog _ _ ht
  split at ht
  · split at ht
    · simp only [Option.some.injEq] at ht; subst ht; exact .refl _ _ _
    · simp only [Option.some.injEq] at ht; subst ht; exact .mod _ _ _ _
  split at ht
  · exact htog _ _ ht
  split at ht
  · simp only [Option.some.injEq] at ht; subst ht; exact .mod _ _ _ _
  split at ht
  · simp only [Option.some.injEq] at ht; subst ht
    refine .foldl _ _ _ (fun v => LStep w v) (.refl _) (fun v a ha hv => hv.trans (reset1_lstep (h.l.same hv.sl) env c a ?_))
      (fun v a ha hv => reset1_estep (h.l.same hv.sl) env c a ?_ _ _)
    · rw [(hv.loc a).kind]; exact h.l.client_readers hk ha
    · rw [(hv.loc a).kind]; exact h.l.client_readers hk ha
  split at ht
  · simp only [Option.some.injEq] at ht; subst ht; exact .mod _ _ _ _
  · simp only [Option.some.injEq] at ht; subst ht; exact .refl _ _ _

theorem acts_estep (env : Env) (c : Nat) (x : Option Nat) (hx : some c ≠ x) (as : List UInt8) :
    ∀ {w w' : World}, WInvX w x → (w.obj c).kind = .client → w.acts env c as = some w' → EStep env (conB w) c w w' := by
  induction as with
  | nil => intro w w' h hk ht; simp only [World.acts, Option.some.injEq] at ht; subst ht; exact .refl _ _ _
  | cons a as ih =>
    intro w w' h hk ht
    simp only [World.acts, Option.bind_eq_some_iff] at ht
    obtain ⟨w1, h1, h2⟩ := ht
    obtain ⟨h3, h4⟩ := act_inv h env c hx hk a h1
    have e1 := act_estep h env c hx hk a h1
    have e2 := ih h3 (by rw [h4.kind]; exact hk) h2
    have : conB w1 = conB w := by funext j; simp only [conB, h4.kind]
    rw [this] at e2
    exact e1.trans e2

theorem deliver_estep {w : World} (h : LInv w) (env : Env) (src : Nat) (d : List UInt8) (B : Nat → Bool)
    (hB : ∀ j ∈ (w.obj src).readers, B j = true) (i : Nat) : EStep env B i w (w.deliver env src d) := by
  by_cases hd : d = []
  · subst hd; rw [deliver_nil]; exact .refl _ _ _
  intro j _
  rw [(deliver_exact h env src d hd).1 j]
  split
  · rename_i hj
    split
    · rename_i hl; exact .writeLog (hB j hj) _ hl _ _
    · exact .data _ _ (hB j hj)
  · exact .refl _

theorem shutdown_estep {w : World} (h : WInv w) (env : Env) (up : Bool) (i : Nat) (B : Nat → Bool) :
    EStep env B i w (w.shutdown env up i) := by
  unfold World.shutdown
  split
  · exact .refl _ _ _
  simp only
  have e1 : EStep env B i w (w.mod i (fun o =>
      { o with fd := false, pin := false, pout := false, pend := [], eof := false, gen := o.gen + 1, hist := o.hist ++ [none] })) := .mod _ _ _ _
  have hsl : SL w (w.mod i (fun o =>
      { o with fd := false, pin := false, pout := false, pend := [], eof := false, gen := o.gen + 1, hist := o.hist ++ [none] })) := by
    refine ⟨fun j => ?_, rfl⟩
    rw [World.mod_obj]; split <;> exact ⟨rfl, rfl, rfl⟩
  generalize (w.mod i (fun o =>
      { o with fd := false, pin := false, pout := false, pend := [], eof := false, gen := o.gen + 1, hist := o.hist ++ [none] })) = w1 at e1 hsl ⊢
  have hl1 := h.l.same hsl
  cases hk : (w1.obj i).kind
  case client => exact e1.trans (((unlinkObj_spec hl1 env i).pstep.estep B i).obj rfl)
  case logfile => exact e1
  case serial =>
    simp only
    have e2 : EStep env B i w (w1.mod i (fun o => { o with fd := up, pin := up })) := e1.trans (.mod _ _ _ _)
    have hs2 : SL w1 (w1.mod i (fun o => { o with fd := up, pin := up })) := by
      refine ⟨fun j => ?_, rfl⟩
      rw [World.mod_obj]; split <;> exact ⟨rfl, rfl, rfl⟩
    split
    · exact e2.trans ((notify_step (hl1.same hs2) env i _ (by rw [(hs2.1 i).1, hk]; rfl)).pstep.estep _ _)
    · exact e2
  case test => exact e1.trans (.mod _ _ _ _)
  all_goals
    have hs2 : SL w1 (w1.mod i (fun o => { o with conn := .down })) := by
      refine ⟨fun j => ?_, rfl⟩
      rw [World.mod_obj]; split <;> exact ⟨rfl, rfl, rfl⟩
    exact e1.trans ((EStep.mod _ _ _ _).trans
      ((notify_step (hl1.same hs2) env i _ (by rw [(hs2.1 i).1, hk]; rfl)).pstep.estep _ _))

/-- Whether a step may bring data to object `j`. -/
def dataTo (w : World) (s : Step) (j : Nat) : Bool :=
  match s with
  | .poll i _ (some (.data _)) _ =>
    if (w.obj i).kind = .client then (w.obj j).kind.isConsole else (w.obj i).readers.contains j
  | _ => false

theorem read_estep {w w' : World} (h : WInv w) (env : Env) (up : Bool) (i : Nat) (r : ReadRes) (wr : Option WriteRes)
    (ht : w.read env up i r = some w') : EStep env (dataTo w (.poll i up (some r) wr)) i w w' := by
  unfold World.read at ht
  split at ht
  · simp only [Option.some.injEq] at ht; subst ht; exact .refl _ _ _
  split at ht
  · simp only [Option.some.injEq] at ht; subst ht; exact .refl _ _ _
  cases hr : (if (w.obj i).kind = .logfile then .err else r : ReadRes) with
  | again => simp only [hr, Option.some.injEq] at ht; subst ht; exact .refl _ _ _
  | err => simp only [hr, Option.some.injEq] at ht; subst ht; exact shutdown_estep h env up i _
  | eof =>
    simp only [hr, Option.some.injEq] at ht
    have s1 : WStep w (w.mod i (fun o => { o with eof := true, pin := false })) := by
      refine .mod _ _ _ ⟨rfl, rfl, rfl, rfl, fun _ _ => rfl, fun ho => ⟨ho.cap, ho.susp, ?_⟩⟩
      intro hf; exact ⟨rfl, (ho.closed hf).2⟩
    subst ht
    split
    · exact (EStep.mod _ _ _ _).trans (shutdown_estep (h.wstep s1) env up i _)
    · exact .mod _ _ _ _
  | data d0 =>
    have hr' : r = .data d0 ∧ (w.obj i).kind ≠ .logfile := by
      split at hr
      · simp at hr
      · rename_i hh; exact ⟨hr, hh⟩
    obtain ⟨rfl, hnl⟩ := hr'
    simp only [hr] at ht
    split at ht
    · rename_i hk
      simp only [Option.map_eq_some_iff] at ht
      obtain ⟨w1, h1, rfl⟩ := ht
      have hB : dataTo w (.poll i up (some (.data d0)) wr) = conB w := by
        funext j; simp [dataTo, hk, conB]
      rw [hB]
      have hi := acts_inv env i none (by simp) _ h hk h1
      have s1 : LStep w1 (w1.mod i (fun o => { o with
          gotEscape := (processClientEscapes (w.obj i).gotEscape (d0.take readBufSize)).gotEscape })) :=
        .mod _ _ _ ⟨rfl, rfl, rfl, rfl, rfl, rfl, rfl, fun h => ⟨h.cap, h.susp, h.closed⟩⟩
      refine (acts_estep env i none (by simp) _ h hk h1).trans ((EStep.mod _ _ _ _).trans
        (deliver_estep (hi.1.l.same s1.sl) env i _ _ ?_ i))
      intro j hj
      rw [(s1.loc i).rd] at hj
      have := hi.1.l.client_readers (by rw [hi.2.kind]; exact hk) hj
      simp only [conB]; rw [hi.2.kind] at this; exact this
    · rename_i hk
      simp only [Option.map_eq_some_iff] at ht
      obtain ⟨t, h1, rfl⟩ := ht
      have s1 : LStep w (w.mod i (fun o => ({ o with iac := t.iac }).write t.sent false)) := by
        refine .mod _ _ _ (OLoc.trans ?_ (.write _ _ _))
        exact ⟨rfl, rfl, rfl, rfl, rfl, rfl, rfl, fun h => ⟨h.cap, h.susp, h.closed⟩⟩
      refine (EStep.mod _ _ _ _).trans (deliver_estep (h.l.same s1.sl) env i _ _ ?_ i)
      intro j hj
      rw [(s1.loc i).rd] at hj
      simp [dataTo, hk, hj]
    · rename_i hk _
      simp only [Option.some.injEq] at ht
      subst ht
      refine deliver_estep h.l env i _ _ ?_ i
      intro j hj
      have : (w.obj i).kind ≠ .client := by assumption
      simp [dataTo, this, hj]

theorem flush_estep {w : World} (h : WInv w) (env : Env) (up : Bool) (i : Nat) (r : WriteRes) (B : Nat → Bool) :
    EStep env B i w (w.flush env up i r) := by
  unfold World.flush
  simp only
  have s1 := push_ws w i (r.count (w.obj i).pend.length)
  have s2 := drained_ws (w.push i (r.count (w.obj i).pend.length)) i
  have h1 := (h.wstep s1).wstep s2
  have e0 : EStep env B i w (w.push i (r.count (w.obj i).pend.length)) := by
    intro j hj; unfold World.push; rw [World.mod_ne _ _ hj]; exact .refl _
  have e1 : EStep env B i w ((w.push i (r.count (w.obj i).pend.length)).drained i) := by
    refine e0.trans ?_
    unfold World.drained
    split
    · exact .mod _ _ _ _
    · exact .refl _ _ _
  split
  · exact .refl _ _ _
  split
  · exact .refl _ _ _
  split
  · exact e1.trans (shutdown_estep h1 env up i B)
  · exact e1

/-- The object a step acts on. -/
def Step.target : Step → Option Nat
  | .check _ => none
  | .grant c _ => some c
  | .poll i _ _ _ | .connUp i | .connPend i | .connDown i | .connFail i | .logOpen i _ | .logStamp i => some i
  | .resetTimeout con => some con
  | .childExit _ _ => none

theorem grant_estep {w : World} (h : WInv w) (env : Env) (c : Nat) (q : Req)
    (hc : c ∉ w.live) (ok : w.reqOk q) (B : Nat → Bool) : EStep env B c w (w.grant env c q) := by
  obtain ⟨hnd, hcons⟩ := ok
  have s0 := Setup.init h q hc
  have e0 : EStep env B c w (w.newClient c q) := by
    intro j hj; rw [newClient_obj, if_neg hj]; exact .refl _
  have hk0 : ((w.newClient c q).obj c).kind = .client := by rw [newClient_obj, if_pos rfl]
  have hcl : c ∈ (w.newClient c q).live := by show c ∈ w.live ++ [c]; simp
  have hcons' : ∀ x ∈ q.consoles, x ∈ (w.newClient c q).live ∧ ((w.newClient c q).obj x).kind.isConsole = true := by
    intro x hx
    have := hcons x hx
    have hne : x ≠ c := by rintro rfl; exact hc this.1
    rw [newClient_obj, if_neg hne]
    refine ⟨?_, this.2⟩
    show x ∈ w.live ++ [c]
    simp [this.1]
  have back : ∀ (v : World) (con : Nat) (pre : List Nat), Setup (w.newClient c q) v c pre → con ∈ q.consoles →
      EStep env B c v ((v.linkObjs env con c).checkState env c con) := by
    intro v con pre s hcon
    have hcc := hcons' con hcon
    have ok : LinkOk v con c := by
      refine ⟨Or.inr ⟨by rw [s.kind]; exact hcc.2, by rw [s.kind, hk0]; rfl⟩, ?_, by rw [s.live]; exact ⟨hcc.1, hcl⟩⟩
      intro hm
      have := (s.inv.l.sym con c).1 hm
      rw [s.wr] at this; simp at this
    have sp := linkObjs_spec s.inv.l env ok
    refine (sp.pstep.estep _ _).trans ?_
    unfold World.checkState
    split
    · exact .refl _ _ _
    · exact .mod _ _ _ _
  have fold : ∀ (l : List Nat) (v : World) (pre : List Nat), Setup (w.newClient c q) v c pre → (pre ++ l).Nodup →
      (∀ x ∈ l, x ∈ q.consoles) →
      EStep env B c v (l.foldl (fun w con => (w.linkObjs env c con).checkState env c con) v) := by
    intro l
    induction l with
    | nil => intro v pre s _ _; exact .refl _ _ _
    | cons a l ih =>
      intro v pre s hnd hl
      have ha := hcons' a (hl a (by simp))
      have hn : a ∉ pre := by
        intro hp
        rw [List.nodup_append] at hnd
        exact hnd.2.2 a hp a (by simp) rfl
      obtain ⟨ok, s1⟩ := s.link env hk0 ha.2 ⟨hcl, ha.1⟩ hn
      have s2 := s1.lstep (checkState_lstep _ env c a (by rw [s1.kind]; exact hk0))
      simp only [List.foldl_cons]
      refine (((linkObjs_spec s.inv.l env ok).pstep.estep _ _).trans ?_).trans
        (ih _ _ s2 (by simpa using hnd) (fun x hx => hl x (by simp [hx])))
      unfold World.checkState
      split
      · exact .refl _ _ _
      · exact .mod _ _ _ _
  unfold World.grant
  simp only
  split
  · rename_i con t hcmd hcs
    exact e0.trans (back _ con [] s0 (by rw [hcs]; simp))
  · rename_i con hcmd hcs
    have hcon : con ∈ q.consoles := by rw [hcs]; simp
    obtain ⟨ok, s1⟩ := s0.link env hk0 (hcons' con hcon).2 ⟨hcl, (hcons' con hcon).1⟩ (by simp)
    exact e0.trans (((linkObjs_spec s0.inv.l env ok).pstep.estep _ _).trans (back _ con [con] s1 hcon))
  · exact e0.trans (fold q.consoles _ [] s0 (by simpa using hnd) (fun x hx => hx))
  · exact e0

/-- A step changes objects it is not about only by `Ext`. -/
theorem step_ext {w w' : World} (h : DInv w) (env : Env) (s : Step) (ht : w.step env s = some w') (j : Nat)
    (hj : s.target ≠ some j) : Ext env (dataTo w s j) (w.obj j) (w'.obj j) := by
  cases s with
  | check q =>
    simp only [World.step, Option.some.injEq] at ht
    subst ht; split <;> exact .refl _
  | grant c k =>
    have hj : j ≠ c := fun e => hj (by rw [e]; rfl)
    simp only [World.step, Option.some.injEq] at ht
    subst ht
    split
    · rename_i q hq
      split
      · exact .refl _
      · rename_i hc
        have hqm : q ∈ w.wait := List.mem_of_getElem? hq
        have h0 := h.unwait (w.wait.eraseIdx k) (fun q hq => List.mem_of_mem_eraseIdx hq)
        have hok := h.wait q hqm
        exact grant_estep h0.inv env c q hc hok.2 (dataTo w (.grant c k)) j hj
    · exact .refl _
  | poll i up rd wr =>
    have hj : j ≠ i := fun e => hj (by rw [e]; rfl)
    simp only [World.step] at ht
    split at ht
    · simp only [Option.some.injEq] at ht; subst ht; exact .refl _
    simp only [Option.map_eq_some_iff] at ht
    obtain ⟨w1, h1, rfl⟩ := ht
    have hw1 : EStep env (dataTo w (.poll i up rd wr)) i w w1 ∧ WInv w1 := by
      cases rd with
      | none => simp only [Option.some.injEq] at h1; subst h1; exact ⟨.refl _ _ _, h.inv⟩
      | some r => exact ⟨read_estep h.inv env up i r wr h1, (read_inv h.inv env up i r h1).1⟩
    split
    · exact hw1.1 j hj
    · split
      · exact hw1.1 j hj
      · exact (hw1.1.trans (flush_estep hw1.2 env up i _ _)) j hj
  | connUp i =>
    have hj : j ≠ i := fun e => hj (by rw [e]; rfl)
    simp only [World.step, Option.some.injEq] at ht
    subst ht
    by_cases hlv : i ∈ w.live
    case neg => rw [if_neg hlv]; exact .refl _
    rw [if_pos hlv]
    unfold World.connUp
    simp only
    split
    · exact .refl _
    rename_i hk
    have hk : (w.obj i).kind.isConsole = true := by simpa using hk
    split
    · exact .refl _
    have s1 : SL w (w.mod i (fun o => { o with fd := true, pin := true, conn := .up, eof := false })) := by
      refine ⟨fun j => ?_, rfl⟩
      rw [World.mod_obj]; split <;> exact ⟨rfl, rfl, rfl⟩
    have e1 : EStep env (dataTo w (.connUp i)) i w (if (w.obj i).kind = .test then (w.mod i (fun o => { o with fd := true, pin := true, conn := .up, eof := false }))
      else (w.mod i (fun o => { o with fd := true, pin := true, conn := .up, eof := false })).notify env i (.connected i)) := by
      split
      · exact .mod _ _ _ _
      · exact (EStep.mod _ _ _ _).trans ((notify_step (h.inv.l.same s1) env i _ (by rw [(s1.1 i).1]; exact hk)).pstep.estep _ _)
    split
    · exact (e1.trans (.mod _ _ _ _)) j hj
    · exact e1 j hj
  | connPend i =>
    have hj : j ≠ i := fun e => hj (by rw [e]; rfl)
    simp only [World.step, Option.some.injEq] at ht
    subst ht
    split
    · rw [World.mod_ne _ _ hj]; exact .refl _
    · exact .refl _
  | connDown i =>
    have hj : j ≠ i := fun e => hj (by rw [e]; rfl)
    simp only [World.step, Option.some.injEq] at ht
    subst ht
    split
    · rw [World.mod_ne _ _ hj]; exact .refl _
    · exact .refl _
  | connFail i =>
    have hj : j ≠ i := fun e => hj (by rw [e]; rfl)
    simp only [World.step, Option.some.injEq] at ht
    subst ht
    split
    · rename_i hk
      exact (notify_step h.inv.l env i (.connFailed i) (by rw [hk.2.1]; rfl)).pstep.estep (dataTo w (.connFail i)) i j hj
    · exact .refl _
  | resetTimeout con =>
    have hj : j ≠ con := fun e => hj (by rw [e]; rfl)
    simp only [World.step, Option.some.injEq] at ht
    subst ht
    split
    · split
      · rw [World.mod_ne _ _ hj]; exact .refl _
      · split
        · dsimp only; rw [World.mod_ne _ _ hj]; exact .refl _
        · rw [World.mod_ne _ _ hj]; exact .refl _
    · exact .refl _
  | childExit con pid =>
    simp only [World.step, Option.some.injEq] at ht
    subst ht; exact .refl _
  | logOpen i ok =>
    have hj : j ≠ i := fun e => hj (by rw [e]; rfl)
    simp only [World.step, Option.some.injEq] at ht
    subst ht
    split
    · rw [World.mod_ne _ _ hj]; exact .refl _
    · exact .refl _
  | logStamp i =>
    have hj : j ≠ i := fun e => hj (by rw [e]; rfl)
    simp only [World.step, Option.some.injEq] at ht
    subst ht
    split
    · unfold World.note; rw [World.mod_ne _ _ hj]; exact .refl _
    · exact .refl _

end Conman
