import Verif.Lemma.WorldLink
import Verif.Spec.Flow

/-
What a poll does to the client polled; invariants of live clients.
-/
namespace Conman
open Spec

/-- What the daemon writes to a client because of a command of it: the replay of a log, or a message. -/
def SelfText (env : Env) (d : List UInt8) : Prop := (∃ con h, d = env.replay con h) ∨ ∃ n k, d = env.txt n k

/-- Changes of a client by its own poll; data is added and quiet mode changed only if `b`, data is
taken away only if `p`. -/
inductive COwn (env : Env) (b p : Bool) : Obj → Obj → Prop
  | refl (o : Obj) : COwn env b p o o
  | trans {x y z : Obj} : COwn env b p x y → COwn env b p y z → COwn env b p x z
  | pass {o o' : Obj} : Passive env o o' → COwn env b p o o'
  | data (o : Obj) (d : List UInt8) : b = true → SelfText env d → COwn env b p o (o.write d false)
  | quiet (o : Obj) (q : Bool) : b = true → COwn env b p o { o with quiet := q }
  | flags (o : Obj) (f j : Bool) (cm : Cmd) (g : Bool) : COwn env b p o { o with force := f, join := j, cmd := cm, gotEscape := g }
  | susp (o : Obj) : COwn env b p o { o with suspend := !o.suspend, pout := o.suspend && o.fd }
  | eofRead (o : Obj) : COwn env b p o { o with eof := true, pin := false }
  | push (o : Obj) (n : Nat) : p = true → COwn env b p o { o with pend := o.pend.drop n }
  | drain (o : Obj) : o.pend = [] → COwn env b p o { o with pout := false }

theorem COwn.mono {p : Bool} {o o' : Obj} (h : COwn env false p o o') (b : Bool) : COwn env b p o o' := by
  induction h with
  | refl => exact .refl _
  | trans _ _ h1 h2 => exact .trans h1 h2
  | pass h => exact .pass h
  | data _ _ h => simp at h
  | quiet _ _ h => simp at h
  | flags => exact .flags _ _ _ _ _
  | susp => exact .susp _
  | eofRead => exact .eofRead _
  | push _ _ h => exact .push _ _ h
  | drain _ h => exact .drain _ h

theorem COwn.monoP {b : Bool} {o o' : Obj} (h : COwn env b false o o') (p : Bool) : COwn env b p o o' := by
  induction h with
  | refl => exact .refl _
  | trans _ _ h1 h2 => exact .trans h1 h2
  | pass h => exact .pass h
  | data _ _ h h' => exact .data _ _ h h'
  | quiet _ _ h => exact .quiet _ _ h
  | flags => exact .flags _ _ _ _ _
  | susp => exact .susp _
  | eofRead => exact .eofRead _
  | push _ _ h => simp at h
  | drain _ h => exact .drain _ h

theorem break1_other (w : World) {con j : Nat} (h : j ≠ con) : (w.break1 con).obj j = w.obj j := by
  unfold World.break1
  split
  · rw [World.mod_ne _ _ h]
  · rfl
  · rfl
  · split
    · rw [World.mod_ne _ _ h]
    · rfl
  · rfl

theorem foldl_other {α : Type} (f : World → α → World) (l : List α) (j : Nat) (w : World)
    (hf : ∀ v a, a ∈ l → (f v a).obj j = v.obj j) : (l.foldl f w).obj j = w.obj j := by
  induction l generalizing w with
  | nil => rfl
  | cons a l ih =>
    rw [List.foldl_cons, ih _ (fun v b hb => hf v b (by simp [hb])), hf w a (by simp)]

theorem reset1_passive {w : World} (h : LInv w) (env : Env) (c con : Nat) (hc : (w.obj con).kind.isConsole = true)
    {j : Nat} (hj : j ≠ con) : Passive env (w.obj j) ((w.reset1 env c con).obj j) := by
  unfold World.reset1
  dsimp only
  split
  · exact .refl _
  split
  · exact (notify_step h env con _ hc).pstep.touched j
  split
  · exact (notify_step h env con _ hc).pstep.touched j
  split
  · exact (notify_step h env con _ hc).pstep.touched j
  · rename_i pid _
    have h1 : LStep w (({ w with running := w.running ++ [(con, pid)], fx := w.fx ++ [.resetStart con pid] } : World).mod con
          (fun o => { o with resetPid := some pid, resetTimer := true })) := by
      refine LStep.trans (b := ({ w with running := w.running ++ [(con, pid)], fx := w.fx ++ [.resetStart con pid] } : World))
        ⟨fun _ => .refl _, rfl, rfl⟩ ?_
      apply LStep.mod
      exact ⟨rfl, rfl, rfl, rfl, rfl, rfl, rfl, fun h => ⟨h.cap, h.susp, h.closed⟩⟩
    have h2 := (notify_step (h.same h1.sl) env con (.resetBy c con) (by rw [(h1.sl.1 con).1]; exact hc)).pstep.touched j
    rw [World.mod_ne _ _ hj] at h2
    exact h2

theorem act_cown {w w' : World} {x : Option Nat} (h : WInvX w x) (env : Env) (c : Nat) (hx : some c ≠ x)
    (hk : (w.obj c).kind = .client) (a : UInt8) (ht : w.act env c a = some w') :
    COwn env (isSelf a) false (w.obj c) (w'.obj c) := by
  have htog : ∀ f j, (w.mod c (fun o => { o with force := f, join := j })).toggle env c = some w' →
      COwn env (isSelf a) false (w.obj c) (w'.obj c) := by
    intro f j hh
    have s : LStep w (w.mod c (fun o => { o with force := f, join := j })) :=
      .mod _ _ _ ⟨rfl, rfl, rfl, rfl, rfl, rfl, rfl, fun h => ⟨h.cap, h.susp, h.closed⟩⟩
    obtain ⟨cm, hp⟩ := toggle_eff (h.wstep s.ws) env c hx (by rw [(s.loc c).kind]; exact hk) hh
    have := hp.touched c
    rw [World.mod_self, World.mod_self] at this
    exact (COwn.flags _ f j cm (w.obj c).gotEscape).trans (.pass this)
  have hne : ∀ con ∈ (w.obj c).readers, c ≠ con := by
    rintro con hc rfl; exact not_client_of_console (h.l.client_readers hk hc) hk
  unfold World.act at ht
  split at ht
  · simp only [Option.some.injEq] at ht; subst ht
    rw [foldl_other _ _ c w (fun v a ha => break1_other v (hne a ha))]; exact .refl _
  split at ht
  · simp only [Option.some.injEq] at ht; subst ht
    rw [foldl_other _ _ c w (fun v a ha => World.mod_ne _ _ (hne a ha))]; exact .refl _
  split at ht
  · exact htog _ _ ht
  split at ht
  · exact htog _ _ ht
  split at ht
  · rename_i e; subst e
    split at ht
    · simp only [Option.some.injEq] at ht; subst ht; exact .refl _
    · simp only [Option.some.injEq] at ht; subst ht; rw [World.mod_self]; exact .data _ _ rfl (Or.inl ⟨_, _, rfl⟩)
  split at ht
  · exact htog _ _ ht
  split at ht
  · rename_i e; subst e
    simp only [Option.some.injEq] at ht; subst ht; rw [World.mod_self]
    exact (COwn.quiet _ _ rfl).trans (.data _ _ rfl (Or.inr ⟨_, _, rfl⟩))
  split at ht
  · simp only [Option.some.injEq] at ht; subst ht
    have : ∀ (l : List Nat) (v : World), (∀ a ∈ l, a ∈ (w.obj c).readers) → LStep w v →
        Passive env (v.obj c) ((l.foldl (fun w con => w.reset1 env c con) v).obj c) := by
      intro l
      induction l with
      | nil => intro v _ _; exact .refl _
      | cons a l ih =>
        intro v hl hv
        rw [List.foldl_cons]
        have hkc : (v.obj a).kind.isConsole = true := by
          rw [(hv.loc a).kind]; exact h.l.client_readers hk (hl a (by simp))
        have hl' := h.l.same hv.sl
        exact (reset1_passive hl' env c a hkc (hne a (hl a (by simp)))).trans
          (ih _ (fun b hb => hl b (by simp [hb])) (hv.trans (reset1_lstep hl' env c a hkc)))
    exact .pass (this _ _ (fun _ h => h) (.refl _))
  split at ht
  · simp only [Option.some.injEq] at ht; subst ht; rw [World.mod_self]; exact .susp _
  · simp only [Option.some.injEq] at ht; subst ht; exact .refl _

theorem acts_cown (env : Env) (c : Nat) (as : List UInt8) :
    ∀ {w w' : World}, WInv w → (w.obj c).kind = .client → w.acts env c as = some w' →
    COwn env (as.any isSelf) false (w.obj c) (w'.obj c) := by
  induction as with
  | nil => intro w w' h hk ht; simp only [World.acts, Option.some.injEq] at ht; subst ht; exact .refl _
  | cons a as ih =>
    intro w w' h hk ht
    simp only [World.acts, Option.bind_eq_some_iff] at ht
    obtain ⟨w1, h1, h2⟩ := ht
    obtain ⟨h3, h4⟩ := act_inv h env c (by simp) hk a h1
    have e1 := act_cown h env c (by simp) hk a h1
    have e2 := ih h3 (by rw [h4.kind]; exact hk) h2
    rw [List.any_cons]
    cases hs : isSelf a
    · rw [hs] at e1; rw [Bool.false_or]; exact (e1.mono _).trans e2
    · rw [hs] at e1; rw [Bool.true_or]
      cases hs2 : as.any isSelf
      · rw [hs2] at e2; exact e1.trans (e2.mono _)
      · rw [hs2] at e2; exact e1.trans e2

theorem shutdown_client {w : World} (env : Env) (up : Bool) (i : Nat) (hf : (w.obj i).fd = true)
    (hk : (w.obj i).kind = .client) : i ∉ (w.shutdown env up i).live := by
  unfold World.shutdown
  rw [if_neg (by simp [hf])]
  dsimp only
  rw [World.mod_self]
  dsimp only
  rw [hk]
  simp

theorem deliver_other {w : World} (env : Env) (src : Nat) (d : List UInt8) {j : Nat} (hj : j ∉ (w.obj src).readers) :
    (w.deliver env src d).obj j = w.obj j := by
  unfold World.deliver
  split
  · rfl
  · refine foldl_other _ _ j w (fun v a ha => ?_)
    unfold World.give
    exact World.mod_ne _ _ (by rintro rfl; exact hj ha)

/-- Whether this read may add data to the client itself. -/
def selfData (o : Obj) : Option ReadRes → Bool
  | some (.data d) => (cmdsOf o d).any isSelf
  | _ => false

theorem read_cown {w w' : World} (h : WInv w) (env : Env) (up : Bool) (c : Nat) (r : ReadRes)
    (hk : (w.obj c).kind = .client) (ht : w.read env up c r = some w') :
    c ∉ w'.live ∨ COwn env (selfData (w.obj c) (some r)) false (w.obj c) (w'.obj c) := by
  unfold World.read at ht
  split at ht
  · simp only [Option.some.injEq] at ht; subst ht; exact Or.inr (.refl _)
  rename_i hf
  have hf : (w.obj c).fd = true := by simpa using hf
  split at ht
  · simp only [Option.some.injEq] at ht; subst ht; exact Or.inr (.refl _)
  rw [if_neg (by rw [hk]; simp)] at ht
  cases r with
  | again => simp only [Option.some.injEq] at ht; subst ht; exact Or.inr (.refl _)
  | err => simp only [Option.some.injEq] at ht; subst ht; exact Or.inl (shutdown_client env up c hf hk)
  | eof =>
    simp only [Option.some.injEq] at ht
    subst ht
    split
    · left; apply shutdown_client <;> rw [World.mod_self] <;> assumption
    · right; rw [World.mod_self]; exact .eofRead _
  | data d0 =>
    right
    simp only [hk] at ht
    simp only [Option.map_eq_some_iff] at ht
    obtain ⟨w1, h1, rfl⟩ := ht
    rw [cmdsOf_eq] at h1
    have hi := acts_inv env c none (by simp) _ h hk h1
    have e1 := acts_cown env c _ h hk h1
    rw [deliver_other]
    · rw [World.mod_self]
      exact e1.trans (.flags _ _ _ _ _)
    · rw [World.mod_self]
      intro hh
      have hk1 : (w1.obj c).kind = .client := by rw [hi.2.kind]; exact hk
      exact not_client_of_console (hi.1.l.client_readers hk1 hh) hk1

theorem flush_cown {w : World} (env : Env) (up : Bool) (c : Nat) (r : WriteRes)
    (hk : (w.obj c).kind = .client) (b : Bool) :
    c ∉ (w.flush env up c r).live ∨ COwn env b true (w.obj c) ((w.flush env up c r).obj c) := by
  unfold World.flush
  dsimp only
  split
  · exact Or.inr (.refl _)
  rename_i hf
  have hf : (w.obj c).fd = true := by simpa using hf
  split
  · exact Or.inr (.refl _)
  have e0 : COwn env b true (w.obj c) ((w.push c (r.count (w.obj c).pend.length)).obj c) := by
    unfold World.push; rw [World.mod_self]; exact .push _ _ rfl
  have e1 : COwn env b true (w.obj c) (((w.push c (r.count (w.obj c).pend.length)).drained c).obj c) := by
    refine e0.trans ?_
    unfold World.drained
    split
    · rename_i hp; rw [World.mod_self]; exact .drain _ hp
    · exact .refl _
  have s1 := push_ws w c (r.count (w.obj c).pend.length)
  have s2 := drained_ws (w.push c (r.count (w.obj c).pend.length)) c
  have hf1 : (((w.push c (r.count (w.obj c).pend.length)).drained c).obj c).fd = true := by
    unfold World.drained
    split
    · rw [World.mod_self]; unfold World.push; rw [World.mod_self]; exact hf
    · unfold World.push; rw [World.mod_self]; exact hf
  split
  · exact Or.inl (shutdown_client env up c hf1 (by rw [(s2.loc c).kind, (s1.loc c).kind]; exact hk))
  · exact Or.inr e1

theorem poll_cown {w w' : World} (h : DInv w) (env : Env) (c : Nat) (up : Bool) (rd : Option ReadRes) (wr : Option WriteRes)
    (hk : (w.obj c).kind = .client) (ht : w.step env (.poll c up rd wr) = some w') :
    c ∉ w'.live ∨ COwn env (selfData (w.obj c) rd) true (w.obj c) (w'.obj c) := by
  simp only [World.step] at ht
  split at ht
  · simp only [Option.some.injEq] at ht; subst ht; exact Or.inr (.refl _)
  simp only [Option.map_eq_some_iff] at ht
  obtain ⟨w1, hr, rfl⟩ := ht
  split
  · left; assumption
  rename_i hlv
  have e1 : COwn env (selfData (w.obj c) rd) true (w.obj c) (w1.obj c) ∧ (w1.obj c).kind = .client := by
    cases rd with
    | none => simp only [Option.some.injEq] at hr; subst hr; exact ⟨.refl _, hk⟩
    | some r =>
      refine ⟨?_, by rw [(read_inv h.inv env up c r hr).2.kind]; exact hk⟩
      rcases read_cown h.inv env up c r hk hr with g | g
      · exact absurd g hlv
      · exact g.monoP _
  split
  · exact Or.inr e1.1
  · rename_i r _
    rcases flush_cown (w := w1) env up c r e1.2 (selfData (w.obj c) rd) with g | g
    · exact Or.inl g
    · exact Or.inr (e1.1.trans g)

/-! ### Invariant of live clients -/

structure CInv (o : Obj) : Prop where
  kind : o.kind = .client
  fd : o.fd = true
  pin : o.eof = false → o.pin = true
  pout : o.pend ≠ [] → o.suspend = false → o.pout = true

theorem CInv.write {o : Obj} (h : CInv o) (d : List UInt8) (b : Bool) : CInv (o.write d b) := by
  rcases o.write_cases d b with e | ⟨_, e⟩
  · rw [e]; exact h
  · rw [e]
    refine ⟨h.kind, h.fd, h.pin, fun _ hs => ?_⟩
    dsimp only at hs ⊢
    rw [h.fd, hs]; simp

theorem CInv.passive {o o' : Obj} (p : Passive env o o') : CInv o → CInv o' := by
  induction p with
  | refl => exact id
  | trans _ _ h1 h2 => exact fun h => h2 (h1 h)
  | info => exact fun h => h.write _ _
  | links => exact fun h => ⟨h.kind, h.fd, h.pin, h.pout⟩
  | orphan => exact fun h => ⟨h.kind, h.fd, fun e => by simp at e, h.pout⟩

theorem CInv.ext {b : Bool} {o o' : Obj} (p : Ext env b o o') : CInv o → CInv o' := by
  induction p with
  | refl => exact id
  | trans _ _ h1 h2 => exact fun h => h2 (h1 h)
  | pass p => exact CInv.passive p
  | reset o p t h => exact fun h => ⟨h.kind, h.fd, h.pin, h.pout⟩
  | data => exact fun h => h.write _ _
  | log => exact fun h => ⟨h.kind, h.fd, h.pin, h.pout⟩

theorem CInv.own {b pp : Bool} {o o' : Obj} (p : COwn env b pp o o') : CInv o → CInv o' := by
  induction p with
  | refl => exact id
  | trans _ _ h1 h2 => exact fun h => h2 (h1 h)
  | pass p => exact CInv.passive p
  | data => exact fun h => h.write _ _
  | quiet => exact fun h => ⟨h.kind, h.fd, h.pin, h.pout⟩
  | flags => exact fun h => ⟨h.kind, h.fd, h.pin, h.pout⟩
  | susp o =>
    refine fun h => ⟨h.kind, h.fd, h.pin, fun _ hs => ?_⟩
    dsimp only at hs ⊢
    simp only [Bool.not_eq_eq_eq_not, Bool.not_false] at hs
    rw [hs, h.fd]; rfl
  | eofRead => exact fun h => ⟨h.kind, h.fd, fun e => by simp at e, h.pout⟩
  | push o n =>
    refine fun h => ⟨h.kind, h.fd, h.pin, fun hp hs => h.pout ?_ hs⟩
    intro e; dsimp only at hp; rw [e] at hp; simp at hp
  | drain o hd => exact fun h => ⟨h.kind, h.fd, h.pin, fun hp _ => absurd hd hp⟩

/-- The daemon's invariant with that of live clients. -/
structure EInv (w : World) : Prop where
  d : DInv w
  cl : ∀ c ∈ w.live, (w.obj c).kind = .client → CInv (w.obj c)

theorem newClient_cinv (w : World) (c : Nat) (q : Req) : CInv ((w.newClient c q).obj c) := by
  rw [newClient_obj, if_pos rfl]
  exact ⟨rfl, rfl, fun _ => rfl, fun h => absurd rfl h⟩

theorem grant_own {w : World} (h : WInv w) (env : Env) (c : Nat) (q : Req)
    (hc : c ∉ w.live) (ok : w.reqOk q) : Passive env ((w.newClient c q).obj c) ((w.grant env c q).obj c) := by
  obtain ⟨hnd, hcons⟩ := ok
  have s0 := Setup.init h q hc
  have hk0 : ((w.newClient c q).obj c).kind = .client := by rw [newClient_obj, if_pos rfl]
  have hcl : c ∈ (w.newClient c q).live := by show c ∈ w.live ++ [c]; simp
  have hcons' : ∀ x ∈ q.consoles, x ∈ (w.newClient c q).live ∧ ((w.newClient c q).obj x).kind.isConsole = true := by
    intro x hx
    have := hcons x hx
    have hne : x ≠ c := by rintro rfl; exact hc this.1
    rw [newClient_obj, if_neg hne]
    refine ⟨?_, this.2⟩
    show x ∈ w.live ++ [c]
    simp [this.1]
  have chk : ∀ (v : World) (con : Nat), (v.obj c).kind = .client → Passive env (v.obj c) ((v.checkState env c con).obj c) := by
    intro v con hk
    unfold World.checkState
    split
    · exact .refl _
    · unfold World.note; rw [World.mod_self]; exact .info _ _ _ (by rw [hk]; rfl)
  have back : ∀ (v : World) (con : Nat) (pre : List Nat), Setup (w.newClient c q) v c pre → con ∈ q.consoles →
      Passive env (v.obj c) (((v.linkObjs env con c).checkState env c con).obj c) := by
    intro v con pre s hcon
    have hcc := hcons' con hcon
    have ok : LinkOk v con c := by
      refine ⟨Or.inr ⟨by rw [s.kind]; exact hcc.2, by rw [s.kind, hk0]; rfl⟩, ?_, by rw [s.live]; exact ⟨hcc.1, hcl⟩⟩
      intro hm
      have := (s.inv.l.sym con c).1 hm
      rw [s.wr] at this; simp at this
    have sp := linkObjs_spec s.inv.l env ok
    exact (sp.pstep.touched c).trans (chk _ _ (by rw [sp.pstep.kind, s.kind]; exact hk0))
  have forth : ∀ (v : World) (con : Nat) (pre : List Nat), Setup (w.newClient c q) v c pre → con ∈ q.consoles →
      con ∉ pre → Setup (w.newClient c q) (v.linkObjs env c con) c (pre ++ [con]) ∧
      Passive env (v.obj c) ((v.linkObjs env c con).obj c) := by
    intro v con pre s hcon hn
    obtain ⟨okl, s1⟩ := s.link env hk0 (hcons' con hcon).2 ⟨hcl, (hcons' con hcon).1⟩ hn
    exact ⟨s1, (linkObjs_spec s.inv.l env okl).pstep.touched c⟩
  have fold : ∀ (l : List Nat) (v : World) (pre : List Nat), Setup (w.newClient c q) v c pre →
      (pre ++ l).Nodup → (∀ x ∈ l, x ∈ q.consoles) →
      Passive env (v.obj c) ((l.foldl (fun w con => (w.linkObjs env c con).checkState env c con) v).obj c) := by
    intro l
    induction l with
    | nil => intro v pre _ _ _; exact .refl _
    | cons x l ih =>
      intro v pre s hnd hl
      have hn : x ∉ pre := by
        intro hp
        rw [List.nodup_append] at hnd
        exact hnd.2.2 x hp x (by simp) rfl
      obtain ⟨s1, p1⟩ := forth v x pre s (hl x (by simp)) hn
      have hk1 : ((v.linkObjs env c x).obj c).kind = .client := by rw [s1.kind]; exact hk0
      rw [List.foldl_cons]
      exact (p1.trans (chk _ x hk1)).trans (ih _ _ (s1.lstep (checkState_lstep _ env c x hk1)) (by simpa using hnd)
        (fun y hy => hl y (by simp [hy])))
  unfold World.grant
  simp only
  split
  · rename_i con t _ hcs
    exact back _ con [] s0 (by simp [hcs])
  · rename_i con hcm hcs
    have hm : con ∈ q.consoles := by simp [hcs]
    obtain ⟨s1, p1⟩ := forth _ con [] s0 hm (by simp)
    exact p1.trans (back _ con _ s1 hm)
  · exact fold q.consoles _ [] s0 (by simpa using hnd) (fun _ h => h)
  · exact .refl _

/-- Which objects are live after a step. -/
theorem step_live {env : Env} {w w' : World} (h : DInv w) (s : Step) (hs : w.step env s = some w') :
    (∀ j, j ∈ w'.live → j ∈ w.live ∨ ∃ k q, s = .grant j k ∧ w.wait[k]? = some q ∧ j ∉ w.live ∧
      w' = ({ w with wait := w.wait.eraseIdx k } : World).grant env j q) ∧
    (∀ j ∈ w.live, j ∈ w'.live ∨ (s.target = some j ∧ (w.obj j).kind = .client)) ∧
    (∀ j ∈ w.live, (w'.obj j).kind = (w.obj j).kind) := by
  have kq : ∀ i, Kq w w' i → (s.target = some i) →
    (∀ j, j ∈ w'.live → j ∈ w.live ∨ ∃ k q, s = .grant j k ∧ w.wait[k]? = some q ∧ j ∉ w.live ∧
      w' = ({ w with wait := w.wait.eraseIdx k } : World).grant env j q) ∧
    (∀ j ∈ w.live, j ∈ w'.live ∨ (s.target = some j ∧ (w.obj j).kind = .client)) ∧
    (∀ j ∈ w.live, (w'.obj j).kind = (w.obj j).kind) := by
    intro i k hi
    refine ⟨fun j hj => Or.inl ?_, fun j hj => ?_, fun j _ => k.kind j⟩
    · rcases k.live with e | ⟨_, e⟩
      · rw [e] at hj; exact hj
      · rw [e] at hj; exact (List.mem_filter.1 hj).1
    · rcases k.live with e | ⟨e1, e⟩
      · rw [e]; exact Or.inl hj
      · by_cases hji : j = i
        · subst hji; exact Or.inr ⟨hi, e1⟩
        · left; rw [e]; exact List.mem_filter.2 ⟨hj, by simp [hji]⟩
  have same : w'.live = w.live → (∀ j, (w'.obj j).kind = (w.obj j).kind) →
    (∀ j, j ∈ w'.live → j ∈ w.live ∨ ∃ k q, s = .grant j k ∧ w.wait[k]? = some q ∧ j ∉ w.live ∧
      w' = ({ w with wait := w.wait.eraseIdx k } : World).grant env j q) ∧
    (∀ j ∈ w.live, j ∈ w'.live ∨ (s.target = some j ∧ (w.obj j).kind = .client)) ∧
    (∀ j ∈ w.live, (w'.obj j).kind = (w.obj j).kind) := by
    intro e k
    exact ⟨fun j hj => Or.inl (by rw [e] at hj; exact hj), fun j hj => Or.inl (by rw [e]; exact hj), fun j _ => k j⟩
  have modk : ∀ (i : Nat) (f : Obj → Obj), w' = w.mod i f → (∀ o, (f o).kind = o.kind) →
    (∀ j, j ∈ w'.live → j ∈ w.live ∨ ∃ k q, s = .grant j k ∧ w.wait[k]? = some q ∧ j ∉ w.live ∧
      w' = ({ w with wait := w.wait.eraseIdx k } : World).grant env j q) ∧
    (∀ j ∈ w.live, j ∈ w'.live ∨ (s.target = some j ∧ (w.obj j).kind = .client)) ∧
    (∀ j ∈ w.live, (w'.obj j).kind = (w.obj j).kind) := by
    rintro i f e hf
    apply same
    · rw [e]; rfl
    · intro j; rw [e, World.mod_obj]; split
      · exact hf _
      · rfl
  cases s with
  | check q =>
    simp only [World.step, Option.some.injEq] at hs
    apply same
    · subst hs; split <;> rfl
    · intro j; subst hs; split <;> rfl
  | grant c k =>
    simp only [World.step, Option.some.injEq] at hs
    split at hs
    · rename_i q hq
      split at hs
      · exact same (by rw [hs]) (by rw [hs]; exact fun _ => rfl)
      · rename_i hc
        have h0 := h.unwait (w.wait.eraseIdx k) (fun q hq => List.mem_of_mem_eraseIdx hq)
        have hok := h.wait q (List.mem_of_getElem? hq)
        have g := (grant_inv h0.inv env c q hok.1 hc hok.2).2
        rw [hs] at g
        refine ⟨fun j hj => ?_, fun j hj => Or.inl ?_, fun j hj => ?_⟩
        · rw [g.live] at hj
          have hj : j ∈ w.live ++ [c] := hj
          simp only [List.mem_append, List.mem_singleton] at hj
          rcases hj with hj | rfl
          · exact Or.inl hj
          · exact Or.inr ⟨k, q, rfl, hq, hc, hs.symm⟩
        · rw [g.live]; show j ∈ w.live ++ [c]; simp [hj]
        · have hne : j ≠ c := by rintro rfl; exact hc hj
          rw [g.kind, newClient_obj, if_neg hne]
    · exact same (by rw [hs]) (by rw [hs]; exact fun _ => rfl)
  | poll i up rd wr =>
    simp only [World.step] at hs
    split at hs
    · simp only [Option.some.injEq] at hs; exact same (by rw [hs]) (by rw [hs]; exact fun _ => rfl)
    simp only [Option.map_eq_some_iff] at hs
    obtain ⟨w1, hr, hw⟩ := hs
    have h1 : Kq w w1 i ∧ WInv w1 := by
      cases rd with
      | none => simp only [Option.some.injEq] at hr; subst hr; exact ⟨(Kp.refl _).kq i, h.inv⟩
      | some r => exact ⟨(read_inv h.inv env up i r hr).2, (read_inv h.inv env up i r hr).1⟩
    by_cases hl : i ∈ w1.live
    case neg => rw [if_pos hl] at hw; subst hw; exact kq i h1.1 rfl
    rw [if_neg (by simpa using hl)] at hw
    have e1 : Kp w w1 := by
      refine ⟨h1.1.kind, ?_, h1.1.wait⟩
      rcases h1.1.live with e | ⟨_, e⟩
      · exact e
      · rw [e] at hl; simp at hl
    split at hw
    · subst hw; exact kq i (e1.kq i) rfl
    · subst hw
      exact kq i (e1.transq (flush_inv h1.2 env up i _).2) rfl
  | connUp i =>
    simp only [World.step, Option.some.injEq] at hs
    split at hs
    · subst hs; exact kq i ((connUp_inv h.inv env i).2.kq i) rfl
    · exact same (by rw [hs]) (by rw [hs]; exact fun _ => rfl)
  | connPend i =>
    simp only [World.step, Option.some.injEq] at hs
    split at hs
    · exact modk i _ hs.symm (fun _ => rfl)
    · exact same (by rw [hs]) (by rw [hs]; exact fun _ => rfl)
  | connDown i =>
    simp only [World.step, Option.some.injEq] at hs
    split at hs
    · exact modk i _ hs.symm (fun _ => rfl)
    · exact same (by rw [hs]) (by rw [hs]; exact fun _ => rfl)
  | connFail i =>
    simp only [World.step, Option.some.injEq] at hs
    split at hs
    · rename_i hk'
      subst hs
      exact kq i ((notify_step h.inv.l env i (.connFailed i) (by rw [hk'.2.1]; rfl)).lstep.kp.kq i) rfl
    · exact same (by rw [hs]) (by rw [hs]; exact fun _ => rfl)
  | resetTimeout con =>
    simp only [World.step, Option.some.injEq] at hs
    split at hs
    · have e : ∀ j, w'.obj j = (w.mod con (fun o => { o with resetPid := none, resetTimer := false })).obj j := by
        intro j; subst hs
        split
        · rfl
        · split <;> rfl
      apply same
      · subst hs
        split
        · rfl
        · split <;> rfl
      · intro j; rw [e j, World.mod_obj]; split <;> rfl
    · exact same (by rw [hs]) (by rw [hs]; exact fun _ => rfl)
  | childExit con pid =>
    simp only [World.step, Option.some.injEq] at hs
    subst hs
    exact same rfl (fun _ => rfl)
  | logOpen i okk =>
    simp only [World.step, Option.some.injEq] at hs
    split at hs
    · refine modk i _ hs.symm (fun o => ?_)
      split
      · exact (SameFlags.write _ _ _).kind
      · rfl
    · exact same (by rw [hs]) (by rw [hs]; exact fun _ => rfl)
  | logStamp i =>
    simp only [World.step, Option.some.injEq] at hs
    split at hs
    · exact modk i _ hs.symm (fun o => (SameFlags.write _ _ _).kind)
    · exact same (by rw [hs]) (by rw [hs]; exact fun _ => rfl)

/-- Steps whose target is a live client and that is not a poll do nothing to it but messages. -/
theorem step_client_target {env : Env} {w w' : World} (s : Step) (hs : w.step env s = some w') {c : Nat}
    (hl : c ∈ w.live) (hk : (w.obj c).kind = .client) (ht : s.target = some c) (hp : ∀ up rd wr, s ≠ .poll c up rd wr) :
    w'.obj c = w.obj c ∨
      w'.obj c = { w.obj c with resetPid := none, resetTimer := false } := by
  cases s with
  | check q => simp [Step.target] at ht
  | grant c' k =>
    simp only [Step.target, Option.some.injEq] at ht; subst ht
    simp only [World.step, Option.some.injEq] at hs
    split at hs
    · rw [if_pos hl] at hs; subst hs; exact Or.inl rfl
    · subst hs; exact Or.inl rfl
  | poll i up rd wr => simp only [Step.target, Option.some.injEq] at ht; subst ht; exact absurd rfl (hp up rd wr)
  | connUp i =>
    simp only [Step.target, Option.some.injEq] at ht; subst ht
    simp only [World.step, Option.some.injEq, World.connUp] at hs
    simp only [hk, OKind.isConsole, if_true] at hs
    rw [← hs]; left; split <;> rfl
  | connPend i =>
    simp only [Step.target, Option.some.injEq] at ht; subst ht
    simp only [World.step, Option.some.injEq] at hs
    rw [if_neg (by rw [hk]; simp)] at hs; subst hs; exact Or.inl rfl
  | connDown i =>
    simp only [Step.target, Option.some.injEq] at ht; subst ht
    simp only [World.step, Option.some.injEq] at hs
    rw [if_neg (by rw [hk]; simp)] at hs; subst hs; exact Or.inl rfl
  | connFail i =>
    simp only [Step.target, Option.some.injEq] at ht; subst ht
    simp only [World.step, Option.some.injEq] at hs
    rw [if_neg (by rw [hk]; simp)] at hs; subst hs; exact Or.inl rfl
  | resetTimeout con =>
    simp only [Step.target, Option.some.injEq] at ht; subst ht
    simp only [World.step, Option.some.injEq] at hs
    split at hs
    · right
      subst hs
      split
      · rw [World.mod_self]
      · split
        · dsimp only; rw [World.mod_self]
        · rw [World.mod_self]
    · subst hs; exact Or.inl rfl
  | childExit con pid => simp [Step.target] at ht
  | logOpen i okk =>
    simp only [Step.target, Option.some.injEq] at ht; subst ht
    simp only [World.step, Option.some.injEq] at hs
    rw [if_neg (by rw [hk]; simp)] at hs; subst hs; exact Or.inl rfl
  | logStamp i =>
    simp only [Step.target, Option.some.injEq] at ht; subst ht
    simp only [World.step, Option.some.injEq] at hs
    rw [if_neg (by rw [hk]; simp)] at hs; subst hs; exact Or.inl rfl

theorem EInv.step {env : Env} {w w' : World} (h : EInv w) (s : Step) (hs : w.step env s = some w') : EInv w' := by
  refine ⟨world_step_inv h.d env s hs, fun c hc hk => ?_⟩
  obtain ⟨l1, l2, l3⟩ := step_live h.d s hs
  rcases l1 c hc with hl | ⟨k, q, rfl, hq, hn, rfl⟩
  · have hk0 : (w.obj c).kind = .client := by rw [← l3 c hl]; exact hk
    have c0 := h.cl c hl hk0
    by_cases ht : s.target = some c
    · by_cases hp : ∃ up rd wr, s = .poll c up rd wr
      · obtain ⟨up, rd, wr, rfl⟩ := hp
        rcases poll_cown h.d env c up rd wr hk0 hs with g | g
        · exact absurd hc g
        · exact c0.own g
      · rcases step_client_target s hs hl hk0 ht (by intro up rd wr e; exact hp ⟨up, rd, wr, e⟩) with g | g
        · rw [g]; exact c0
        · rw [g]; exact ⟨c0.kind, c0.fd, c0.pin, c0.pout⟩
    · exact c0.ext (step_ext h.d env s hs c ht)
  · have h0 := h.d.unwait (w.wait.eraseIdx k) (fun q hq => List.mem_of_mem_eraseIdx hq)
    have hok := h.d.wait q (List.mem_of_getElem? hq)
    exact (newClient_cinv _ c q).passive (grant_own h0.inv env c q hn hok.2)

theorem Reachable.einv {env : Env} {w : World} (h : Reachable env w) : EInv w := by
  obtain ⟨cfg, ss, hc, hr⟩ := h
  refine world_run_inv (P := EInv) env (fun w s w' h hs => h.step s hs)
    (fun w n h => ⟨h.d.tick n, h.cl⟩) ss ?_ hr
  refine ⟨Reachable.inv (env := env) ⟨cfg, [], hc, rfl⟩, fun c hl hk => ?_⟩
  exfalso
  obtain ⟨x, hx, hl⟩ := (boot_live cfg c).1 hl
  rw [boot_obj, hx] at hk
  have hxc := hc x (List.mem_of_getElem? hx)
  dsimp only at hk
  split at hk
  · dsimp only at hk; rw [hk] at hxc; simp [OKind.isConsole] at hxc
  · rename_i h0
    rcases hl with hl | hl
    · exact h0 hl
    · cases hlog : x.log with
      | none => rw [hlog] at hl; simp at hl
      | some o => rw [hlog] at hk; simp at hk

end Conman
