import Verif.Lemma.WorldLink

/-
Links between a console and its log never change.
-/
namespace Conman
open Spec

/-- Links without a client stay, and so do the kinds of their ends. -/
def LKeep (w w' : World) : Prop := ∀ a b, b ∈ (w.obj a).readers → (w.obj a).kind ≠ .client → (w.obj b).kind ≠ .client →
  b ∈ (w'.obj a).readers ∧ (w'.obj a).kind = (w.obj a).kind ∧ (w'.obj b).kind = (w.obj b).kind

theorem LKeep.refl (w : World) : LKeep w w := fun _ _ h _ _ => ⟨h, rfl, rfl⟩
theorem LKeep.trans {u v w : World} (h : LKeep u v) (h' : LKeep v w) : LKeep u w := by
  intro a b hb ha hk
  obtain ⟨h1, h2, h3⟩ := h a b hb ha hk
  obtain ⟨g1, g2, g3⟩ := h' a b h1 (by rw [h2]; exact ha) (by rw [h3]; exact hk)
  exact ⟨g1, by rw [g2, h2], by rw [g3, h3]⟩
theorem SL.lk {w w' : World} (h : SL w w') : LKeep w w' := fun a b hb _ _ =>
  ⟨by rw [(h.1 a).2.1]; exact hb, (h.1 a).1, (h.1 b).1⟩
theorem SL.modk (w : World) (i : Nat) (f : Obj → Obj) (h1 : (f (w.obj i)).kind = (w.obj i).kind)
    (h2 : (f (w.obj i)).readers = (w.obj i).readers) (h3 : (f (w.obj i)).writers = (w.obj i).writers) : SL w (w.mod i f) := by
  refine ⟨fun j => ?_, rfl⟩
  rw [World.mod_obj]
  split
  · rename_i e; subst e; exact ⟨h1, h2, h3⟩
  · exact ⟨rfl, rfl, rfl⟩

theorem unlinkObj_lk {w : World} (h : LInv w) (env : Env) (i : Nat) (hk : (w.obj i).kind = .client) : LKeep w (w.unlinkObj env i) := by
  intro a b hb ha hkb
  have u := unlinkObj_spec h env i
  have h1 : a ≠ i := by rintro rfl; exact ha hk
  have h2 : b ≠ i := by rintro rfl; exact hkb hk
  refine ⟨?_, u.pstep.kind a, u.pstep.kind b⟩
  rw [u.rd a, if_neg h1, List.mem_filter]
  exact ⟨hb, by simpa using h2⟩

theorem linkObjs_lk {w : World} (h : LInv w) (env : Env) {src dst : Nat} (ok : LinkOk w src dst) : LKeep w (w.linkObjs env src dst) := by
  intro a b hb ha hkb
  have sp := linkObjs_spec h env ok
  refine ⟨?_, sp.pstep.kind a, sp.pstep.kind b⟩
  rw [sp.rd a, if_neg (fun g => ha (stealSet_client h g)), List.mem_append, List.mem_filter]
  exact Or.inl ⟨hb, by simpa using fun g => hkb (stealSet_client h g)⟩

theorem shutdown_lk {w : World} (h : WInv w) (env : Env) (up : Bool) (i : Nat) : LKeep w (w.shutdown env up i) := by
  unfold World.shutdown
  split
  · exact .refl _
  simp only
  have hsl : SL w (w.mod i (fun o =>
      { o with fd := false, pin := false, pout := false, pend := [], eof := false, gen := o.gen + 1, hist := o.hist ++ [none] })) := .modk _ _ _ rfl rfl rfl
  generalize (w.mod i (fun o =>
      { o with fd := false, pin := false, pout := false, pend := [], eof := false, gen := o.gen + 1, hist := o.hist ++ [none] })) = w1 at hsl ⊢
  have hl1 := h.l.same hsl
  have fin : ∀ v, SL w1 v → ∀ n, (v.obj i).kind.isConsole = true → LKeep w (v.notify env i n) := by
    intro v hv n hk
    exact hsl.lk.trans (hv.lk.trans (notify_step (hl1.same hv) env i n hk).lstep.sl.lk)
  cases hk : (w1.obj i).kind
  case client => exact hsl.lk.trans (unlinkObj_lk hl1 env i hk)
  case logfile => exact hsl.lk
  case serial =>
    have hs2 : SL w1 (w1.mod i (fun o => { o with fd := up, pin := up })) := .modk _ _ _ rfl rfl rfl
    simp only
    split
    · exact fin _ hs2 _ (by rw [(hs2.1 i).1, hk]; rfl)
    · exact hsl.lk.trans hs2.lk
  case test => exact hsl.lk.trans (SL.modk _ _ _ rfl rfl rfl).lk
  all_goals
    have hs2 : SL w1 (w1.mod i (fun o => { o with conn := .down })) := .modk _ _ _ rfl rfl rfl
    exact fin _ hs2 _ (by rw [(hs2.1 i).1, hk]; rfl)

theorem toggle_lk {w w' : World} {x : Option Nat} (h : WInvX w x) (env : Env) (c : Nat) (hx : some c ≠ x)
    (hk : (w.obj c).kind = .client) (ht : w.toggle env c = some w') : LKeep w w' := by
  unfold World.toggle at ht
  split at ht
  · simp only [Option.some.injEq] at ht; subst ht; exact .refl _
  rename_i hb
  have hb : (w.obj c).bcast = false := by simpa using hb
  split at ht
  · simp at ht
  rename_i con t hw
  have hcon : (w.obj con).kind.isConsole = true := h.l.client_writers hk (x := con) (by simp [hw])
  have hlv := h.l.live con c ((h.l.sym con c).2 (by simp [hw]))
  have hms : ∀ cm, LStep w (w.mod c (fun o => { o with cmd := cm })) := fun cm =>
    .mod _ _ _ ⟨rfl, rfl, rfl, rfl, rfl, rfl, rfl, fun h => ⟨h.cap, h.susp, h.closed⟩⟩
  split at ht
  · simp only [Option.some.injEq] at ht
    subst ht
    have s := hms .monitor
    have u := unlinkObjs_spec (h.wstep s.ws).l env c con
    refine s.sl.lk.trans (fun a b hb' ha _ => ⟨?_, u.pstep.kind a, u.pstep.kind b⟩)
    rw [u.rd a, if_neg]
    · exact hb'
    · rintro rfl; rw [(s.loc a).kind] at ha; exact ha hk
  · rename_i hne
    simp only [Option.some.injEq] at ht
    have hr : (w.obj c).readers = [] := by simpa using hne
    subst ht
    have s := hms .connect
    have ok : LinkOk (w.mod c (fun o => { o with cmd := .connect })) c con := by
      refine ⟨Or.inl ⟨?_, ?_⟩, ?_, ?_⟩
      · rw [(s.loc c).kind]; exact hk
      · rw [(s.loc con).kind]; exact hcon
      · rw [(s.loc c).rd, hr]; simp
      · rw [s.live]; exact ⟨hlv.2, hlv.1⟩
    exact s.sl.lk.trans (linkObjs_lk (h.wstep s.ws).l env ok)

theorem act_lk {w w' : World} {x : Option Nat} (h : WInvX w x) (env : Env) (c : Nat) (hx : some c ≠ x)
    (hk : (w.obj c).kind = .client) (a : UInt8) (ht : w.act env c a = some w') : LKeep w w' := by
  have htog : ∀ f j, (w.mod c (fun o => { o with force := f, join := j })).toggle env c = some w' → LKeep w w' := by
    intro f j hh
    have s : LStep w (w.mod c (fun o => { o with force := f, join := j })) :=
      .mod _ _ _ ⟨rfl, rfl, rfl, rfl, rfl, rfl, rfl, fun h => ⟨h.cap, h.susp, h.closed⟩⟩
    exact s.sl.lk.trans (toggle_lk (h.wstep s.ws) env c hx (by rw [(s.loc c).kind]; exact hk) hh)
  rcases act_links h env c hx hk a ht with ⟨hs, _⟩ | ⟨_, l⟩
  · simp only [isSwitch, Bool.or_eq_true, decide_eq_true_eq] at hs
    rcases hs with (rfl | rfl) | rfl
    · exact htog true false ht
    · exact htog false true ht
    · exact htog false false ht
  · exact l.sl.lk

theorem acts_lk (env : Env) (c : Nat) (as : List UInt8) : ∀ {w w' : World}, WInv w → (w.obj c).kind = .client →
    w.acts env c as = some w' → LKeep w w' := by
  induction as with
  | nil => intro w w' _ _ ht; simp only [World.acts, Option.some.injEq] at ht; subst ht; exact .refl _
  | cons a as ih =>
    intro w w' h hk ht
    simp only [World.acts, Option.bind_eq_some_iff] at ht
    obtain ⟨w1, h1, h2⟩ := ht
    obtain ⟨h3, h4⟩ := act_inv h env c (by simp) hk a h1
    exact (act_lk h env c (by simp) hk a h1).trans (ih h3 (by rw [h4.kind]; exact hk) h2)

theorem read_lk {w w' : World} (h : WInv w) (env : Env) (up : Bool) (i : Nat) (r : ReadRes)
    (ht : w.read env up i r = some w') : LKeep w w' := by
  unfold World.read at ht
  split at ht
  · simp only [Option.some.injEq] at ht; subst ht; exact .refl _
  split at ht
  · simp only [Option.some.injEq] at ht; subst ht; exact .refl _
  cases hr : (if (w.obj i).kind = .logfile then .err else r : ReadRes) with
  | again => simp only [hr, Option.some.injEq] at ht; subst ht; exact .refl _
  | err => simp only [hr, Option.some.injEq] at ht; subst ht; exact shutdown_lk h env up i
  | eof =>
    simp only [hr, Option.some.injEq] at ht
    have s1 : WStep w (w.mod i (fun o => { o with eof := true, pin := false })) := by
      refine .mod _ _ _ ⟨rfl, rfl, rfl, rfl, fun _ _ => rfl, fun ho => ⟨ho.cap, ho.susp, ?_⟩⟩
      intro hf; exact ⟨rfl, (ho.closed hf).2⟩
    subst ht
    split
    · exact s1.sl.lk.trans (shutdown_lk (h.wstep s1) env up i)
    · exact s1.sl.lk
  | data d0 =>
    simp only [hr] at ht
    split at ht
    · rename_i hk
      simp only [Option.map_eq_some_iff] at ht
      obtain ⟨w1, h1, rfl⟩ := ht
      have s1 : LStep w1 (w1.mod i (fun o => { o with
          gotEscape := (processClientEscapes (w.obj i).gotEscape (d0.take readBufSize)).gotEscape })) :=
        .mod _ _ _ ⟨rfl, rfl, rfl, rfl, rfl, rfl, rfl, fun h => ⟨h.cap, h.susp, h.closed⟩⟩
      exact (acts_lk env i _ h hk h1).trans (s1.trans (deliver_lstep _ env i _)).sl.lk
    · simp only [Option.map_eq_some_iff] at ht
      obtain ⟨t, h1, rfl⟩ := ht
      have s1 : LStep w (w.mod i (fun o => ({ o with iac := t.iac }).write t.sent false)) := by
        refine .mod _ _ _ (OLoc.trans ?_ (.write _ _ _))
        exact ⟨rfl, rfl, rfl, rfl, rfl, rfl, rfl, fun h => ⟨h.cap, h.susp, h.closed⟩⟩
      exact (s1.trans (deliver_lstep _ env i (t.buf.take t.len))).sl.lk
    · simp only [Option.some.injEq] at ht
      subst ht
      exact (deliver_lstep w env i (d0.take readBufSize)).sl.lk

theorem flush_lk {w : World} (h : WInv w) (env : Env) (up : Bool) (i : Nat) (r : WriteRes) : LKeep w (w.flush env up i r) := by
  unfold World.flush
  simp only
  have s1 := push_ws w i (r.count (w.obj i).pend.length)
  have s2 := drained_ws (w.push i (r.count (w.obj i).pend.length)) i
  split
  · exact .refl _
  split
  · exact .refl _
  split
  · exact s1.sl.lk.trans (s2.sl.lk.trans (shutdown_lk ((h.wstep s1).wstep s2) env up i))
  · exact s1.sl.lk.trans s2.sl.lk

theorem connUp_lk {w : World} (h : WInv w) (env : Env) (i : Nat) : LKeep w (w.connUp env i) := by
  unfold World.connUp
  simp only
  split
  · exact .refl _
  rename_i hk
  have hk : (w.obj i).kind.isConsole = true := by simpa using hk
  split
  · exact .refl _
  have s1 : SL w (w.mod i (fun o => { o with fd := true, pin := true, conn := .up, eof := false })) := .modk _ _ _ rfl rfl rfl
  generalize (w.mod i (fun o => { o with fd := true, pin := true, conn := .up, eof := false })) = v at s1 ⊢
  have s2 : SL v (if (w.obj i).kind = .test then v else v.notify env i (.connected i)) := by
    split
    · exact ⟨fun _ => ⟨rfl, rfl, rfl⟩, rfl⟩
    · exact (notify_step (h.l.same s1) env i _ (by rw [(s1.1 i).1]; exact hk)).lstep.sl
  refine s1.lk.trans (s2.lk.trans ?_)
  generalize (if (w.obj i).kind = .test then v else v.notify env i (.connected i)) = u
  split
  · exact (LStep.mod _ i (·.write telHello false) (.write _ _ _)).sl.lk
  · exact .refl _

theorem grant_lk {w : World} (h : WInv w) (env : Env) (c : Nat) (q : Req) (hc : c ∉ w.live) (ok : w.reqOk q) :
    LKeep w (w.grant env c q) := by
  obtain ⟨hnd, hcons⟩ := ok
  have s0 := Setup.init h q hc
  have hk0 : ((w.newClient c q).obj c).kind = .client := by rw [newClient_obj, if_pos rfl]
  have hcl : c ∈ (w.newClient c q).live := by show c ∈ w.live ++ [c]; simp
  have hcons' : ∀ x ∈ q.consoles, x ∈ (w.newClient c q).live ∧ ((w.newClient c q).obj x).kind.isConsole = true := by
    intro x hx
    have := hcons x hx
    have hne : x ≠ c := by rintro rfl; exact hc this.1
    rw [newClient_obj, if_neg hne]
    refine ⟨?_, this.2⟩
    show x ∈ w.live ++ [c]
    simp [this.1]
  have n0 : LKeep w (w.newClient c q) := by
    intro a b hb _ _
    have := h.l.live a b hb
    have ha : a ≠ c := by rintro rfl; exact hc this.1
    have hb' : b ≠ c := by rintro rfl; exact hc this.2
    rw [newClient_obj, newClient_obj, if_neg ha, if_neg hb']; exact ⟨hb, rfl, rfl⟩
  have chk : ∀ (v : World) (con : Nat), (v.obj c).kind = .client → LStep v (v.checkState env c con) :=
    fun v con hk => checkState_lstep v env c con hk
  have back : ∀ (v : World) (con : Nat) (pre : List Nat), Setup (w.newClient c q) v c pre → con ∈ q.consoles →
      LKeep v ((v.linkObjs env con c).checkState env c con) := by
    intro v con pre s hcon
    have hcc := hcons' con hcon
    have ok : LinkOk v con c := by
      refine ⟨Or.inr ⟨by rw [s.kind]; exact hcc.2, by rw [s.kind, hk0]; rfl⟩, ?_, by rw [s.live]; exact ⟨hcc.1, hcl⟩⟩
      intro hm
      have := (s.inv.l.sym con c).1 hm
      rw [s.wr] at this; simp at this
    have sp := linkObjs_spec s.inv.l env ok
    exact (linkObjs_lk s.inv.l env ok).trans (chk (v.linkObjs env con c) con (by rw [sp.pstep.kind, s.kind]; exact hk0)).sl.lk
  have forth : ∀ (v : World) (con : Nat) (pre : List Nat), Setup (w.newClient c q) v c pre → con ∈ q.consoles →
      con ∉ pre → Setup (w.newClient c q) (v.linkObjs env c con) c (pre ++ [con]) ∧ LKeep v (v.linkObjs env c con) := by
    intro v con pre s hcon hn
    obtain ⟨okl, s1⟩ := s.link env hk0 (hcons' con hcon).2 ⟨hcl, (hcons' con hcon).1⟩ hn
    exact ⟨s1, linkObjs_lk s.inv.l env okl⟩
  have fold : ∀ (l : List Nat) (v : World) (pre : List Nat), Setup (w.newClient c q) v c pre →
      (pre ++ l).Nodup → (∀ x ∈ l, x ∈ q.consoles) →
      LKeep v (l.foldl (fun w con => (w.linkObjs env c con).checkState env c con) v) := by
    intro l
    induction l with
    | nil => intro v pre _ _ _; exact .refl _
    | cons x l ih =>
      intro v pre s hnd hl
      have hn : x ∉ pre := by
        intro hp
        rw [List.nodup_append] at hnd
        exact hnd.2.2 x hp x (by simp) rfl
      obtain ⟨s1, k1⟩ := forth v x pre s (hl x (by simp)) hn
      have ll := chk (v.linkObjs env c x) x (by rw [s1.kind]; exact hk0)
      rw [List.foldl_cons]
      exact k1.trans (ll.sl.lk.trans (ih _ _ (s1.lstep ll) (by simpa using hnd) (fun y hy => hl y (by simp [hy]))))
  unfold World.grant
  simp only
  split
  · rename_i con t _ hcs
    exact n0.trans (back _ con [] s0 (by simp [hcs]))
  · rename_i con hcm hcs
    have hm : con ∈ q.consoles := by simp [hcs]
    obtain ⟨s1, k1⟩ := forth _ con [] s0 hm (by simp)
    exact n0.trans (k1.trans (back _ con _ s1 hm))
  · exact n0.trans (fold q.consoles _ [] s0 (by simpa using hnd) (fun _ h => h))
  · exact n0

/-- A link without a client survives every step. -/
theorem step_lk {env : Env} {w w' : World} (h : DInv w) (s : Step) (hs : w.step env s = some w') : LKeep w w' := by
  have triv : w' = w → LKeep w w' := by rintro rfl; exact .refl _
  cases s with
  | check q =>
    simp only [World.step, Option.some.injEq] at hs
    subst hs
    split
    · exact SL.lk ⟨fun j => ⟨rfl, rfl, rfl⟩, rfl⟩
    · exact .refl _
  | grant c k =>
    simp only [World.step, Option.some.injEq] at hs
    split at hs
    · rename_i q hq
      split at hs
      · exact triv hs.symm
      · rename_i hc
        subst hs
        have hwk := h.wait q (List.mem_of_getElem? hq)
        exact grant_lk (w := ({ w with wait := w.wait.eraseIdx k } : World))
          (h.unwait (w.wait.eraseIdx k) (fun q hq => List.mem_of_mem_eraseIdx hq)).inv env c q hc hwk.2
    · exact triv hs.symm
  | poll i up rd wr =>
    simp only [World.step] at hs
    split at hs
    · simp only [Option.some.injEq] at hs; exact triv hs.symm
    simp only [Option.map_eq_some_iff] at hs
    obtain ⟨w1, hr, hw1⟩ := hs
    have h1 : WInv w1 ∧ LKeep w w1 := by
      cases rd with
      | none => simp only [Option.some.injEq] at hr; subst hr; exact ⟨h.inv, .refl _⟩
      | some r => exact ⟨(read_inv h.inv env up i r hr).1, read_lk h.inv env up i r hr⟩
    refine h1.2.trans ?_
    subst hw1
    split
    · exact .refl _
    · split
      · exact .refl _
      · exact flush_lk h1.1 env up i _
  | connUp i =>
    simp only [World.step, Option.some.injEq] at hs
    subst hs
    split
    · exact connUp_lk h.inv env i
    · exact .refl _
  | connPend i =>
    simp only [World.step, Option.some.injEq] at hs
    subst hs
    split
    · exact (SL.modk _ _ _ rfl rfl rfl).lk
    · exact .refl _
  | connDown i =>
    simp only [World.step, Option.some.injEq] at hs
    subst hs
    split
    · exact (SL.modk _ _ _ rfl rfl rfl).lk
    · exact .refl _
  | connFail i =>
    simp only [World.step, Option.some.injEq] at hs
    subst hs
    split
    · rename_i hk
      exact (notify_step h.inv.l env i (.connFailed i) (by rw [hk.2.1]; rfl)).lstep.sl.lk
    · exact .refl _
  | resetTimeout con =>
    simp only [World.step, Option.some.injEq] at hs
    have e : SL w (w.mod con (fun o => { o with resetPid := none, resetTimer := false })) := .modk _ _ _ rfl rfl rfl
    subst hs
    split
    · split
      · exact e.lk
      · split
        · exact SL.lk (w' := { w.mod con (fun o => { o with resetPid := none, resetTimer := false }) with running := _, fx := _ }) e
        · exact e.lk
    · exact .refl _
  | childExit con pid =>
    simp only [World.step, Option.some.injEq] at hs
    subst hs
    exact SL.lk ⟨fun j => ⟨rfl, rfl, rfl⟩, rfl⟩
  | logOpen i okk =>
    simp only [World.step, Option.some.injEq] at hs
    subst hs
    split
    · refine (SL.modk _ _ _ ?_ ?_ ?_).lk
      all_goals
        split
        · first
            | exact (SameFlags.write _ _ _).kind
            | exact (OLoc.write _ _ _).rd
            | exact (OLoc.write _ _ _).wr
        · rfl
    · exact .refl _
  | logStamp i =>
    simp only [World.step, Option.some.injEq] at hs
    subst hs
    split
    · exact (SL.modk _ _ _ (OLoc.write _ _ _).kind (OLoc.write _ _ _).rd (OLoc.write _ _ _).wr).lk
    · exact .refl _

end Conman
