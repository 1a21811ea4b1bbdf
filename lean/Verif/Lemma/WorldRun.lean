import Verif.Lemma.WorldStep

namespace Conman

theorem LInv.fresh {w : World} (h : LInv w) {c : Nat} (hc : c ∉ w.live) :
    (w.obj c).readers = [] ∧ (w.obj c).writers = [] ∧ ∀ j, c ∉ (w.obj j).readers ∧ c ∉ (w.obj j).writers := by
  refine ⟨?_, ?_, fun j => ⟨fun hj => hc (h.live j c hj).2, fun hj => hc (h.live c j ((h.sym c j).2 hj)).1⟩⟩
  · apply List.eq_nil_iff_forall_not_mem.2
    intro b hb; exact hc (h.live c b hb).1
  · apply List.eq_nil_iff_forall_not_mem.2
    intro b hb; exact hc (h.live b c ((h.sym b c).2 hb)).2

theorem newClient_obj (w : World) (c : Nat) (q : Req) (j : Nat) :
    (w.newClient c q).obj j = if j = c then
      { kind := .client, fd := true, pin := true, quiet := q.quiet, force := q.force, join := q.join,
        bcast := q.bcast, cmd := q.cmd, gen := (w.obj j).gen } else w.obj j := rfl

theorem newClient_inv {w : World} (h : WInv w) {c : Nat} (q : Req) (hc : c ∉ w.live) :
    WInvX (w.newClient c q) (some c) := by
  obtain ⟨hr, hw, hno⟩ := h.l.fresh hc
  have hlive : (w.newClient c q).live = w.live ++ [c] := rfl
  have hmem : ∀ a b, b ∈ ((w.newClient c q).obj a).readers ↔ b ∈ (w.obj a).readers := by
    intro a b; rw [newClient_obj]; split
    · rename_i e; rw [e, hr]
    · rfl
  have hmemw : ∀ a b, b ∈ ((w.newClient c q).obj a).writers ↔ b ∈ (w.obj a).writers := by
    intro a b; rw [newClient_obj]; split
    · rename_i e; rw [e, hw]
    · rfl
  refine ⟨⟨?_, ?_, ?_, ?_, ?_⟩, ?_, ?_, ?_⟩
  · intro a b; rw [hmem, hmemw]; exact h.l.sym a b
  · intro a b hb
    rw [hmem] at hb
    have ha : a ≠ c := by rintro rfl; rw [hr] at hb; simp at hb
    have hbc : b ≠ c := by rintro rfl; exact (hno a).1 hb
    rw [newClient_obj, newClient_obj, if_neg ha, if_neg hbc]; exact h.l.kinds a b hb
  · intro a; rw [newClient_obj]; split
    · exact List.nodup_nil
    · exact h.l.ndR a
  · intro a; rw [newClient_obj]; split
    · exact List.nodup_nil
    · exact h.l.ndW a
  · intro a b hb
    rw [hmem] at hb; rw [hlive]
    have := h.l.live a b hb
    simp [this]
  · intro a ha hk
    rw [newClient_obj, if_neg (by simpa using ha)] at hk ⊢
    exact h.cs a (by simp) hk
  · intro a hl ha hk hr' hw'
    have ha : a ≠ c := by simpa using ha
    rw [newClient_obj, if_neg ha] at hk hr' hw' ⊢
    rw [hlive] at hl
    exact h.orph a (by simpa [ha] using hl) (by simp) hk hr' hw'
  · intro a; rw [newClient_obj]; split
    · exact ⟨by simp, by simp, by simp⟩
    · exact h.oi a

theorem checkState_lstep (w : World) (env : Env) (c con : Nat) (hc : (w.obj c).kind = .client) :
    LStep w (w.checkState env c con) := by
  unfold World.checkState
  split
  · exact .refl _
  · exact (note_step w env _ c (by rw [hc]; rfl)).lstep

/-- A broadcast client while it is being linked: `pre` are the consoles done. -/
structure Setup (w0 w : World) (c : Nat) (pre : List Nat) : Prop where
  inv : WInvX w (some c)
  kind : ∀ j, (w.obj j).kind = (w0.obj j).kind
  live : w.live = w0.live
  rd : (w.obj c).readers = pre
  wr : (w.obj c).writers = []
  bcast : (w.obj c).bcast = (w0.obj c).bcast
  eof : (w.obj c).eof = false
  wait : w.wait = w0.wait

theorem Setup.link {w0 w : World} {c : Nat} {pre : List Nat} (s : Setup w0 w c pre) (env : Env) {con : Nat}
    (hc : (w0.obj c).kind = .client) (hcon : (w0.obj con).kind.isConsole = true)
    (hl : c ∈ w0.live ∧ con ∈ w0.live) (hn : con ∉ pre) :
    LinkOk w c con ∧ Setup w0 (w.linkObjs env c con) c (pre ++ [con]) := by
  have hne : c ≠ con := by rintro rfl; exact not_client_of_console hcon hc
  have ok : LinkOk w c con := ⟨Or.inl ⟨by rw [s.kind]; exact hc, by rw [s.kind]; exact hcon⟩,
    by rw [s.rd]; exact hn, by rw [s.live]; exact hl⟩
  have sp := linkObjs_spec s.inv.l env ok
  have hS : c ∉ w.stealSet c con := fun hh => (stealSet_ne s.inv.l ok hh).1 rfl
  obtain ⟨hr, hw⟩ := sp.client_links s.inv.l c (by rw [s.kind]; exact hc)
  refine ⟨ok, ⟨s.inv.link env ok (fun hh => by simp at hh) (fun _ hk => ?_), fun j => ?_, ?_, ?_, ?_, ?_, ?_, ?_⟩⟩
  · rw [s.kind] at hk; exact absurd hk (not_client_of_console hcon)
  · rw [sp.pstep.kind, s.kind]
  · rw [sp.pstep.live, s.live]
  · rw [hr, if_neg hS, s.rd]; simp
  · rw [hw, if_neg hS, s.wr]; simp [hne]
  · rw [((sp.pstep.touched c).same).bcast, s.bcast]
  · cases he : ((w.linkObjs env c con).obj c).eof
    · rfl
    · rcases sp.eofNew c he with h1 | h1
      · rw [s.eof] at h1; simp at h1
      · exact absurd h1.2 hS
  · rw [sp.pstep.wait, s.wait]

theorem Setup.lstep {w0 w w' : World} {c : Nat} {pre : List Nat} (s : Setup w0 w c pre) (l : LStep w w') :
    Setup w0 w' c pre :=
  ⟨s.inv.wstep l.ws, fun j => by rw [(l.loc j).kind, s.kind], by rw [l.live, s.live], by rw [(l.loc c).rd, s.rd],
   by rw [(l.loc c).wr, s.wr], by rw [(l.loc c).bcast, s.bcast], by rw [(l.loc c).eof, s.eof],
   by rw [l.wait, s.wait]⟩

theorem Setup.init {w : World} (h : WInv w) {c : Nat} (q : Req) (hc : c ∉ w.live) :
    Setup (w.newClient c q) (w.newClient c q) c [] :=
  ⟨newClient_inv h q hc, fun _ => rfl, rfl, by rw [newClient_obj, if_pos rfl], by rw [newClient_obj, if_pos rfl],
   rfl, by rw [newClient_obj, if_pos rfl], rfl⟩

theorem Setup.fold {w0 : World} {c : Nat} (env : Env) (hc : (w0.obj c).kind = .client) (hcl : c ∈ w0.live)
    (l : List Nat) : ∀ {w : World} {pre : List Nat}, Setup w0 w c pre → (pre ++ l).Nodup →
    (∀ x ∈ l, x ∈ w0.live ∧ (w0.obj x).kind.isConsole = true) →
    Setup w0 (l.foldl (fun w con => (w.linkObjs env c con).checkState env c con) w) c (pre ++ l) := by
  induction l with
  | nil => intro w pre s _ _; simpa using s
  | cons a l ih =>
    intro w pre s hnd hl
    have ha := hl a (by simp)
    have hn : a ∉ pre := by
      intro hp
      rw [List.nodup_append] at hnd
      exact hnd.2.2 a hp a (by simp) rfl
    have s1 := (s.link env hc ha.2 ⟨hcl, ha.1⟩ hn).2
    have s2 := s1.lstep (checkState_lstep _ env c a (by rw [s1.kind]; exact hc))
    have := ih s2 (by simpa using hnd) (fun x hx => hl x (by simp [hx]))
    simpa using this

theorem Req.norm_bcast {q : Req} (h : q.consoles.length = 1) : q.norm.bcast = false := by
  unfold Req.norm; rw [if_pos h]
@[simp] theorem Req.norm_consoles (q : Req) : q.norm.consoles = q.consoles := by unfold Req.norm; split <;> rfl
@[simp] theorem Req.norm_cmd (q : Req) : q.norm.cmd = q.cmd := by unfold Req.norm; split <;> rfl
@[simp] theorem Req.norm_force (q : Req) : q.norm.force = q.force := by unfold Req.norm; split <;> rfl
@[simp] theorem Req.norm_join (q : Req) : q.norm.join = q.join := by unfold Req.norm; split <;> rfl
@[simp] theorem Req.norm_quiet (q : Req) : q.norm.quiet = q.quiet := by unfold Req.norm; split <;> rfl

/-- What a validated request looks like. -/
structure ReqShape (q : Req) : Prop where
  ne : q.consoles ≠ []
  one : q.consoles.length = 1 → q.bcast = false
  many : q.consoles.length ≠ 1 → q.bcast = true ∧ q.cmd = .connect

theorem validate_shape {w : World} {q : Req} (h : w.validate q.norm = none) : ReqShape q.norm := by
  unfold World.validate at h
  split at h
  · simp at h
  rename_i hne
  split at h
  · simp at h
  rename_i hsz
  refine ⟨hne, fun hl => Req.norm_bcast (by simpa using hl), fun hl => ?_⟩
  have := Decidable.not_not.1 hsz
  rcases this with h1 | h1
  · exact absurd h1 hl
  · exact ⟨h1.2, h1.1⟩

theorem grant_inv {w : World} (h : WInv w) (env : Env) (c : Nat) (q : Req) (hq : ReqShape q)
    (hc : c ∉ w.live) (ok : w.reqOk q) :
    WInv (w.grant env c q) ∧ Kp (w.newClient c q) (w.grant env c q) := by
  obtain ⟨hnd, hcons⟩ := ok
  have s0 := Setup.init h q hc
  have hk0 : ((w.newClient c q).obj c).kind = .client := by rw [newClient_obj, if_pos rfl]
  have hb0 : ((w.newClient c q).obj c).bcast = q.bcast := by rw [newClient_obj, if_pos rfl]
  have hcl : c ∈ (w.newClient c q).live := by show c ∈ w.live ++ [c]; simp
  have hcons' : ∀ x ∈ q.consoles, x ∈ (w.newClient c q).live ∧ ((w.newClient c q).obj x).kind.isConsole = true := by
    intro x hx
    have := hcons x hx
    have hne : x ≠ c := by rintro rfl; exact hc this.1
    rw [newClient_obj, if_neg hne]
    refine ⟨?_, this.2⟩
    show x ∈ w.live ++ [c]
    simp [this.1]
  -- the link from a console to the new client
  have back : ∀ (v : World) (con : Nat) (pre : List Nat), Setup (w.newClient c q) v c pre → con ∈ q.consoles → (pre = [] ∨ pre = [con]) →
      q.bcast = false → WInv ((v.linkObjs env con c).checkState env c con) ∧
        Kp (w.newClient c q) ((v.linkObjs env con c).checkState env c con) := by
    intro v con pre s hcon hpre hb
    have hcc := hcons' con hcon
    have ok : LinkOk v con c := by
      refine ⟨Or.inr ⟨by rw [s.kind]; exact hcc.2, by rw [s.kind, hk0]; rfl⟩, ?_, by rw [s.live]; exact ⟨hcc.1, hcl⟩⟩
      intro hm
      have := (s.inv.l.sym con c).1 hm
      rw [s.wr] at this; simp at this
    have hne : c ≠ con := by rintro rfl; exact not_client_of_console hcc.2 hk0
    have sp := linkObjs_spec s.inv.l env ok
    have hS : c ∉ v.stealSet con c := fun hh => (stealSet_ne s.inv.l ok hh).2 rfl
    obtain ⟨hr, hw⟩ := sp.client_links s.inv.l c (by rw [s.kind]; exact hk0)
    have hX := s.inv.link env ok (fun _ hk => by
      rw [s.kind] at hk; exact absurd hk (not_client_of_console hcc.2)) (fun hh => by simp at hh)
    have l := checkState_lstep (v.linkObjs env con c) env c con (by rw [sp.pstep.kind, s.kind]; exact hk0)
    have hr' : (((v.linkObjs env con c).checkState env c con).obj c).readers = pre := by
      rw [(l.loc c).rd, hr, if_neg hS, s.rd]; simp [hne]
    have hw' : (((v.linkObjs env con c).checkState env c con).obj c).writers = [con] := by
      rw [(l.loc c).wr, hw, if_neg hS, s.wr]; simp
    refine ⟨(hX.wstep l.ws).close ?_ ?_, (Kp.mk s.kind s.live s.wait).trans (sp.pstep.kp.trans l.kp)⟩
    · refine ⟨fun hbt => ?_, fun _ => Or.inr ⟨con, hw', ?_⟩⟩
      · rw [(l.loc c).bcast, ((sp.pstep.touched c).same).bcast, s.bcast, hb0, hb] at hbt; simp at hbt
      · rw [hr']; exact hpre
    · intro _ hh; rw [hw'] at hh; simp at hh
  unfold World.grant
  simp only
  split
  · rename_i con t hcmd hcs
    have hlen : q.consoles.length = 1 := by
      rcases Nat.decEq q.consoles.length 1 with h1 | h1
      · exact absurd (hq.many h1).2 (by rw [hcmd]; simp)
      · exact h1
    exact back _ con [] s0 (by rw [hcs]; simp) (Or.inl rfl) (hq.one hlen)
  · rename_i con hcmd hcs
    have hcon : con ∈ q.consoles := by rw [hcs]; simp
    have s1 := (s0.link env hk0 (hcons' con hcon).2 ⟨hcl, (hcons' con hcon).1⟩ (by simp)).2
    exact back _ con [con] s1 hcon (Or.inr rfl) (hq.one (by rw [hcs]; rfl))
  · rename_i cons hcmd hns
    have hlen : q.consoles.length ≠ 1 := by
      intro hl
      obtain ⟨a, ha⟩ := List.length_eq_one_iff.1 hl
      exact hns a ha
    have s1 := Setup.fold env hk0 hcl q.consoles s0 (by simpa using hnd) hcons'
    simp only [List.nil_append] at s1
    refine ⟨s1.inv.close ⟨fun _ => s1.wr, fun hb => ?_⟩ ?_, ⟨s1.kind, s1.live, s1.wait⟩⟩
    · rw [s1.bcast, hb0, (hq.many hlen).1] at hb; simp at hb
    · intro hr _; rw [s1.rd] at hr; exact absurd hr hq.ne
  · rename_i hcmd hcs
    exact absurd hcs hq.ne

theorem connUp_inv {w : World} (h : WInv w) (env : Env) (i : Nat) :
    WInv (w.connUp env i) ∧ Kp w (w.connUp env i) := by
  unfold World.connUp
  simp only
  split
  · exact ⟨h, .refl _⟩
  rename_i hk
  have hk : (w.obj i).kind.isConsole = true := by simpa using hk
  split
  · exact ⟨h, .refl _⟩
  have s1 : WStep w (w.mod i (fun o => { o with fd := true, pin := true, conn := .up, eof := false })) := by
    apply WStep.mod
    exact ⟨rfl, rfl, rfl, rfl, fun hh => absurd hh (not_client_of_console hk), fun ho =>
      ⟨ho.cap, ho.susp, fun hf => by simp at hf⟩⟩
  have h1 := h.wstep s1
  have s2 : LStep (w.mod i (fun o => { o with fd := true, pin := true, conn := .up, eof := false }))
      (if (w.obj i).kind = .test then (w.mod i (fun o => { o with fd := true, pin := true, conn := .up, eof := false }))
      else (w.mod i (fun o => { o with fd := true, pin := true, conn := .up, eof := false })).notify env i (.connected i)) := by
    split
    · exact .refl _
    · exact (notify_step h1.l env i _ (by rw [(s1.loc i).kind]; exact hk)).lstep
  have h2 := h1.wstep s2.ws
  split
  · have s3 := s2.trans (.mod _ i (·.write telHello false) (.write _ _ _))
    exact ⟨h1.wstep s3.ws, s1.kp.trans s3.kp⟩
  · exact ⟨h2, s1.kp.trans s2.kp⟩

/-- Accepted requests stay valid. -/
def WaitOk (w : World) : Prop := ∀ q ∈ w.wait, ReqShape q ∧ w.reqOk q

structure DInv (w : World) : Prop where
  inv : WInv w
  wait : WaitOk w

theorem WaitOk.keep {w w' : World} (h : WaitOk w)
    (hk : ∀ j ∈ w.live, (w.obj j).kind.isConsole = true → j ∈ w'.live ∧ (w'.obj j).kind = (w.obj j).kind)
    (hw : ∀ q ∈ w'.wait, q ∈ w.wait) : WaitOk w' := by
  intro q hq
  obtain ⟨h1, h2, h3⟩ := h q (hw q hq)
  refine ⟨h1, h2, fun x hx => ?_⟩
  have := h3 x hx
  have := hk x this.1 this.2
  exact ⟨this.1, by rw [this.2]; exact (h3 x hx).2⟩

theorem WaitOk.kp {w w' : World} (h : WaitOk w) (k : Kp w w') : WaitOk w' :=
  h.keep (fun j hj _ => ⟨by rw [k.live]; exact hj, k.kind j⟩) (fun q hq => by rw [← k.wait]; exact hq)

theorem WaitOk.kq {w w' : World} {i : Nat} (h : WaitOk w) (k : Kq w w' i) : WaitOk w' := by
  refine h.keep (fun j hj hc => ⟨?_, k.kind j⟩) (fun q hq => by rw [← k.wait]; exact hq)
  rcases k.live with h1 | ⟨h1, h2⟩
  · rw [h1]; exact hj
  · rw [h2]
    simp only [List.mem_filter, ne_eq, decide_not, Bool.not_eq_eq_eq_not, Bool.not_true,
      decide_eq_false_iff_not]
    refine ⟨hj, ?_⟩
    rintro rfl
    exact not_client_of_console hc h1

theorem DInv.wstep {w w' : World} (h : DInv w) (s : WStep w w') : DInv w' := ⟨h.inv.wstep s, h.wait.kp s.kp⟩

theorem DInv.unwait {w : World} (h : DInv w) (l : List Req) (hl : ∀ q ∈ l, q ∈ w.wait) :
    DInv ({ w with wait := l } : World) :=
  ⟨⟨⟨h.inv.l.sym, h.inv.l.kinds, h.inv.l.ndR, h.inv.l.ndW, h.inv.l.live⟩, h.inv.cs, h.inv.orph, h.inv.oi⟩,
   fun q hq => h.wait q (hl q hq)⟩

theorem world_step_inv {w w' : World} (h : DInv w) (env : Env) (s : Step) (ht : w.step env s = some w') : DInv w' := by
  cases s with
  | check q =>
    simp only [World.step, Option.some.injEq] at ht
    subst ht
    split
    · rename_i hh
      refine ⟨⟨⟨h.inv.l.sym, h.inv.l.kinds, h.inv.l.ndR, h.inv.l.ndW, h.inv.l.live⟩, h.inv.cs, h.inv.orph, h.inv.oi⟩, ?_⟩
      intro p hp
      simp only [List.mem_append, List.mem_singleton] at hp
      rcases hp with hp | rfl
      · exact h.wait p hp
      · exact ⟨validate_shape hh.2, hh.1⟩
    · exact h
  | grant c k =>
    simp only [World.step, Option.some.injEq] at ht
    subst ht
    split
    · rename_i q hq
      split
      · exact h
      · rename_i hc
        have hqm : q ∈ w.wait := List.mem_of_getElem? hq
        have h0 := h.unwait (w.wait.eraseIdx k) (fun q hq => List.mem_of_mem_eraseIdx hq)
        have hok := h.wait q hqm
        have := grant_inv h0.inv env c q hok.1 hc hok.2
        refine ⟨this.1, WaitOk.keep h0.wait (fun j hj hcon => ?_) (fun p hp => ?_)⟩
        · have hj : j ∈ w.live := hj
          have hne : j ≠ c := by rintro rfl; exact hc hj
          constructor
          · rw [this.2.live]; show j ∈ w.live ++ [c]; simp [hj]
          · rw [this.2.kind, newClient_obj, if_neg hne]
        · rw [this.2.wait] at hp; exact hp
    · exact h
  | poll i up rd wr =>
    simp only [World.step] at ht
    split at ht
    · simp only [Option.some.injEq] at ht; subst ht; exact h
    simp only [Option.map_eq_some_iff] at ht
    obtain ⟨w1, h1, rfl⟩ := ht
    have hw1 : DInv w1 := by
      cases rd with
      | none => simp only [Option.some.injEq] at h1; subst h1; exact h
      | some r =>
        have := read_inv h.inv env up i r h1
        exact ⟨this.1, h.wait.kq this.2⟩
    split
    · exact hw1
    · split
      · exact hw1
      · rename_i r _
        have := flush_inv hw1.inv env up i r
        exact ⟨this.1, hw1.wait.kq this.2⟩
  | connUp i =>
    simp only [World.step, Option.some.injEq] at ht
    subst ht
    split
    · have := connUp_inv h.inv env i
      exact ⟨this.1, h.wait.kp this.2⟩
    · exact h
  | connPend i =>
    simp only [World.step, Option.some.injEq] at ht
    subst ht
    split
    · rename_i hk
      exact h.wstep (.mod _ _ _ ⟨rfl, rfl, rfl, rfl, fun _ h => h, fun ho =>
        ⟨ho.cap, fun hc => absurd hc (by rw [hk.2.1]; simp), fun hf => by simp at hf⟩⟩)
    · exact h
  | connDown i =>
    simp only [World.step, Option.some.injEq] at ht
    subst ht
    split
    · exact h.wstep (.mod _ _ _ ⟨rfl, rfl, rfl, rfl, fun _ h => h, fun ho =>
        ⟨ho.cap, fun _ _ => rfl, fun hf => ⟨rfl, rfl⟩⟩⟩)
    · exact h
  | connFail i =>
    simp only [World.step, Option.some.injEq] at ht
    subst ht
    split
    · rename_i hk
      have s := (notify_step h.inv.l env i (.connFailed i) (by rw [hk.2.1]; rfl)).lstep
      exact ⟨h.inv.wstep s.ws, h.wait.kp s.kp⟩
    · exact h
  | resetTimeout con =>
    simp only [World.step, Option.some.injEq] at ht
    subst ht
    have s1 : WStep w (w.mod con (fun o => { o with resetPid := none, resetTimer := false })) :=
      .mod _ _ _ ⟨rfl, rfl, rfl, rfl, fun _ h => h, fun ho => ⟨ho.cap, ho.susp, ho.closed⟩⟩
    split
    · split
      · exact h.wstep s1
      · split
        · exact (h.wstep s1).wstep ⟨fun _ => .refl _, rfl, rfl⟩
        · exact h.wstep s1
    · exact h
  | childExit con pid =>
    simp only [World.step, Option.some.injEq] at ht
    subst ht
    exact h.wstep ⟨fun _ => .refl _, rfl, rfl⟩
  | logOpen i ok =>
    simp only [World.step, Option.some.injEq] at ht
    subst ht
    split
    · rename_i hk
      apply h.wstep
      apply WStep.mod
      have hne : (w.obj i).kind ≠ .client := by rw [hk]; simp
      split
      · have o1 : OW (w.obj i) { w.obj i with fd := true, pout := false, eof := false } :=
          ⟨rfl, rfl, rfl, rfl, fun hh => absurd hh hne, fun ho => ⟨ho.cap, fun _ _ => rfl, fun hf => by simp at hf⟩⟩
        have o2 := (OLoc.write { w.obj i with fd := true, pout := false, eof := false }
          (env.txt (.logOpened i) w.tick) false)
        refine ⟨by rw [o2.kind], by rw [o2.rd], by rw [o2.wr], by rw [o2.bcast], fun hh => absurd hh hne, fun ho => ?_⟩
        have := o2.oi (o1.oi ho)
        exact ⟨this.cap, this.susp, this.closed⟩
      · exact ⟨rfl, rfl, rfl, rfl, fun _ h => h, fun ho => ⟨ho.cap, fun _ _ => rfl, fun _ => ⟨rfl, rfl⟩⟩⟩
    · exact h
  | logStamp i =>
    simp only [World.step, Option.some.injEq] at ht
    subst ht
    split
    · rename_i hk; exact h.wstep (note_step w env _ i (by rw [hk]; rfl)).lstep.ws
    · exact h

/-! ### Histories -/

theorem world_run_inv {P : World → Prop} (env : Env) (hstep : ∀ w s w', P w → w.step env s = some w' → P w')
    (htick : ∀ w n, P w → P ({ w with tick := n } : World)) (ss : List Step) :
    ∀ {w w' : World}, P w → w.run env ss = some w' → P w' := by
  induction ss with
  | nil => intro w w' h ht; simp only [World.run, Option.some.injEq] at ht; subst ht; exact h
  | cons s ss ih =>
    intro w w' h ht
    simp only [World.run, Option.bind_eq_some_iff] at ht
    obtain ⟨w1, h1, h2⟩ := ht
    exact ih (htick _ _ (hstep w s w1 h h1)) h2

theorem run_append (env : Env) (ss ts : List Step) : ∀ (w : World),
    w.run env (ss ++ ts) = (w.run env ss).bind (fun w => w.run env ts) := by
  induction ss with
  | nil => intro w; rfl
  | cons s ss ih =>
    intro w
    simp only [List.cons_append, World.run]
    cases w.step env s with
    | none => rfl
    | some w1 => simp only [Option.bind_some]; exact ih _

theorem DInv.tick {w : World} (h : DInv w) (n : Nat) : DInv ({ w with tick := n } : World) :=
  h.wstep ⟨fun _ => .refl _, rfl, rfl⟩

theorem Reachable.step {env : Env} {w w' : World} (h : Reachable env w) (s : Step) (ht : w.step env s = some w') :
    Reachable env { w' with tick := w'.tick + 1 } := by
  obtain ⟨cfg, ss, hc, hr⟩ := h
  refine ⟨cfg, ss ++ [s], hc, ?_⟩
  rw [run_append, hr]
  simp [World.run, ht]

/-! ### The initial state -/

theorem boot_obj (cfg : List ConConf) (j : Nat) : (World.boot cfg).obj j =
    match cfg[j / 2]? with
    | none => {}
    | some c =>
      if j % 2 = 0 then
        { kind := c.kind, resetCmd := c.reset, readers := if c.log.isSome then [j + 1] else [], log := if c.log.isSome then some (j + 1) else none }
      else
        match c.log with
        | none => {}
        | some o => { kind := .logfile, opts := o, writers := [j - 1] } := rfl

theorem boot_readers (cfg : List ConConf) (a b : Nat) : b ∈ ((World.boot cfg).obj a).readers ↔
    a % 2 = 0 ∧ b = a + 1 ∧ ∃ c o, cfg[a / 2]? = some c ∧ c.log = some o := by
  rw [boot_obj]
  cases hc : cfg[a / 2]? with
  | none => simp
  | some c =>
    simp only
    split
    · rename_i h0
      cases hl : c.log with
      | none => simp [h0, hl]
      | some o => simp [h0, hl]
    · rename_i h0
      cases hl : c.log <;> simp [h0]

theorem boot_writers (cfg : List ConConf) (a b : Nat) : a ∈ ((World.boot cfg).obj b).writers ↔
    a % 2 = 0 ∧ b = a + 1 ∧ ∃ c o, cfg[a / 2]? = some c ∧ c.log = some o := by
  rw [boot_obj]
  cases hc : cfg[b / 2]? with
  | none =>
    simp only [List.not_mem_nil, false_iff]
    rintro ⟨h0, rfl, c, o, h1, _⟩
    rw [show (a + 1) / 2 = a / 2 by omega, h1] at hc
    simp at hc
  | some c =>
    simp only
    split
    · rename_i h0
      simp only [List.not_mem_nil, false_iff]
      rintro ⟨h1, rfl, _⟩; omega
    · rename_i h0
      cases hl : c.log with
      | none =>
        simp only [List.not_mem_nil, false_iff]
        rintro ⟨h1, rfl, c', o, h2, h3⟩
        rw [show (a + 1) / 2 = a / 2 by omega, h2] at hc
        simp only [Option.some.injEq] at hc
        rw [hc, hl] at h3; simp at h3
      | some o =>
        simp only [List.mem_singleton]
        constructor
        · rintro rfl
          refine ⟨by omega, by omega, c, o, ?_, hl⟩
          rw [show (b - 1) / 2 = b / 2 by omega]; exact hc
        · rintro ⟨h1, rfl, _⟩; omega

theorem boot_live (cfg : List ConConf) (j : Nat) : j ∈ (World.boot cfg).live ↔
    ∃ c, cfg[j / 2]? = some c ∧ (j % 2 = 0 ∨ c.log.isSome = true) := by
  show j ∈ List.filter _ _ ↔ _
  simp only [List.mem_filter, List.mem_range, Bool.or_eq_true, decide_eq_true_eq]
  constructor
  · rintro ⟨h1, h2⟩
    have hlt : j / 2 < cfg.length := by omega
    refine ⟨cfg[j / 2], List.getElem?_eq_getElem hlt, ?_⟩
    rcases h2 with h2 | h2
    · exact Or.inl h2
    · rw [List.getElem?_eq_getElem hlt] at h2; exact Or.inr h2
  · rintro ⟨c, hc, h2⟩
    have hlt : j / 2 < cfg.length := by
      rcases Nat.lt_or_ge (j / 2) cfg.length with h | h
      · exact h
      · rw [List.getElem?_eq_none h] at hc; simp at hc
    refine ⟨by omega, ?_⟩
    rcases h2 with h2 | h2
    · exact Or.inl h2
    · rw [hc]; exact Or.inr h2

theorem boot_not_client (cfg : List ConConf) (hcfg : ∀ c ∈ cfg, c.kind.isConsole = true) (j : Nat)
    (hj : j ∈ (World.boot cfg).live) : ((World.boot cfg).obj j).kind ≠ .client := by
  obtain ⟨c, hc, h⟩ := (boot_live cfg j).1 hj
  rw [boot_obj, hc]
  simp only
  split
  · exact not_client_of_console (hcfg c (List.mem_of_getElem? hc))
  · rename_i h0
    rcases h with h | h
    · exact absurd h h0
    · cases hl : c.log with
      | none => rw [hl] at h; simp at h
      | some o => simp

theorem boot_oinv (cfg : List ConConf) (j : Nat) : OInv ((World.boot cfg).obj j) := by
  rw [boot_obj]
  split
  · exact ⟨by simp, by simp, by simp⟩
  · split
    · exact ⟨by simp, by simp, by simp⟩
    · split
      · exact ⟨by simp, by simp, by simp⟩
      · exact ⟨by simp, by simp, by simp⟩

theorem boot_inv (cfg : List ConConf) (hcfg : ∀ c ∈ cfg, c.kind.isConsole = true) : DInv (World.boot cfg) := by
  have hlive : ∀ a b, b ∈ ((World.boot cfg).obj a).readers → a ∈ (World.boot cfg).live ∧ b ∈ (World.boot cfg).live := by
    intro a b hb
    obtain ⟨h0, rfl, c, o, h1, h2⟩ := (boot_readers cfg a b).1 hb
    refine ⟨(boot_live cfg a).2 ⟨c, h1, Or.inl h0⟩, (boot_live cfg (a + 1)).2 ⟨c, ?_, Or.inr (by rw [h2]; rfl)⟩⟩
    rw [show (a + 1) / 2 = a / 2 by omega]; exact h1
  have hnc : ∀ j, ((World.boot cfg).obj j).kind = .client →
      ((World.boot cfg).obj j).readers = [] ∧ ((World.boot cfg).obj j).writers = [] := by
    intro j hk
    constructor
    · apply List.eq_nil_iff_forall_not_mem.2
      intro b hb; exact boot_not_client cfg hcfg j (hlive j b hb).1 hk
    · apply List.eq_nil_iff_forall_not_mem.2
      intro b hb
      have := (boot_readers cfg b j).2 ((boot_writers cfg b j).1 hb)
      exact boot_not_client cfg hcfg j (hlive b j this).2 hk
  refine ⟨⟨⟨?_, ?_, ?_, ?_, hlive⟩, ?_, ?_, boot_oinv cfg⟩, ?_⟩
  · intro a b; rw [boot_readers, boot_writers]
  · intro a b hb
    obtain ⟨h0, rfl, c, o, h1, h2⟩ := (boot_readers cfg a b).1 hb
    right
    rw [boot_obj, boot_obj, h1, show (a + 1) / 2 = a / 2 by omega, h1]
    simp only [h0, if_true, show ¬ (a + 1) % 2 = 0 by omega, if_false, h2]
    exact ⟨hcfg c (List.mem_of_getElem? h1), rfl⟩
  · intro a; rw [boot_obj]
    split
    · simp
    · split
      · simp only; split <;> simp
      · split <;> simp
  · intro a; rw [boot_obj]
    split
    · simp
    · split
      · simp
      · split <;> simp
  · intro j _ hk; exact ClientShape.nil (hnc j hk).1 (hnc j hk).2
  · intro j hj _ hk; exact absurd hk (boot_not_client cfg hcfg j hj)
  · intro q hq; simp [World.boot] at hq

theorem Reachable.inv {env : Env} {w : World} (h : Reachable env w) : DInv w := by
  obtain ⟨cfg, ss, hc, hr⟩ := h
  exact world_run_inv env (fun w s w' h hs => world_step_inv h env s hs) (fun w n h => h.tick n) ss (boot_inv cfg hc) hr

end Conman
