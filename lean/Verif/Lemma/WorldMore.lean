import Verif.Lemma.WorldOwn

/-
Further facts used by `Props/Links.lean` and `Props/Flow.lean`.
-/
namespace Conman
open Spec

theorem PStep.fx {w w' : World} (h : PStep env w w') : w'.fx = w.fx := by
  have := h.rest; simp only [World.rest, Prod.mk.injEq] at this; exact this.2.2.2.1
theorem PStep.running {w w' : World} (h : PStep env w w') : w'.running = w.running := by
  have := h.rest; simp only [World.rest, Prod.mk.injEq] at this; exact this.2.2.1

theorem shutdown_fx {w : World} (h : WInv w) (env : Env) (up : Bool) (i : Nat) :
    (w.shutdown env up i).fx = w.fx ∧ (w.shutdown env up i).running = w.running := by
  unfold World.shutdown
  split
  · exact ⟨rfl, rfl⟩
  simp only
  have hsl : SL w (w.mod i (fun o =>
      { o with fd := false, pin := false, pout := false, pend := [], eof := false, gen := o.gen + 1, hist := o.hist ++ [none] })) := by
    refine ⟨fun j => ?_, rfl⟩
    rw [World.mod_obj]; split <;> exact ⟨rfl, rfl, rfl⟩
  have hfx : (w.mod i (fun o =>
      { o with fd := false, pin := false, pout := false, pend := [], eof := false, gen := o.gen + 1, hist := o.hist ++ [none] })).fx = w.fx := rfl
  have hrn : (w.mod i (fun o =>
      { o with fd := false, pin := false, pout := false, pend := [], eof := false, gen := o.gen + 1, hist := o.hist ++ [none] })).running = w.running := rfl
  generalize (w.mod i (fun o =>
      { o with fd := false, pin := false, pout := false, pend := [], eof := false, gen := o.gen + 1, hist := o.hist ++ [none] })) = w1 at hsl hfx hrn ⊢
  have hl1 := h.l.same hsl
  cases hk : (w1.obj i).kind
  case client =>
    have p := (unlinkObj_spec hl1 env i).pstep
    exact ⟨by show (w1.unlinkObj env i).fx = _; rw [p.fx, hfx], by show (w1.unlinkObj env i).running = _; rw [p.running, hrn]⟩
  case logfile => exact ⟨hfx, hrn⟩
  case serial =>
    simp only
    have hs2 : SL w1 (w1.mod i (fun o => { o with fd := up, pin := up })) := by
      refine ⟨fun j => ?_, rfl⟩
      rw [World.mod_obj]; split <;> exact ⟨rfl, rfl, rfl⟩
    split
    · have p := (notify_step (hl1.same hs2) env i (.connected i) (by rw [(hs2.1 i).1, hk]; rfl)).pstep
      exact ⟨by rw [p.fx]; exact hfx, by rw [p.running]; exact hrn⟩
    · exact ⟨hfx, hrn⟩
  case test => exact ⟨hfx, hrn⟩
  all_goals
    have hs2 : SL w1 (w1.mod i (fun o => { o with conn := .down })) := by
      refine ⟨fun j => ?_, rfl⟩
      rw [World.mod_obj]; split <;> exact ⟨rfl, rfl, rfl⟩
    have p := (notify_step (hl1.same hs2) env i (.disconnected i) (by rw [(hs2.1 i).1, hk]; rfl)).pstep
    exact ⟨by rw [p.fx]; exact hfx, by rw [p.running]; exact hrn⟩

theorem flush_fx {w : World} (h : WInv w) (env : Env) (up : Bool) (i : Nat) (r : WriteRes) :
    ((w.flush env up i r).fx = w.fx ∨ ∃ d, (w.flush env up i r).fx = w.fx ++ [.sent i d]) ∧
    (w.flush env up i r).running = w.running := by
  unfold World.flush
  dsimp only
  split
  · exact ⟨Or.inl rfl, rfl⟩
  split
  · exact ⟨Or.inl rfl, rfl⟩
  have s1 := push_ws w i (r.count (w.obj i).pend.length)
  have s2 := drained_ws (w.push i (r.count (w.obj i).pend.length)) i
  have h1 := (h.wstep s1).wstep s2
  have e : ((w.push i (r.count (w.obj i).pend.length)).drained i).fx = (w.push i (r.count (w.obj i).pend.length)).fx ∧
      ((w.push i (r.count (w.obj i).pend.length)).drained i).running = w.running := by
    unfold World.drained
    split <;> exact ⟨rfl, rfl⟩
  have e0 : (w.push i (r.count (w.obj i).pend.length)).fx = w.fx ∨
      ∃ d, (w.push i (r.count (w.obj i).pend.length)).fx = w.fx ++ [.sent i d] := by
    by_cases hn : r.count (w.obj i).pend.length = 0
    · left; simp [World.push, World.mod, hn]
    · right; exact ⟨_, by simp [World.push, World.mod, hn]; rfl⟩
  split
  · have := shutdown_fx h1 env up i
    rw [this.1, this.2, e.1, e.2]; exact ⟨e0, rfl⟩
  · rw [e.1, e.2]; exact ⟨e0, rfl⟩

theorem Passive.console_pend {o o' : Obj} (h : Passive env o o') : o.kind.isConsole = true → o'.pend = o.pend ∧ o'.kind.isConsole = true := by
  induction h with
  | refl => exact fun h => ⟨rfl, h⟩
  | trans _ _ h1 h2 =>
    intro h
    obtain ⟨e1, k1⟩ := h1 h
    obtain ⟨e2, k2⟩ := h2 k1
    exact ⟨by rw [e2, e1], k2⟩
  | info o _ _ hk => intro h; rw [hk] at h; simp at h
  | links => exact fun h => ⟨rfl, h⟩
  | orphan o hk => intro h; rw [hk] at h; simp [OKind.isConsole] at h

theorem Ext.console_pend {o o' : Obj} (h : Ext env false o o') : o.kind.isConsole = true → o'.pend = o.pend ∧ o'.kind.isConsole = true := by
  induction h with
  | refl => exact fun h => ⟨rfl, h⟩
  | trans _ _ h1 h2 =>
    intro h
    obtain ⟨e1, k1⟩ := h1 h
    obtain ⟨e2, k2⟩ := h2 k1
    exact ⟨by rw [e2, e1], k2⟩
  | pass p => exact p.console_pend
  | reset _ _ _ _ => exact fun h => ⟨rfl, h⟩
  | data _ _ h => simp at h
  | log _ _ _ h => simp at h

/-- The commands of a client without readers that do not switch its mode change nothing but the client. -/
theorem act_ro {w w' : World} (env : Env) (c : Nat) (hr : (w.obj c).readers = []) (a : UInt8) (hs : isSwitch a = false)
    (ht : w.act env c a = some w') :
    (∀ j, j ≠ c → w'.obj j = w.obj j) ∧ w'.rest = w.rest ∧ (w'.obj c).readers = [] := by
  have hs' : a ≠ 0x46 ∧ a ≠ 0x4A ∧ a ≠ 0x4D := by
    simp only [isSwitch, Bool.or_eq_false_iff, decide_eq_false_iff_not] at hs
    exact ⟨hs.1.1, hs.1.2, hs.2⟩
  unfold World.act at ht
  rw [if_neg hs'.1, if_neg hs'.2.1, if_neg hs'.2.2, hr] at ht
  have triv : w' = w → (∀ j, j ≠ c → w'.obj j = w.obj j) ∧ w'.rest = w.rest ∧ (w'.obj c).readers = [] := by
    rintro rfl; exact ⟨fun _ _ => rfl, rfl, hr⟩
  have own : ∀ f : Obj → Obj, w' = w.mod c f → (f (w.obj c)).readers = (w.obj c).readers →
      (∀ j, j ≠ c → w'.obj j = w.obj j) ∧ w'.rest = w.rest ∧ (w'.obj c).readers = [] := by
    rintro f rfl e
    exact ⟨fun j hj => World.mod_ne _ _ hj, rfl, by rw [World.mod_self, e, hr]⟩
  split at ht
  · simp only [List.foldl_nil, Option.some.injEq] at ht; exact triv ht.symm
  split at ht
  · simp only [List.foldl_nil, Option.some.injEq] at ht; exact triv ht.symm
  split at ht
  · split at ht
    · simp only [Option.some.injEq] at ht; exact triv ht.symm
    · simp only [Option.some.injEq] at ht; exact own _ ht.symm (by simp)
  split at ht
  · simp only [Option.some.injEq] at ht; exact own _ ht.symm (by simp)
  split at ht
  · simp only [List.foldl_nil, Option.some.injEq] at ht; exact triv ht.symm
  split at ht
  · simp only [Option.some.injEq] at ht; exact own _ ht.symm rfl
  · simp only [Option.some.injEq] at ht; exact triv ht.symm

theorem acts_ro (env : Env) (c : Nat) (as : List UInt8) : ∀ {w w' : World}, (w.obj c).readers = [] →
    as.any isSwitch = false → w.acts env c as = some w' →
    (∀ j, j ≠ c → w'.obj j = w.obj j) ∧ w'.rest = w.rest ∧ (w'.obj c).readers = [] := by
  induction as with
  | nil => intro w w' hr _ ht; simp only [World.acts, Option.some.injEq] at ht; subst ht; exact ⟨fun _ _ => rfl, rfl, hr⟩
  | cons a as ih =>
    intro w w' hr hs ht
    simp only [World.acts, Option.bind_eq_some_iff] at ht
    obtain ⟨w1, h1, h2⟩ := ht
    rw [List.any_cons, Bool.or_eq_false_iff] at hs
    obtain ⟨a1, a2, a3⟩ := act_ro env c hr a hs.1 h1
    obtain ⟨b1, b2, b3⟩ := ih a3 hs.2 h2
    exact ⟨fun j hj => by rw [b1 j hj, a1 j hj], by rw [b2, a2], b3⟩

theorem read_ro {w w' : World} (h : WInv w) (env : Env) (up : Bool) (c : Nat) (r : ReadRes)
    (hk : (w.obj c).kind = .client) (hr : (w.obj c).readers = [])
    (hs : ∀ d, r = .data d → (cmdsOf (w.obj c) d).any isSwitch = false) (ht : w.read env up c r = some w') :
    (∀ j, (w.obj j).kind.isConsole = true → (w'.obj j).pend = (w.obj j).pend) ∧ w'.fx = w.fx ∧
    w'.running = w.running ∧ (w'.obj c).readers = [] := by
  have triv : w' = w → (∀ j, (w.obj j).kind.isConsole = true → (w'.obj j).pend = (w.obj j).pend) ∧ w'.fx = w.fx ∧
    w'.running = w.running ∧ (w'.obj c).readers = [] := by
    rintro rfl; exact ⟨fun _ _ => rfl, rfl, rfl, hr⟩
  have shut : ∀ v : World, WInv v → (∀ j, j ≠ c → v.obj j = w.obj j) → (v.obj c).readers = [] → v.fx = w.fx →
      v.running = w.running →
      (∀ j, (w.obj j).kind.isConsole = true → ((v.shutdown env up c).obj j).pend = (w.obj j).pend) ∧
      (v.shutdown env up c).fx = w.fx ∧ (v.shutdown env up c).running = w.running ∧
      ((v.shutdown env up c).obj c).readers = [] := by
    intro v hv ho hcr hf hn
    obtain ⟨f1, f2⟩ := shutdown_fx hv env up c
    refine ⟨fun j hj => ?_, by rw [f1, hf], by rw [f2, hn], ?_⟩
    · have hjc : j ≠ c := by rintro rfl; exact not_client_of_console hj hk
      rw [((shutdown_estep hv env up c (fun _ => false)) j hjc).console_pend (by rw [ho j hjc]; exact hj) |>.1, ho j hjc]
    · cases hh : ((v.shutdown env up c).obj c).readers with
      | nil => rfl
      | cons x t =>
        have := (shutdown_links hv env up c).2 c x (by rw [hh]; simp)
        rw [hcr] at this; simp at this
  unfold World.read at ht
  split at ht
  · simp only [Option.some.injEq] at ht; exact triv ht.symm
  split at ht
  · simp only [Option.some.injEq] at ht; exact triv ht.symm
  rw [if_neg (by rw [hk]; simp)] at ht
  cases r with
  | again => simp only [Option.some.injEq] at ht; exact triv ht.symm
  | err =>
    simp only [Option.some.injEq] at ht; subst ht
    exact shut w h (fun _ _ => rfl) hr rfl rfl
  | eof =>
    simp only [Option.some.injEq] at ht
    have s1 : WStep w (w.mod c (fun o => { o with eof := true, pin := false })) := by
      refine .mod _ _ _ ⟨rfl, rfl, rfl, rfl, fun _ _ => rfl, fun ho => ⟨ho.cap, ho.susp, ?_⟩⟩
      intro hf; exact ⟨rfl, (ho.closed hf).2⟩
    subst ht
    split
    · exact shut _ (h.wstep s1) (fun j hj => World.mod_ne _ _ hj) (by rw [World.mod_self]; exact hr) rfl rfl
    · refine ⟨fun j hj => ?_, rfl, rfl, by rw [World.mod_self]; exact hr⟩
      rw [World.mod_ne _ _ (by rintro rfl; exact not_client_of_console hj hk)]
  | data d0 =>
    simp only [hk, Option.map_eq_some_iff] at ht
    obtain ⟨w1, h1, rfl⟩ := ht
    rw [cmdsOf_eq] at h1
    obtain ⟨a1, a2, a3⟩ := acts_ro env c _ hr (hs d0 rfl) h1
    have hd : (w1.mod c (fun o => { o with gotEscape := (processClientEscapes (w.obj c).gotEscape (d0.take readBufSize)).gotEscape })).deliver
        env c (processClientEscapes (w.obj c).gotEscape (d0.take readBufSize)).data =
        w1.mod c (fun o => { o with gotEscape := (processClientEscapes (w.obj c).gotEscape (d0.take readBufSize)).gotEscape }) := by
      unfold World.deliver
      rw [World.mod_self]
      simp only [a3, List.foldl_nil, ite_self]
    rw [hd]
    simp only [World.rest, Prod.mk.injEq] at a2
    refine ⟨fun j hj => ?_, a2.2.2.2.1, a2.2.2.1, by rw [World.mod_self]; exact a3⟩
    have hjc : j ≠ c := by rintro rfl; exact not_client_of_console hj hk
    rw [World.mod_ne _ _ hjc, a1 j hjc]

/-- The links of a client whose request was carried out. -/
theorem grant_result {w : World} (h : WInv w) (env : Env) (c : Nat) (q : Req)
    (hc : c ∉ w.live) (ok : w.reqOk q) (hne : q.consoles ≠ []) :
    ((w.grant env c q).obj c).readers = (if q.cmd = .connect then q.consoles else []) ∧
    ((w.grant env c q).obj c).writers =
      (if q.cmd = .connect then (if q.consoles.length = 1 then q.consoles else []) else q.consoles.take 1) := by
  obtain ⟨hnd, hcons⟩ := ok
  have s0 := Setup.init h q hc
  have hk0 : ((w.newClient c q).obj c).kind = .client := by rw [newClient_obj, if_pos rfl]
  have hcl : c ∈ (w.newClient c q).live := by show c ∈ w.live ++ [c]; simp
  have hcons' : ∀ x ∈ q.consoles, x ∈ (w.newClient c q).live ∧ ((w.newClient c q).obj x).kind.isConsole = true := by
    intro x hx
    have := hcons x hx
    have hne : x ≠ c := by rintro rfl; exact hc this.1
    rw [newClient_obj, if_neg hne]
    refine ⟨?_, this.2⟩
    show x ∈ w.live ++ [c]
    simp [this.1]
  have back : ∀ (v : World) (con : Nat) (pre : List Nat), Setup (w.newClient c q) v c pre → con ∈ q.consoles →
      (((v.linkObjs env con c).checkState env c con).obj c).readers = pre ∧
      (((v.linkObjs env con c).checkState env c con).obj c).writers = [con] := by
    intro v con pre s hcon
    have hcc := hcons' con hcon
    have ok : LinkOk v con c := by
      refine ⟨Or.inr ⟨by rw [s.kind]; exact hcc.2, by rw [s.kind, hk0]; rfl⟩, ?_, by rw [s.live]; exact ⟨hcc.1, hcl⟩⟩
      intro hm
      have := (s.inv.l.sym con c).1 hm
      rw [s.wr] at this; simp at this
    have hne : c ≠ con := by rintro rfl; exact not_client_of_console hcc.2 hk0
    have sp := linkObjs_spec s.inv.l env ok
    have hS : c ∉ v.stealSet con c := fun hh => (stealSet_ne s.inv.l ok hh).2 rfl
    obtain ⟨hr, hw⟩ := sp.client_links s.inv.l c (by rw [s.kind]; exact hk0)
    have l := checkState_lstep (v.linkObjs env con c) env c con (by rw [sp.pstep.kind, s.kind]; exact hk0)
    constructor
    · rw [(l.loc c).rd, hr, if_neg hS, s.rd]; simp [hne]
    · rw [(l.loc c).wr, hw, if_neg hS, s.wr]; simp
  unfold World.grant
  simp only
  split
  · rename_i con t hcm hcs
    have := back _ con [] s0 (by simp [hcs])
    rw [this.1, this.2, hcm, hcs]; simp
  · rename_i con hcm hcs
    have hm : con ∈ q.consoles := by simp [hcs]
    obtain ⟨ok, s1⟩ := s0.link env hk0 (hcons' con hm).2 ⟨hcl, (hcons' con hm).1⟩ (by simp)
    have := back _ con _ s1 hm
    rw [this.1, this.2, hcm, hcs]; simp
  · rename_i hcm hcs
    have := Setup.fold env hk0 hcl q.consoles s0 (by simpa using hnd) hcons'
    rw [this.rd, this.wr, hcm]
    have hl : q.consoles.length ≠ 1 := by
      intro hl; obtain ⟨x, hx⟩ := List.length_eq_one_iff.1 hl; exact hcs x hx
    simp [hl]
  · rename_i hcs; exact absurd hcs hne

/-! ### Commands as in the specification -/

theorem unescRef_wire (l : List UInt8) : ∀ e, (unescRef e l).2.1 = wireData e l ∧ (unescRef e l).2.2 = wireCommands e l := by
  induction l with
  | nil => intro e; exact ⟨rfl, rfl⟩
  | cons b l ih =>
    intro e
    unfold unescRef wireData wireCommands
    have hE : escChar = 0xFF := rfl
    cases e
    · by_cases hb : b = 0xFF
      · simp [hE, hb, ih true]
      · simp [hE, hb, ih false]
    · by_cases hb : b = 0xFF
      · simp [hE, hb, ih false]
      · simp [hE, hb, ih false]

theorem cmdsOf_wire (o : Obj) (d : List UInt8) (hd : d.length ≤ 8191) : cmdsOf o d = wireCommands o.gotEscape d := by
  unfold cmdsOf
  rw [List.take_of_length_le (by have : readBufSize = 8191 := rfl; omega)]
  exact (unescRef_wire d _).2

theorem isSwitch_eq : isSwitch = modeSwitch := rfl

/-! ### Taking a console over with &F -/

theorem Taking.keep {env : Env} {w0 v v' : World} {c : Nat} {pre : List Nat} (t : Taking env w0 v c pre)
    (ht : v'.tick = v.tick) (h : ∀ x, x ≠ c → (w0.obj x).kind = .client → v'.obj x = v.obj x)
    (hw : ∀ x, (v'.obj x).writers = (v.obj x).writers) :
    Taking env w0 v' c pre := by
  refine ⟨by rw [ht, t.tick], fun x hx hk => by rw [h x hx hk]; exact t.pass x hx hk, fun con hcon => ?_, fun x hx hk => ?_⟩
  · rw [hw]; exact t.own con hcon
  · rcases t.cl x hx hk with ⟨k, hno⟩ | r
    · left; exact ⟨⟨by rw [h x hx hk]; exact k.rd, by rw [h x hx hk]; exact k.wr, by rw [h x hx hk]; exact k.eof⟩, hno⟩
    · right; exact ⟨by rw [h x hx hk]; exact r.rd, by rw [h x hx hk]; exact r.wr, by rw [h x hx hk]; exact r.eof,
        by rw [h x hx hk]; exact r.told⟩

theorem read_force {w w' : World} (h : WInv w) (env : Env) (up : Bool) (c con : Nat) (d : List UInt8)
    (hk : (w.obj c).kind = .client) (hb : (w.obj c).bcast = false) (hr : (w.obj c).readers = [])
    (hw : (w.obj c).writers = [con]) (hfd : (w.obj c).fd = true) (hs : cmdsOf (w.obj c) d = [0x46])
    (ht : w.read env up c (.data d) = some w') :
    (w'.obj con).writers = [c] ∧ ∀ x ∈ (w.obj con).writers, Robbed env w w' c [con] x := by
  have hcon : c ∈ (w.obj con).readers := (h.l.sym con c).2 (by rw [hw]; simp)
  have hkc : (w.obj con).kind.isConsole = true := by
    rcases h.l.kinds con c hcon with h1 | h1
    · rw [hk] at h1; simp [OKind.isConsole] at h1
    · exact h1.1
  have hlv := h.l.live con c hcon
  have hcc : con ≠ c := by rintro rfl; exact not_client_of_console hkc hk
  unfold World.read at ht
  rw [if_neg (by simp [hfd]), if_neg (by simp [hk]), if_neg (by rw [hk]; simp)] at ht
  simp only [hk, Option.map_eq_some_iff] at ht
  obtain ⟨w1, h1, rfl⟩ := ht
  rw [cmdsOf_eq, hs] at h1
  simp only [World.acts, Option.bind_eq_some_iff] at h1
  obtain ⟨w2, h2, h3⟩ := h1
  simp only [Option.some.injEq] at h3
  subst h3
  have e : w.act env c 0x46 = (w.mod c (fun o => { o with force := true, join := false })).toggle env c := rfl
  rw [e] at h2
  unfold World.toggle at h2
  simp only [World.mod_self, hb, hw, hr] at h2
  simp only [Bool.false_eq_true, if_false, ne_eq, not_true_eq_false, Option.some.injEq] at h2
  subst h2
  have hobj : ∀ j, j ≠ c → ((w.mod c (fun o => { o with force := true, join := false })).mod c
      (fun o => { o with cmd := .connect })).obj j = w.obj j := by
    intro j hj; rw [World.mod_ne _ _ hj, World.mod_ne _ _ hj]
  have hcobj : ((w.mod c (fun o => { o with force := true, join := false })).mod c
      (fun o => { o with cmd := .connect })).obj c = { w.obj c with force := true, join := false, cmd := .connect } := by
    rw [World.mod_self, World.mod_self]
  have htk : ((w.mod c (fun o => { o with force := true, join := false })).mod c
      (fun o => { o with cmd := .connect })).tick = w.tick := rfl
  have hlive : ((w.mod c (fun o => { o with force := true, join := false })).mod c
      (fun o => { o with cmd := .connect })).live = w.live := rfl
  generalize ((w.mod c (fun o => { o with force := true, join := false })).mod c
      (fun o => { o with cmd := .connect })) = v at hobj hcobj htk hlive ⊢
  have hsl : SL w v := by
    refine ⟨fun j => ?_, hlive⟩
    by_cases hj : j = c
    · subst hj; rw [hcobj]; exact ⟨rfl, rfl, rfl⟩
    · rw [hobj j hj]; exact ⟨rfl, rfl, rfl⟩
  have hl := h.l.same hsl
  have ok : LinkOk v c con := by
    refine ⟨Or.inl ⟨by rw [hcobj]; exact hk, by rw [hobj con hcc]; exact hkc⟩, by rw [hcobj]; simp [hr], by rw [hlive]; exact hlv.symm⟩
  have t0 : Taking env w w c [] :=
    ⟨rfl, fun x _ _ => .refl _, by simp, fun x _ _ => Or.inl ⟨⟨rfl, rfl, rfl⟩, by simp⟩⟩
  have t1 : Taking env w v c [] := t0.mod htk hobj (by simp)
  have t2 := t1.link h.l (fun j => (h.oi j).cap) (fun j => (hsl.1 j).1) hl ok (by rw [hcobj]; exact hk)
    (by rw [hobj con hcc]; exact hkc) (by rw [hcobj])
  have sp := linkObjs_spec hl env ok
  have hrd : ((v.linkObjs env c con).obj c).readers = [con] := by
    have hS : c ∉ v.stealSet c con := fun hh => (stealSet_ne hl ok hh).1 rfl
    rw [sp.rd c, if_neg hS, hcobj]; simp [hr]
  generalize v.linkObjs env c con = v2 at t2 sp hrd ⊢
  have t3 := t2.mod (v' := v2.mod c (fun o => { o with gotEscape := (processClientEscapes (w.obj c).gotEscape (d.take readBufSize)).gotEscape }))
    rfl (fun x hx => World.mod_ne _ _ hx) (by simpa using hcc.symm)
  have hrd3 : ((v2.mod c (fun o => { o with gotEscape := (processClientEscapes (w.obj c).gotEscape (d.take readBufSize)).gotEscape })).obj c).readers = [con] := by
    rw [World.mod_self]; exact hrd
  generalize (v2.mod c (fun o => { o with gotEscape := (processClientEscapes (w.obj c).gotEscape (d.take readBufSize)).gotEscape })) = v3 at t3 hrd3 ⊢
  generalize (processClientEscapes (w.obj c).gotEscape (d.take readBufSize)).data = dd
  have hdel : v3.deliver env c dd = v3 ∨ v3.deliver env c dd = v3.give env dd con := by
    unfold World.deliver
    split
    · exact Or.inl rfl
    · right; rw [hrd3, List.foldl_cons, List.foldl_nil]
  have t4 : Taking env w (v3.deliver env c dd) c [con] := by
    rcases hdel with e | e
    · rw [e]; exact t3
    · rw [e]
      refine t3.keep rfl (fun x hx hkx => ?_) (fun x => ?_)
      · unfold World.give
        exact World.mod_ne _ _ (by rintro rfl; exact not_client_of_console hkc hkx)
      · unfold World.give
        rw [World.mod_obj]
        split
        · subst_vars
          split
          · exact (OLoc.writeLog _ _ _).wr
          · simp
        · rfl
  refine ⟨t4.own con (by simp), fun x hx => ?_⟩
  have hxc : x ≠ c := by
    rintro rfl
    have := (h.l.sym x con).2 hx
    rw [hr] at this; simp at this
  have hkx : (w.obj x).kind = .client := by
    rcases h.l.kindW hx with h1 | h1
    · exact h1.1
    · rw [hkc] at h1; simp at h1
  rcases t4.cl x hxc hkx with ⟨_, hn⟩ | r
  · exact absurd hx (hn con (by simp))
  · exact r

end Conman
