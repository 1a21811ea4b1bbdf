import Verif.Lemma.WorldLogLink
import Verif.Lemma.WorldMore
import Verif.Lemma.WorldOwn
import Verif.Spec.Kept

/-
A client keeps its links while others act, unless its console is taken by force (C116).
-/
namespace Conman
open Spec

/-- Links and mark of one client. -/
structure SK (c : Nat) (w w' : World) : Prop where
  kind : (w'.obj c).kind = (w.obj c).kind
  rd : (w'.obj c).readers = (w.obj c).readers
  wr : (w'.obj c).writers = (w.obj c).writers
  eof : (w'.obj c).eof = (w.obj c).eof

theorem SK.refl (c : Nat) (w : World) : SK c w w := ⟨rfl, rfl, rfl, rfl⟩
theorem SK.trans {c : Nat} {u v w : World} (h : SK c u v) (h' : SK c v w) : SK c u w :=
  ⟨by rw [h'.kind, h.kind], by rw [h'.rd, h.rd], by rw [h'.wr, h.wr], by rw [h'.eof, h.eof]⟩
theorem LStep.sk {w w' : World} (h : LStep w w') (c : Nat) : SK c w w' :=
  ⟨(h.loc c).kind, (h.loc c).rd, (h.loc c).wr, (h.loc c).eof⟩
theorem SK.mod {c i : Nat} (hi : c ≠ i) (w : World) (f : Obj → Obj) : SK c w (w.mod i f) := by
  have : (w.mod i f).obj c = w.obj c := by rw [World.mod_obj, if_neg hi]
  exact ⟨by rw [this], by rw [this], by rw [this], by rw [this]⟩

theorem Passive.force {env : Env} {o o' : Obj} (h : Passive env o o') : o'.force = o.force := by
  induction h with
  | refl => rfl
  | trans _ _ h1 h2 => rw [h2, h1]
  | info o n t _ =>
    unfold Obj.write
    repeat' split
    all_goals rfl
  | links => rfl
  | orphan => rfl

theorem eof_same {a b : Bool} (h : a = true → b = true) (h' : b = true → a = true) : b = a := by
  cases a <;> cases b <;> simp_all

theorem unlinkObj_sk {w : World} (h : LInv w) (env : Env) {i c : Nat} (hi : (w.obj i).kind = .client)
    (hk : (w.obj c).kind = .client) (hne : c ≠ i) : SK c w (w.unlinkObj env i) := by
  have u := unlinkObj_spec h env i
  have n1 : i ∉ (w.obj c).readers := fun hh => not_client_of_console (h.client_readers hk hh) hi
  have n2 : i ∉ (w.obj c).writers := fun hh => not_client_of_console (h.client_writers hk hh) hi
  have n3 : c ∉ (w.obj i).readers := fun hh => not_client_of_console (h.client_readers hi hh) hk
  have n4 : c ∉ (w.obj i).writers := fun hh => not_client_of_console (h.client_writers hi hh) hk
  refine ⟨u.pstep.kind c, ?_, ?_, ?_⟩
  · rw [u.rd c, if_neg hne]
    exact List.filter_eq_self.2 (fun a ha => by simp only [ne_eq, decide_not, Bool.not_eq_eq_eq_not, Bool.not_true, decide_eq_false_iff_not]; rintro rfl; exact n1 ha)
  · rw [u.wr c, if_neg hne]
    exact List.filter_eq_self.2 (fun a ha => by simp only [ne_eq, decide_not, Bool.not_eq_eq_eq_not, Bool.not_true, decide_eq_false_iff_not]; rintro rfl; exact n2 ha)
  · refine eof_same (u.eofOld c) (fun e => (u.eofNew c e).resolve_right ?_)
    rintro ⟨_, g | g | g⟩
    · exact hne g
    · exact n4 g
    · exact n3 g

theorem linkObjs_sk {w : World} (h : LInv w) (env : Env) {src dst c : Nat} (ok : LinkOk w src dst)
    (hk : (w.obj c).kind = .client) (h1 : c ≠ src) (h2 : c ≠ dst) (hs : c ∉ w.stealSet src dst) : SK c w (w.linkObjs env src dst) := by
  have sp := linkObjs_spec h env ok
  refine ⟨sp.pstep.kind c, ?_, ?_, ?_⟩
  · rw [sp.rd c, if_neg hs, if_neg h1, List.append_nil]
    exact List.filter_eq_self.2 (fun a ha => by
      simp only [decide_eq_true_eq]
      exact fun g => not_client_of_console (h.client_readers hk ha) (stealSet_client h g))
  · rw [sp.wr c, if_neg hs, if_neg h2, List.append_nil]
    exact List.filter_eq_self.2 (fun a ha => by
      simp only [decide_eq_true_eq]
      exact fun g => not_client_of_console (h.client_writers hk ha) (stealSet_client h g))
  · exact eof_same (sp.eofOld c) (fun e => (sp.eofNew c e).resolve_right (fun g => hs g.2))

theorem SL.of_mod {w : World} (i : Nat) (f : Obj → Obj) (h1 : (f (w.obj i)).kind = (w.obj i).kind)
    (h2 : (f (w.obj i)).readers = (w.obj i).readers) (h3 : (f (w.obj i)).writers = (w.obj i).writers) : SL w (w.mod i f) := .modk _ _ _ h1 h2 h3

theorem shutdown_sk {w : World} (h : WInv w) (env : Env) (up : Bool) {i c : Nat} (hk : (w.obj c).kind = .client) (hne : c ≠ i) :
    SK c w (w.shutdown env up i) := by
  unfold World.shutdown
  split
  · exact .refl _ _
  simp only
  have hsl : SL w (w.mod i (fun o =>
      { o with fd := false, pin := false, pout := false, pend := [], eof := false, gen := o.gen + 1, hist := o.hist ++ [none] })) := .modk _ _ _ rfl rfl rfl
  have hsk : SK c w (w.mod i (fun o =>
      { o with fd := false, pin := false, pout := false, pend := [], eof := false, gen := o.gen + 1, hist := o.hist ++ [none] })) := .mod hne _ _
  generalize (w.mod i (fun o =>
      { o with fd := false, pin := false, pout := false, pend := [], eof := false, gen := o.gen + 1, hist := o.hist ++ [none] })) = w1 at hsl hsk ⊢
  have hl1 := h.l.same hsl
  have fin : ∀ v, SL w1 v → SK c w1 v → ∀ n, (v.obj i).kind.isConsole = true → SK c w (v.notify env i n) := by
    intro v hv hs n hki
    exact hsk.trans (hs.trans ((notify_step (hl1.same hv) env i n hki).lstep.sk c))
  cases hki : (w1.obj i).kind
  case client =>
    have u := unlinkObj_sk hl1 env hki (by rw [hsk.kind]; exact hk) hne
    exact hsk.trans ⟨u.kind, u.rd, u.wr, u.eof⟩
  case logfile => exact hsk
  case serial =>
    have hs2 : SL w1 (w1.mod i (fun o => { o with fd := up, pin := up })) := .modk _ _ _ rfl rfl rfl
    simp only
    split
    · exact fin _ hs2 (.mod hne _ _) _ (by rw [(hs2.1 i).1, hki]; rfl)
    · exact hsk.trans (.mod hne _ _)
  case test => exact hsk.trans (.mod hne _ _)
  all_goals
    have hs2 : SL w1 (w1.mod i (fun o => { o with conn := .down })) := .modk _ _ _ rfl rfl rfl
    exact fin _ hs2 (.mod hne _ _) _ (by rw [(hs2.1 i).1, hki]; rfl)

theorem toggle_sk {w w' : World} (h : WInv w) (env : Env) {d c : Nat} (hd : (w.obj d).kind = .client)
    (hk : (w.obj c).kind = .client) (hne : c ≠ d) (ht : w.toggle env d = some w') :
    SK c w w' ∨ ((w.obj d).force = true ∧ ∃ con, con ∈ (w.obj d).writers ∧ con ∈ (w.obj c).readers) := by
  unfold World.toggle at ht
  split at ht
  · simp only [Option.some.injEq] at ht; subst ht; exact .inl (.refl _ _)
  split at ht
  · simp at ht
  rename_i con t hw
  have hcon : (w.obj con).kind.isConsole = true := h.l.client_writers hd (x := con) (by simp [hw])
  have hlv := h.l.live con d ((h.l.sym con d).2 (by simp [hw]))
  have hnc : c ≠ con := by rintro rfl; exact not_client_of_console hcon hk
  have hms : ∀ cm, LStep w (w.mod d (fun o => { o with cmd := cm })) := fun cm =>
    .mod _ _ _ ⟨rfl, rfl, rfl, rfl, rfl, rfl, rfl, fun h => ⟨h.cap, h.susp, h.closed⟩⟩
  split at ht
  · simp only [Option.some.injEq] at ht
    subst ht
    have s := hms .monitor
    have u := unlinkObjs_spec (h.wstep s.ws).l env d con
    refine .inl ((s.sk c).trans ⟨u.pstep.kind c, by rw [u.rd c, if_neg hne], by rw [u.wr c, if_neg hnc], ?_⟩)
    exact eof_same (u.eofOld c) (fun e => (u.eofNew c e).resolve_right (fun g => g.2.elim hne hnc))
  · rename_i hr
    simp only [Option.some.injEq] at ht
    have hr : (w.obj d).readers = [] := by simpa using hr
    subst ht
    have s := hms .connect
    have ok : LinkOk (w.mod d (fun o => { o with cmd := .connect })) d con := by
      refine ⟨Or.inl ⟨?_, ?_⟩, ?_, ?_⟩
      · rw [(s.loc d).kind]; exact hd
      · rw [(s.loc con).kind]; exact hcon
      · rw [(s.loc d).rd, hr]; simp
      · rw [s.live]; exact ⟨hlv.2, hlv.1⟩
    by_cases hS : c ∈ (w.mod d (fun o => { o with cmd := .connect })).stealSet d con
    · obtain ⟨g1, _, _, g4⟩ := stealSet_mem hS
      rw [World.mod_self] at g4
      rw [(s.loc con).wr] at g1
      exact .inr ⟨g4, con, by simp [hw], (h.l.sym c con).2 g1⟩
    · exact .inl ((s.sk c).trans (linkObjs_sk (h.wstep s.ws).l env ok (by rw [(s.loc c).kind]; exact hk) hne hnc hS))

theorem act_sk {w w' : World} (h : WInv w) (env : Env) {d c : Nat} (hd : (w.obj d).kind = .client)
    (hk : (w.obj c).kind = .client) (hne : c ≠ d) (a : UInt8) (ht : w.act env d a = some w') :
    (w'.obj d).writers = (w.obj d).writers ∧
    (SK c w w' ∨ (a = 0x46 ∧ ∃ con, con ∈ (w.obj d).writers ∧ con ∈ (w.obj c).readers)) := by
  have htog : ∀ f j, (w.mod d (fun o => { o with force := f, join := j })).toggle env d = some w' →
      (SK c w w' ∨ (f = true ∧ ∃ con, con ∈ (w.obj d).writers ∧ con ∈ (w.obj c).readers)) := by
    intro f j hh
    have s : LStep w (w.mod d (fun o => { o with force := f, join := j })) :=
      .mod _ _ _ ⟨rfl, rfl, rfl, rfl, rfl, rfl, rfl, fun h => ⟨h.cap, h.susp, h.closed⟩⟩
    rcases toggle_sk (h.wstep s.ws) env (by rw [(s.loc d).kind]; exact hd) (by rw [(s.loc c).kind]; exact hk) hne hh with g | ⟨g1, con, g2, g3⟩
    · exact .inl ((s.sk c).trans g)
    · rw [World.mod_self] at g1
      rw [(s.loc d).wr] at g2
      rw [(s.loc c).rd] at g3
      exact .inr ⟨g1, con, g2, g3⟩
  rcases act_links h env d (by simp) hd a ht with ⟨hs, t⟩ | ⟨_, l⟩
  · refine ⟨t.wr, ?_⟩
    simp only [isSwitch, Bool.or_eq_true, decide_eq_true_eq] at hs
    rcases hs with (rfl | rfl) | rfl
    · rcases htog true false ht with g | ⟨_, g⟩
      · exact .inl g
      · exact .inr ⟨rfl, g⟩
    · exact (htog false true ht).imp_right (fun g => absurd g.1 (by simp))
    · exact (htog false false ht).imp_right (fun g => absurd g.1 (by simp))
  · exact ⟨(l.loc d).wr, .inl (l.sk c)⟩

theorem acts_sk (env : Env) {d c : Nat} (hne : c ≠ d) (as : List UInt8) : ∀ {w w' : World}, WInv w → (w.obj d).kind = .client →
    (w.obj c).kind = .client → w.acts env d as = some w' →
    SK c w w' ∨ (0x46 ∈ as ∧ ∃ con, con ∈ (w.obj d).writers ∧ con ∈ (w.obj c).readers) := by
  induction as with
  | nil => intro w w' _ _ _ ht; simp only [World.acts, Option.some.injEq] at ht; subst ht; exact .inl (.refl _ _)
  | cons a as ih =>
    intro w w' h hd hk ht
    simp only [World.acts, Option.bind_eq_some_iff] at ht
    obtain ⟨w1, h1, h2⟩ := ht
    obtain ⟨h3, h4⟩ := act_inv h env d (by simp) hd a h1
    obtain ⟨ew, g⟩ := act_sk h env hd hk hne a h1
    rcases g with g | ⟨g, g'⟩
    · rcases ih h3 (by rw [h4.kind]; exact hd) (by rw [h4.kind]; exact hk) h2 with k | ⟨k1, con, k2, k3⟩
      · exact .inl (g.trans k)
      · exact .inr ⟨List.mem_cons_of_mem _ k1, con, by rw [← ew]; exact k2, by rw [← g.rd]; exact k3⟩
    · exact .inr ⟨by rw [g]; exact List.mem_cons_self, g'⟩

theorem read_sk {w w' : World} (h : WInv w) (env : Env) (up : Bool) {i c : Nat} (hk : (w.obj c).kind = .client) (hne : c ≠ i) (r : ReadRes)
    (ht : w.read env up i r = some w') :
    SK c w w' ∨ ∃ d0, r = .data d0 ∧ (w.obj i).kind = .client ∧ 0x46 ∈ cmdsOf (w.obj i) d0 ∧
      ∃ con, con ∈ (w.obj i).writers ∧ con ∈ (w.obj c).readers := by
  unfold World.read at ht
  split at ht
  · simp only [Option.some.injEq] at ht; subst ht; exact .inl (.refl _ _)
  split at ht
  · simp only [Option.some.injEq] at ht; subst ht; exact .inl (.refl _ _)
  cases hr : (if (w.obj i).kind = .logfile then .err else r : ReadRes) with
  | again => simp only [hr, Option.some.injEq] at ht; subst ht; exact .inl (.refl _ _)
  | err => simp only [hr, Option.some.injEq] at ht; subst ht; exact .inl (shutdown_sk h env up hk hne)
  | eof =>
    simp only [hr, Option.some.injEq] at ht
    have s1 : WStep w (w.mod i (fun o => { o with eof := true, pin := false })) := by
      refine .mod _ _ _ ⟨rfl, rfl, rfl, rfl, fun _ _ => rfl, fun ho => ⟨ho.cap, ho.susp, ?_⟩⟩
      intro hf; exact ⟨rfl, (ho.closed hf).2⟩
    have s2 : SK c w (w.mod i (fun o => { o with eof := true, pin := false })) := .mod hne _ _
    subst ht
    split
    · exact .inl (s2.trans (shutdown_sk (h.wstep s1) env up (by rw [s2.kind]; exact hk) hne))
    · exact .inl s2
  | data d0 =>
    have hrr : r = .data d0 := by
      split at hr
      · cases hr
      · exact hr
    simp only [hr] at ht
    split at ht
    · rename_i hki
      simp only [Option.map_eq_some_iff] at ht
      obtain ⟨w1, h1, rfl⟩ := ht
      have s1 : LStep w1 (w1.mod i (fun o => { o with
          gotEscape := (processClientEscapes (w.obj i).gotEscape (d0.take readBufSize)).gotEscape })) :=
        .mod _ _ _ ⟨rfl, rfl, rfl, rfl, rfl, rfl, rfl, fun h => ⟨h.cap, h.susp, h.closed⟩⟩
      rw [cmdsOf_eq] at h1
      rcases acts_sk env hne _ h hki hk h1 with g | g
      · exact .inl (g.trans ((s1.trans (deliver_lstep _ env i _)).sk c))
      · exact .inr ⟨d0, hrr, hki, g⟩
    · simp only [Option.map_eq_some_iff] at ht
      obtain ⟨t, h1, rfl⟩ := ht
      exact .inl ((SK.mod hne _ _).trans ((deliver_lstep _ env i (t.buf.take t.len)).sk c))
    · simp only [Option.some.injEq] at ht
      subst ht
      exact .inl ((deliver_lstep w env i (d0.take readBufSize)).sk c)

theorem flush_sk {w : World} (h : WInv w) (env : Env) (up : Bool) {i c : Nat} (hk : (w.obj c).kind = .client) (hne : c ≠ i) (r : WriteRes) :
    SK c w (w.flush env up i r) := by
  unfold World.flush
  simp only
  have s1 := push_ws w i (r.count (w.obj i).pend.length)
  have s2 := drained_ws (w.push i (r.count (w.obj i).pend.length)) i
  have k1 : SK c w (w.push i (r.count (w.obj i).pend.length)) := by
    unfold World.push
    have : ∀ v : World, v.obj = w.obj → ∀ f, SK c w (v.mod i f) := by
      intro v hv f
      have e : (v.mod i f).obj c = w.obj c := by rw [World.mod_obj, if_neg hne, hv]
      exact ⟨by rw [e], by rw [e], by rw [e], by rw [e]⟩
    apply this
    rfl
  have k2 : SK c w ((w.push i (r.count (w.obj i).pend.length)).drained i) := by
    refine k1.trans ?_
    unfold World.drained
    split
    · exact .mod hne _ _
    · exact .refl _ _
  split
  · exact .refl _ _
  split
  · exact .refl _ _
  split
  · exact k2.trans (shutdown_sk ((h.wstep s1).wstep s2) env up (by rw [k2.kind]; exact hk) hne)
  · exact k2

theorem connUp_sk {w : World} (h : WInv w) (env : Env) {i c : Nat} (hk : (w.obj c).kind = .client) : SK c w (w.connUp env i) := by
  unfold World.connUp
  simp only
  split
  · exact .refl _ _
  rename_i hki
  have hki : (w.obj i).kind.isConsole = true := by simpa using hki
  have hne : c ≠ i := by rintro rfl; exact not_client_of_console hki hk
  split
  · exact .refl _ _
  have s1 : SL w (w.mod i (fun o => { o with fd := true, pin := true, conn := .up, eof := false })) := .modk _ _ _ rfl rfl rfl
  have k1 : SK c w (w.mod i (fun o => { o with fd := true, pin := true, conn := .up, eof := false })) := .mod hne _ _
  generalize (w.mod i (fun o => { o with fd := true, pin := true, conn := .up, eof := false })) = v at s1 k1 ⊢
  have s2 : SK c v (if (w.obj i).kind = .test then v else v.notify env i (.connected i)) := by
    split
    · exact .refl _ _
    · exact (notify_step (h.l.same s1) env i _ (by rw [(s1.1 i).1]; exact hki)).lstep.sk c
  refine k1.trans (s2.trans ?_)
  generalize (if (w.obj i).kind = .test then v else v.notify env i (.connected i)) = u
  split
  · exact .mod hne _ _
  · exact .refl _ _

theorem grant_sk {w : World} (h : WInv w) (env : Env) {d c : Nat} (q : Req) (hd : d ∉ w.live) (ok : w.reqOk q)
    (hk : (w.obj c).kind = .client) (hne : c ≠ d) :
    SK c w (w.grant env d q) ∨ (q.cmd = .connect ∧ q.force = true ∧ ∃ con, con ∈ q.consoles ∧ con ∈ (w.obj c).readers) := by
  obtain ⟨hnd, hcons⟩ := ok
  have s0 := Setup.init h q hd
  have hk0 : ((w.newClient d q).obj d).kind = .client := by rw [newClient_obj, if_pos rfl]
  have hf0 : ((w.newClient d q).obj d).force = q.force := by rw [newClient_obj, if_pos rfl]
  have hcl : d ∈ (w.newClient d q).live := by show d ∈ w.live ++ [d]; simp
  have hcons' : ∀ x ∈ q.consoles, x ∈ (w.newClient d q).live ∧ ((w.newClient d q).obj x).kind.isConsole = true := by
    intro x hx
    have := hcons x hx
    have hne : x ≠ d := by rintro rfl; exact hd this.1
    rw [newClient_obj, if_neg hne]
    refine ⟨?_, this.2⟩
    show x ∈ w.live ++ [d]
    simp [this.1]
  have n0 : SK c w (w.newClient d q) := by
    have : (w.newClient d q).obj c = w.obj c := by rw [newClient_obj, if_neg hne]
    exact ⟨by rw [this], by rw [this], by rw [this], by rw [this]⟩
  have hkc : ((w.newClient d q).obj c).kind = .client := by rw [n0.kind]; exact hk
  have hnc : ∀ con ∈ q.consoles, c ≠ con := by
    rintro con hcon rfl
    exact not_client_of_console (hcons' c hcon).2 hkc
  have chk : ∀ (v : World) (con : Nat), (v.obj d).kind = .client → LStep v (v.checkState env d con) :=
    fun v con hk => checkState_lstep v env d con hk
  have chf : ∀ (v : World) (con : Nat), (v.obj d).kind = .client → ((v.checkState env d con).obj d).force = (v.obj d).force := by
    intro v con hk
    unfold World.checkState
    split
    · rfl
    · exact ((note_step v env _ d (by rw [hk]; rfl)).pstep.touched d).force
  have back : ∀ (v : World) (con : Nat) (pre : List Nat), Setup (w.newClient d q) v d pre → con ∈ q.consoles →
      SK c v ((v.linkObjs env con d).checkState env d con) := by
    intro v con pre s hcon
    have hcc := hcons' con hcon
    have ok : LinkOk v con d := by
      refine ⟨Or.inr ⟨by rw [s.kind]; exact hcc.2, by rw [s.kind, hk0]; rfl⟩, ?_, by rw [s.live]; exact ⟨hcc.1, hcl⟩⟩
      intro hm
      have := (s.inv.l.sym con d).1 hm
      rw [s.wr] at this; simp at this
    have sp := linkObjs_spec s.inv.l env ok
    have hS : c ∉ v.stealSet con d := by
      intro hh
      have := (stealSet_mem hh).2.1
      rw [s.kind] at this
      exact not_client_of_console hcc.2 this
    exact (linkObjs_sk s.inv.l env ok (by rw [s.kind]; exact hkc) (hnc con hcon) hne hS).trans
      ((chk (v.linkObjs env con d) con (by rw [sp.pstep.kind, s.kind]; exact hk0)).sk c)
  have forth : ∀ (v : World) (con : Nat) (pre : List Nat), Setup (w.newClient d q) v d pre → (v.obj d).force = q.force → con ∈ q.consoles →
      con ∉ pre → Setup (w.newClient d q) (v.linkObjs env d con) d (pre ++ [con]) ∧ ((v.linkObjs env d con).obj d).force = q.force ∧
        (SK c v (v.linkObjs env d con) ∨ (q.force = true ∧ con ∈ (v.obj c).readers)) := by
    intro v con pre s hf hcon hn
    obtain ⟨okl, s1⟩ := s.link env hk0 (hcons' con hcon).2 ⟨hcl, (hcons' con hcon).1⟩ hn
    refine ⟨s1, by rw [((linkObjs_spec s.inv.l env okl).pstep.touched d).force, hf], ?_⟩
    by_cases hS : c ∈ v.stealSet d con
    · obtain ⟨g1, _, _, g4⟩ := stealSet_mem hS
      exact .inr ⟨by rw [← hf]; exact g4, (s.inv.l.sym c con).2 g1⟩
    · exact .inl (linkObjs_sk s.inv.l env okl (by rw [s.kind]; exact hkc) hne (hnc con hcon) hS)
  have fold : ∀ (l : List Nat) (v : World) (pre : List Nat), Setup (w.newClient d q) v d pre → (v.obj d).force = q.force →
      (pre ++ l).Nodup → (∀ x ∈ l, x ∈ q.consoles) →
      (SK c v (l.foldl (fun w con => (w.linkObjs env d con).checkState env d con) v) ∨
        (q.force = true ∧ ∃ con, con ∈ q.consoles ∧ con ∈ (v.obj c).readers)) := by
    intro l
    induction l with
    | nil => intro v pre _ _ _ _; exact .inl (.refl _ _)
    | cons x l ih =>
      intro v pre s hf hnd hl
      have hn : x ∉ pre := by
        intro hp
        rw [List.nodup_append] at hnd
        exact hnd.2.2 x hp x (by simp) rfl
      obtain ⟨s1, f1, k1⟩ := forth v x pre s hf (hl x (by simp)) hn
      rcases k1 with k1 | k1
      · have kd : ((v.linkObjs env d x).obj d).kind = .client := by rw [s1.kind]; exact hk0
        have ll := chk (v.linkObjs env d x) x kd
        rw [List.foldl_cons]
        have k2 := k1.trans (ll.sk c)
        rcases ih _ _ (s1.lstep ll) (by rw [chf _ _ kd, f1]) (by simpa using hnd) (fun y hy => hl y (by simp [hy])) with g | ⟨g1, con, g2, g3⟩
        · exact .inl (k2.trans g)
        · exact .inr ⟨g1, con, g2, by rw [← k2.rd]; exact g3⟩
      · exact .inr ⟨k1.1, x, hl x (by simp), k1.2⟩
  unfold World.grant
  simp only
  split
  · rename_i con t _ hcs
    exact .inl (n0.trans (back _ con [] s0 (by simp [hcs])))
  · rename_i con hcm hcs
    have hm : con ∈ q.consoles := by simp [hcs]
    obtain ⟨s1, _, k1⟩ := forth _ con [] s0 hf0 hm (by simp)
    rcases k1 with k1 | k1
    · exact .inl (n0.trans (k1.trans (back _ con _ s1 hm)))
    · exact .inr ⟨hcm, k1.1, con, hm, by rw [← n0.rd]; exact k1.2⟩
  · rename_i hcm _
    rcases fold q.consoles _ [] s0 hf0 (by simpa using hnd) (fun _ h => h) with g | ⟨g1, con, g2, g3⟩
    · exact .inl (n0.trans g)
    · exact .inr ⟨hcm, g1, con, g2, by rw [← n0.rd]; exact g3⟩
  · exact .inl n0

/-- What one step of somebody else does to the session of `c`. -/
theorem step_sk {env : Env} {w w' : World} (h : DInv w) (s : Step) (hs : w.step env s = some w') {c : Nat}
    (hk : (w.obj c).kind = .client) (hl : c ∈ w.live) (ho : ∀ up rd wr, s ≠ .poll c up rd wr) :
    SK c w w' ∨
    (∃ d k q con, s = .grant d k ∧ w.wait[k]? = some q ∧ q.cmd = .connect ∧ q.force = true ∧ con ∈ q.consoles ∧ con ∈ (w.obj c).readers) ∨
    (∃ d up b wr con, s = .poll d up (some (.data b)) wr ∧ (w.obj d).kind = .client ∧ 0x46 ∈ cmdsOf (w.obj d) b ∧
      con ∈ (w.obj d).writers ∧ con ∈ (w.obj c).readers) := by
  have triv : w' = w → SK c w w' := by rintro rfl; exact .refl _ _
  have modc : ∀ i f, (w.obj i).kind ≠ .client → SK c w (w.mod i f) := by
    intro i f hi
    exact .mod (by rintro rfl; exact hi hk) _ _
  cases s with
  | check q =>
    simp only [World.step, Option.some.injEq] at hs
    subst hs
    split
    · exact .inl ⟨rfl, rfl, rfl, rfl⟩
    · exact .inl (.refl _ _)
  | grant d k =>
    simp only [World.step, Option.some.injEq] at hs
    split at hs
    · rename_i q hq
      split at hs
      · exact .inl (triv hs.symm)
      · rename_i hd
        subst hs
        have hwk := h.wait q (List.mem_of_getElem? hq)
        rcases grant_sk (w := ({ w with wait := w.wait.eraseIdx k } : World)) (c := c)
          (h.unwait (w.wait.eraseIdx k) (fun q hq => List.mem_of_mem_eraseIdx hq)).inv env q hd hwk.2 hk (by rintro rfl; exact hd hl) with g | ⟨g1, g2, con, g3, g4⟩
        · exact .inl ⟨g.kind, g.rd, g.wr, g.eof⟩
        · exact .inr (.inl ⟨d, k, q, con, rfl, hq, g1, g2, g3, g4⟩)
    · exact .inl (triv hs.symm)
  | poll i up rd wr =>
    have hne : c ≠ i := by rintro rfl; exact ho up rd wr rfl
    simp only [World.step] at hs
    split at hs
    · simp only [Option.some.injEq] at hs; exact .inl (triv hs.symm)
    simp only [Option.map_eq_some_iff] at hs
    obtain ⟨w1, hr, hw1⟩ := hs
    have h1 : WInv w1 ∧ (SK c w w1 ∨ ∃ d0, rd = some (.data d0) ∧ (w.obj i).kind = .client ∧ 0x46 ∈ cmdsOf (w.obj i) d0 ∧
      ∃ con, con ∈ (w.obj i).writers ∧ con ∈ (w.obj c).readers) := by
      cases rd with
      | none => simp only [Option.some.injEq] at hr; subst hr; exact ⟨h.inv, .inl (.refl _ _)⟩
      | some r =>
        refine ⟨(read_inv h.inv env up i r hr).1, (read_sk h.inv env up hk hne r hr).imp_right ?_⟩
        rintro ⟨d0, rfl, g⟩
        exact ⟨d0, rfl, g⟩
    obtain ⟨hi1, h1 | ⟨d0, e, g1, g2, con, g3, g4⟩⟩ := h1
    · refine .inl (h1.trans ?_)
      subst hw1
      split
      · exact .refl _ _
      · split
        · exact .refl _ _
        · exact flush_sk hi1 env up (by rw [h1.kind]; exact hk) hne _
    · exact .inr (.inr ⟨i, up, d0, wr, con, by rw [e], g1, g2, g3, g4⟩)
  | connUp i =>
    simp only [World.step, Option.some.injEq] at hs
    subst hs
    split
    · exact .inl (connUp_sk h.inv env hk)
    · exact .inl (.refl _ _)
  | connPend i =>
    simp only [World.step, Option.some.injEq] at hs
    subst hs
    split
    · rename_i hc; exact .inl (modc _ _ (by rw [hc.2.1]; simp))
    · exact .inl (.refl _ _)
  | connDown i =>
    simp only [World.step, Option.some.injEq] at hs
    subst hs
    split
    · rename_i hc; exact .inl (modc _ _ (by rw [hc.1]; simp))
    · exact .inl (.refl _ _)
  | connFail i =>
    simp only [World.step, Option.some.injEq] at hs
    subst hs
    split
    · rename_i hk'
      exact .inl ((notify_step h.inv.l env i (.connFailed i) (by rw [hk'.2.1]; rfl)).lstep.sk c)
    · exact .inl (.refl _ _)
  | resetTimeout con =>
    simp only [World.step, Option.some.injEq] at hs
    have e : SK c w (w.mod con (fun o => { o with resetPid := none, resetTimer := false })) :=
      (LStep.mod _ _ _ ⟨rfl, rfl, rfl, rfl, rfl, rfl, rfl, fun h => ⟨h.cap, h.susp, h.closed⟩⟩ : LStep w _).sk c
    subst hs
    refine .inl ?_
    split
    · split
      · exact e
      · split
        · exact ⟨e.kind, e.rd, e.wr, e.eof⟩
        · exact e
    · exact .refl _ _
  | childExit con pid =>
    simp only [World.step, Option.some.injEq] at hs
    subst hs
    exact .inl ⟨rfl, rfl, rfl, rfl⟩
  | logOpen i okk =>
    simp only [World.step, Option.some.injEq] at hs
    subst hs
    split
    · rename_i hc
      exact .inl (modc _ _ (by rw [hc]; simp))
    · exact .inl (.refl _ _)
  | logStamp i =>
    simp only [World.step, Option.some.injEq] at hs
    subst hs
    split
    · exact .inl ((LStep.mod _ _ _ (OLoc.write _ _ _) : LStep w _).sk c)
    · exact .inl (.refl _ _)

/-- A client is removed only while its own descriptor is served. -/
theorem step_stays {env : Env} {w w' : World} (h : DInv w) (s : Step) (hs : w.step env s = some w') {c : Nat}
    (hl : c ∈ w.live) (ho : ∀ up rd wr, s ≠ .poll c up rd wr) : c ∈ w'.live := by
  rcases (step_live h s hs).2.1 c hl with g | ⟨g, _⟩
  · exact g
  cases s with
  | check q => simp [Step.target] at g
  | childExit con pid => simp [Step.target] at g
  | poll i up rd wr =>
    simp only [Step.target, Option.some.injEq] at g
    subst g
    exact absurd rfl (ho up rd wr)
  | grant d k =>
    simp only [Step.target, Option.some.injEq] at g
    subst g
    simp only [World.step, Option.some.injEq] at hs
    subst hs
    split
    · rw [if_pos hl]; exact hl
    · exact hl
  | connUp i =>
    simp only [World.step, Option.some.injEq] at hs
    subst hs
    split
    · rw [(connUp_inv h.inv env i).2.live]; exact hl
    · exact hl
  | connFail i =>
    simp only [World.step, Option.some.injEq] at hs
    subst hs
    split
    · rename_i hk
      rw [(notify_step h.inv.l env i (.connFailed i) (by rw [hk.2.1]; rfl)).lstep.live]; exact hl
    · exact hl
  | logStamp i =>
    simp only [World.step, Option.some.injEq] at hs
    subst hs
    split
    · rename_i hk; rw [(note_step w env _ i (by rw [hk]; rfl)).lstep.live]; exact hl
    · exact hl
  | _ =>
    simp only [World.step, Option.some.injEq] at hs
    subst hs
    repeat' split
    all_goals exact hl

/-- Requests that wait were accepted. -/
theorem step_wait {env : Env} {w w' : World} (h : DInv w) (s : Step) (hs : w.step env s = some w') :
    ∀ q ∈ w'.wait, q ∈ w.wait ∨ ∃ q0, s = .check q0 ∧ q = q0.norm := by
  have same : w'.wait = w.wait → ∀ q ∈ w'.wait, q ∈ w.wait ∨ ∃ q0, s = .check q0 ∧ q = q0.norm := fun e q hq => .inl (by rw [← e]; exact hq)
  cases s with
  | check q =>
    simp only [World.step, Option.some.injEq] at hs
    subst hs
    intro p hp
    split at hp
    · simp only [List.mem_append, List.mem_singleton] at hp
      exact hp.imp_right (fun e => ⟨q, rfl, e⟩)
    · exact .inl hp
  | grant d k =>
    simp only [World.step, Option.some.injEq] at hs
    subst hs
    intro p hp
    refine .inl ?_
    split at hp
    · rename_i q hq
      split at hp
      · exact hp
      · rename_i hd
        have h0 := h.unwait (w.wait.eraseIdx k) (fun q hq => List.mem_of_mem_eraseIdx hq)
        have hok := h.wait q (List.mem_of_getElem? hq)
        have := grant_inv h0.inv env d q hok.1 hd hok.2
        rw [this.2.wait] at hp
        exact List.mem_of_mem_eraseIdx hp
    · exact hp
  | poll i up rd wr =>
    apply same
    simp only [World.step] at hs
    split at hs
    · simp only [Option.some.injEq] at hs; rw [hs]
    simp only [Option.map_eq_some_iff] at hs
    obtain ⟨w1, h1, rfl⟩ := hs
    have hw1 : WInv w1 ∧ w1.wait = w.wait := by
      cases rd with
      | none => simp only [Option.some.injEq] at h1; subst h1; exact ⟨h.inv, rfl⟩
      | some r =>
        have := read_inv h.inv env up i r h1
        exact ⟨this.1, this.2.wait⟩
    split
    · exact hw1.2
    · split
      · exact hw1.2
      · rw [(flush_inv hw1.1 env up i _).2.wait, hw1.2]
  | connUp i =>
    apply same
    simp only [World.step, Option.some.injEq] at hs
    subst hs
    split
    · exact (connUp_inv h.inv env i).2.wait
    · rfl
  | connFail i =>
    apply same
    simp only [World.step, Option.some.injEq] at hs
    subst hs
    split
    · rename_i hk
      exact (notify_step h.inv.l env i (.connFailed i) (by rw [hk.2.1]; rfl)).lstep.wait
    · rfl
  | logStamp i =>
    apply same
    simp only [World.step, Option.some.injEq] at hs
    subst hs
    split
    · rename_i hk; exact (note_step w env _ i (by rw [hk]; rfl)).lstep.wait
    · rfl
  | _ =>
    apply same
    simp only [World.step, Option.some.injEq] at hs
    subst hs
    repeat' split
    all_goals rfl

theorem cmdsOf_sub (o : Obj) (b : List UInt8) {x : UInt8} (hx : x ∈ cmdsOf o b) : x ∈ b := by
  have key : ∀ (l : List UInt8) (e : Bool), x ∈ wireCommands e l → x ∈ l := by
    intro l
    induction l with
    | nil => intro e hx; exact hx
    | cons a l ih =>
      intro e hx
      unfold wireCommands at hx
      split at hx
      · rw [List.mem_append] at hx
        rcases hx with hx | hx
        · split at hx
          · cases hx
          · rw [List.mem_singleton] at hx; rw [hx]; exact List.mem_cons_self
        · exact List.mem_cons_of_mem _ (ih _ hx)
      · exact List.mem_cons_of_mem _ (ih _ hx)
  unfold cmdsOf at hx
  rw [(unescRef_wire _ _).2] at hx
  exact List.mem_of_mem_take (key _ _ hx)

theorem SK.tick {c : Nat} {w w' : World} (h : SK c w w') (n : Nat) : SK c w ({ w' with tick := n } : World) := ⟨h.kind, h.rd, h.wr, h.eof⟩

/-- The session over a history in which nobody takes a console by force. -/
theorem run_sk {env : Env} {c : Nat} (h : List Step) : ∀ {w w' : World}, DInv w → (w.obj c).kind = .client → c ∈ w.live →
    (∀ q ∈ w.wait, q.force = false) → (∀ s ∈ h, leavesAlone c s = true) → w.run env h = some w' →
    c ∈ w'.live ∧ SK c w w' := by
  induction h with
  | nil => intro w w' _ _ hl _ _ hr; simp only [World.run, Option.some.injEq] at hr; subst hr; exact ⟨hl, .refl _ _⟩
  | cons s h ih =>
    intro w w' hd hk hl hw hs hr
    simp only [World.run, Option.bind_eq_some_iff] at hr
    obtain ⟨w1, h1, h2⟩ := hr
    have hs0 := hs s (by simp)
    have ho : ∀ up rd wr, s ≠ .poll c up rd wr := by
      rintro up rd wr rfl
      rcases rd with _ | (b | _ | _ | _) <;> simp [leavesAlone] at hs0
    have k : SK c w w1 := by
      rcases step_sk hd s h1 hk hl ho with g | ⟨d, k, q, con, rfl, g1, _, g3, _⟩ | ⟨d, up, b, wr, con, rfl, _, g2, _⟩
      · exact g
      · rw [hw q (List.mem_of_getElem? g1)] at g3; cases g3
      · simp only [leavesAlone, Bool.and_eq_true, Bool.not_eq_true', List.contains_eq_mem, decide_eq_false_iff_not] at hs0
        exact absurd (cmdsOf_sub _ _ g2) hs0.2
    have hl1 : c ∈ w1.live := step_stays hd s h1 hl ho
    have hw1 : ∀ q ∈ w1.wait, q.force = false := by
      intro q hq
      rcases step_wait hd s h1 q hq with g | ⟨q0, rfl, rfl⟩
      · exact hw q g
      · simp only [leavesAlone, Bool.not_eq_true'] at hs0
        unfold Req.norm
        split <;> exact hs0
    obtain ⟨r1, r2⟩ := ih ((world_step_inv hd env s h1).tick (w1.tick + 1)) (by rw [← hk]; exact k.kind) hl1 hw1 (fun t ht => hs t (by simp [ht])) h2
    exact ⟨r1, k.trans (SK.trans (SK.tick (.refl c w1) _) r2)⟩

end Conman
