import Verif.Lemma.World

namespace Conman

/-- Fields a passive change never touches. -/
structure SameFlags (o o' : Obj) : Prop where
  kind : o'.kind = o.kind
  fd : o'.fd = o.fd
  pin : o'.pin = o.pin
  gotEscape : o'.gotEscape = o.gotEscape
  suspend : o'.suspend = o.suspend
  quiet : o'.quiet = o.quiet
  force : o'.force = o.force
  join : o'.join = o.join
  bcast : o'.bcast = o.bcast
  cmd : o'.cmd = o.cmd
  opts : o'.opts = o.opts
  stamps : o'.stamps = o.stamps
  conn : o'.conn = o.conn
  iac : o'.iac = o.iac
  resetCmd : o'.resetCmd = o.resetCmd
  resetPid : o'.resetPid = o.resetPid
  resetTimer : o'.resetTimer = o.resetTimer
  gen : o'.gen = o.gen

theorem SameFlags.refl (o : Obj) : SameFlags o o := by constructor <;> rfl
theorem SameFlags.trans {a b c : Obj} (h1 : SameFlags a b) (h2 : SameFlags b c) : SameFlags a c := by
  constructor <;> (first | rw [h2.kind, h1.kind] | rw [h2.fd, h1.fd] | rw [h2.pin, h1.pin] | rw [h2.gotEscape, h1.gotEscape] | rw [h2.suspend, h1.suspend] | rw [h2.quiet, h1.quiet] | rw [h2.force, h1.force] | rw [h2.join, h1.join] | rw [h2.bcast, h1.bcast] | rw [h2.cmd, h1.cmd] | rw [h2.opts, h1.opts] | rw [h2.stamps, h1.stamps] | rw [h2.conn, h1.conn] | rw [h2.iac, h1.iac] | rw [h2.resetCmd, h1.resetCmd] | rw [h2.resetPid, h1.resetPid] | rw [h2.resetTimer, h1.resetTimer] | rw [h2.gen, h1.gen])

theorem SameFlags.write (o : Obj) (d : List UInt8) (b : Bool) : SameFlags o (o.write d b) := by
  rcases o.write_cases d b with h | ⟨_, h⟩ <;> rw [h] <;> constructor <;> rfl

theorem Passive.same {o o' : Obj} (h : Passive env o o') : SameFlags o o' := by
  induction h with
  | refl => exact .refl _
  | trans _ _ h1 h2 => exact h1.trans h2
  | info => exact .write _ _ _
  | links => constructor <;> rfl
  | orphan => constructor <;> rfl

/-! ### Object invariant -/

theorem enq_length (q d : List UInt8) : (enq q d).length ≤ Spec.queueCap := by
  unfold enq Spec.lastN
  rw [List.length_drop]
  omega

structure OInv (o : Obj) : Prop where
  cap : o.pend.length ≤ Spec.queueCap
  susp : o.kind = .client → o.suspend = true → o.pout = false
  closed : o.fd = false → o.pin = false ∧ o.pout = false

theorem OInv.write {o : Obj} (h : OInv o) (d : List UInt8) (b : Bool) : OInv (o.write d b) := by
  rcases o.write_cases d b with e | ⟨_, e⟩
  · rw [e]; exact h
  · rw [e]
    constructor
    · dsimp only
      exact enq_length o.pend d
    · intro hk hs
      simp only at hk hs ⊢
      rw [h.susp hk hs]; simp [hk, hs]
    · intro hf
      simp only at hf ⊢
      have := h.closed hf
      simp [this, hf]

theorem Passive.oinv {o o' : Obj} (h : Passive env o o') : OInv o → OInv o' := by
  induction h with
  | refl => exact id
  | trans _ _ h1 h2 => exact fun h => h2 (h1 h)
  | info => exact fun h => h.write _ _
  | links => exact fun h => ⟨h.cap, h.susp, h.closed⟩
  | orphan => exact fun h => ⟨h.cap, h.susp, h.closed⟩

/-! ### Steps that do not touch links -/

/-- Object-level change that keeps links and life. -/
structure OLoc (o o' : Obj) : Prop where
  kind : o'.kind = o.kind
  rd : o'.readers = o.readers
  wr : o'.writers = o.writers
  eof : o'.eof = o.eof
  bcast : o'.bcast = o.bcast
  fd : o'.fd = o.fd
  gen : o'.gen = o.gen
  oi : OInv o → OInv o'

theorem OLoc.refl (o : Obj) : OLoc o o := ⟨rfl, rfl, rfl, rfl, rfl, rfl, rfl, id⟩
theorem OLoc.trans {a b c : Obj} (h : OLoc a b) (h' : OLoc b c) : OLoc a c :=
  ⟨by rw [h'.kind, h.kind], by rw [h'.rd, h.rd], by rw [h'.wr, h.wr], by rw [h'.eof, h.eof],
   by rw [h'.bcast, h.bcast], by rw [h'.fd, h.fd], by rw [h'.gen, h.gen], fun x => h'.oi (h.oi x)⟩

theorem OLoc.write (o : Obj) (d : List UInt8) (b : Bool) : OLoc o (o.write d b) :=
  ⟨by simp, by simp, by simp, by simp, (SameFlags.write o d b).bcast, by simp, by simp, fun h => h.write d b⟩

theorem Noted.oloc {o o' : Obj} (h : Noted env o o') : OLoc o o' := by
  induction h with
  | refl => exact .refl _
  | trans _ _ h1 h2 => exact h1.trans h2
  | info => exact .write _ _ _

theorem OLoc.writes (l : List (List UInt8)) (o : Obj) (b : Bool) :
    OLoc o (l.foldl (fun o d => o.write d b) o) := by
  induction l generalizing o with
  | nil => exact .refl _
  | cons d l ih => exact (OLoc.write o d b).trans (ih _)

theorem OLoc.writeLog (o : Obj) (clk : Nat → List UInt8) (d : List UInt8) : OLoc o (o.writeLog clk d) := by
  unfold Obj.writeLog
  refine OLoc.trans (b := { o with line := _, stamps := _ }) ?_ (OLoc.writes _ _ _)
  exact ⟨rfl, rfl, rfl, rfl, rfl, rfl, rfl, fun h => ⟨h.cap, h.susp, h.closed⟩⟩

/-- Kinds, the list of objects and the waiting requests stay. -/
structure Kp (w w' : World) : Prop where
  kind : ∀ j, (w'.obj j).kind = (w.obj j).kind
  live : w'.live = w.live
  wait : w'.wait = w.wait

theorem Kp.refl (w : World) : Kp w w := ⟨fun _ => rfl, rfl, rfl⟩
theorem Kp.trans {a b c : World} (h : Kp a b) (h' : Kp b c) : Kp a c :=
  ⟨fun j => by rw [h'.kind, h.kind], by rw [h'.live, h.live], by rw [h'.wait, h.wait]⟩
theorem PStep.wait {w w' : World} (h : PStep env w w') : w'.wait = w.wait := by
  have := h.rest; simp only [World.rest, Prod.mk.injEq] at this; exact this.2.2.2.2
theorem PStep.kp {w w' : World} (h : PStep env w w') : Kp w w' := ⟨h.kind, h.live, h.wait⟩

structure LStep (w w' : World) : Prop where
  loc : ∀ j, OLoc (w.obj j) (w'.obj j)
  live : w'.live = w.live
  wait : w'.wait = w.wait

theorem LStep.refl (w : World) : LStep w w := ⟨fun _ => .refl _, rfl, rfl⟩
theorem LStep.trans {a b c : World} (h : LStep a b) (h' : LStep b c) : LStep a c :=
  ⟨fun j => (h.loc j).trans (h'.loc j), by rw [h'.live, h.live], by rw [h'.wait, h.wait]⟩
theorem LStep.kp {w w' : World} (h : LStep w w') : Kp w w' := ⟨fun j => (h.loc j).kind, h.live, h.wait⟩
theorem LStep.sl {w w' : World} (h : LStep w w') : SL w w' :=
  ⟨fun j => ⟨(h.loc j).kind, (h.loc j).rd, (h.loc j).wr⟩, h.live⟩
theorem LStep.mod (w : World) (i : Nat) (f : Obj → Obj) (hf : OLoc (w.obj i) (f (w.obj i))) :
    LStep w (w.mod i f) := by
  refine ⟨fun j => ?_, rfl, rfl⟩
  rw [World.mod_obj]
  split
  · rename_i h; subst h; exact hf
  · exact .refl _
theorem NoteStep.lstep {w w' : World} {l : List Nat} (h : NoteStep env w w' l) : LStep w w' :=
  ⟨fun j => (h.touched j).oloc, h.SL.2, h.pstep.wait⟩

theorem LStep.foldl {α : Type} (f : World → α → World) (l : List α) (w : World)
    (hf : ∀ v a, a ∈ l → LStep w v → LStep v (f v a)) : LStep w (l.foldl f w) := by
  induction l generalizing w with
  | nil => exact .refl _
  | cons a l ih =>
    have h1 := hf w a (by simp) (.refl _)
    simp only [List.foldl_cons]
    exact h1.trans (ih (f w a) (fun v b hb hv => hf v b (by simp [hb]) (h1.trans hv)))

/-! ### The invariant -/

/-- Object-level change that keeps the links. -/
structure OW (o o' : Obj) : Prop where
  kind : o'.kind = o.kind
  rd : o'.readers = o.readers
  wr : o'.writers = o.writers
  bcast : o'.bcast = o.bcast
  eof : o.kind = .client → o.eof = true → o'.eof = true
  oi : OInv o → OInv o'

theorem OLoc.ow {o o' : Obj} (h : OLoc o o') : OW o o' :=
  ⟨h.kind, h.rd, h.wr, h.bcast, fun _ hh => by rw [h.eof]; exact hh, h.oi⟩
theorem OW.refl (o : Obj) : OW o o := (OLoc.refl o).ow

structure WStep (w w' : World) : Prop where
  loc : ∀ j, OW (w.obj j) (w'.obj j)
  live : w'.live = w.live
  wait : w'.wait = w.wait

theorem LStep.ws {w w' : World} (h : LStep w w') : WStep w w' := ⟨fun j => (h.loc j).ow, h.live, h.wait⟩
theorem WStep.kp {w w' : World} (h : WStep w w') : Kp w w' := ⟨fun j => (h.loc j).kind, h.live, h.wait⟩
theorem WStep.mod (w : World) (i : Nat) (f : Obj → Obj) (hf : OW (w.obj i) (f (w.obj i))) :
    WStep w (w.mod i f) := by
  refine ⟨fun j => ?_, rfl, rfl⟩
  rw [World.mod_obj]
  split
  · rename_i h; subst h; exact hf
  · exact .refl _
theorem WStep.sl {w w' : World} (h : WStep w w') : SL w w' :=
  ⟨fun j => ⟨(h.loc j).kind, (h.loc j).rd, (h.loc j).wr⟩, h.live⟩

/-- The links a client can have. -/
def ClientShape (o : Obj) : Prop :=
  (o.bcast = true → o.writers = []) ∧
  (o.bcast = false → (o.readers = [] ∧ o.writers = []) ∨
    ∃ con, o.writers = [con] ∧ (o.readers = [] ∨ o.readers = [con]))

theorem ClientShape.nil {o : Obj} (hr : o.readers = []) (hw : o.writers = []) : ClientShape o :=
  ⟨fun _ => hw, fun _ => Or.inl ⟨hr, hw⟩⟩

/-- The invariant, except for the shape of one client `x` being set up. -/
structure WInvX (w : World) (x : Option Nat) : Prop where
  l : LInv w
  cs : ∀ c, some c ≠ x → (w.obj c).kind = .client → ClientShape (w.obj c)
  orph : ∀ c ∈ w.live, some c ≠ x → (w.obj c).kind = .client → (w.obj c).readers = [] → (w.obj c).writers = [] →
    (w.obj c).eof = true
  oi : ∀ c, OInv (w.obj c)

abbrev WInv (w : World) : Prop := WInvX w none

theorem WInvX.weaken {w : World} (h : WInv w) (x : Option Nat) : WInvX w x :=
  ⟨h.l, fun c _ => h.cs c (by simp), fun c hc _ => h.orph c hc (by simp), h.oi⟩

theorem WInvX.close {w : World} {x : Nat} (h : WInvX w (some x)) (hs : ClientShape (w.obj x))
    (ho : (w.obj x).readers = [] → (w.obj x).writers = [] → (w.obj x).eof = true) : WInv w :=
  ⟨h.l, fun c _ hk => by
    by_cases e : c = x
    · subst e; exact hs
    · exact h.cs c (by simp [e]) hk,
   fun c hc _ hk hr hw => by
    by_cases e : c = x
    · subst e; exact ho hr hw
    · exact h.orph c hc (by simp [e]) hk hr hw, h.oi⟩

theorem WInvX.wstep {w w' : World} {x : Option Nat} (h : WInvX w x) (s : WStep w w') : WInvX w' x := by
  refine ⟨h.l.same s.sl, fun c hx hc => ?_, fun c hl hx hc hr hw => ?_, fun c => (s.loc c).oi (h.oi c)⟩
  · have hl := s.loc c
    have := h.cs c hx (by rw [← hl.kind]; exact hc)
    unfold ClientShape at this ⊢
    rw [hl.bcast, hl.rd, hl.wr]; exact this
  · have hl' := s.loc c
    have hk : (w.obj c).kind = .client := by rw [← hl'.kind]; exact hc
    exact hl'.eof hk (h.orph c (by rw [← s.live]; exact hl) hx hk (by rw [← hl'.rd]; exact hr)
      (by rw [← hl'.wr]; exact hw))

theorem LInv.client_readers {w : World} (h : LInv w) {c x : Nat} (hc : (w.obj c).kind = .client)
    (hx : x ∈ (w.obj c).readers) : (w.obj x).kind.isConsole = true := by
  rcases h.kinds c x hx with h1 | h1
  · exact h1.2
  · rw [hc] at h1; simp [OKind.isConsole] at h1

theorem LInv.client_writers {w : World} (h : LInv w) {c x : Nat} (hc : (w.obj c).kind = .client)
    (hx : x ∈ (w.obj c).writers) : (w.obj x).kind.isConsole = true := by
  rcases h.kindW hx with h1 | h1
  · rw [hc] at h1; simp [OKind.isConsole] at h1
  · exact h1.1

theorem not_client_of_console {k : OKind} (h : k.isConsole = true) : k ≠ .client := by
  rintro rfl; simp [OKind.isConsole] at h

/-- Removing objects that are clients does not touch the links of other clients. -/
theorem filter_clients {w : World} (l : List Nat) (S : List Nat)
    (hl : ∀ x ∈ l, (w.obj x).kind.isConsole = true) (hS : ∀ x ∈ S, (w.obj x).kind = .client) :
    l.filter (· ∉ S) = l := by
  apply List.filter_eq_self.2
  intro a ha
  simp only [decide_eq_true_eq]
  intro hs
  exact not_client_of_console (hl a ha) (hS a hs)

theorem LinkSpec.client_links {w w' : World} {src dst : Nat} (h : LInv w) (s : LinkSpec env w w' src dst) (j : Nat)
    (hj : (w.obj j).kind = .client) :
    (w'.obj j).readers = (if j ∈ w.stealSet src dst then [] else (w.obj j).readers) ++ (if j = src then [dst] else []) ∧
    (w'.obj j).writers = (if j ∈ w.stealSet src dst then [] else (w.obj j).writers) ++ (if j = dst then [src] else []) := by
  rw [s.rd j, s.wr j,
    filter_clients (w := w) _ _ (fun x hx => h.client_readers hj hx) (fun x hx => stealSet_client h hx),
    filter_clients (w := w) _ _ (fun x hx => h.client_writers hj hx) (fun x hx => stealSet_client h hx)]
  exact ⟨rfl, rfl⟩

/-- A stolen client is marked end-of-file. -/
theorem linkObjs_stolen_eof {w : World} (h : LInv w) (env : Env) {src dst c : Nat}
    (hS : c ∈ w.stealSet src dst) : ((w.linkObjs env src dst).obj c).eof = true := by
  have hm := (stealSet_mem hS).1
  obtain ⟨wb, hn, he⟩ := linkPre_notes h env src dst
  have hib := IsoL.of_notes h hn
  have hkb : ∀ y ∈ w.stealSet src dst, (wb.obj y).kind = .client := by
    intro y hy; rw [hib.pstep.kind]; exact stealSet_client h hy
  have := unlinkAll_eof env (w.stealSet src dst) hib.inv c hS (hkb c hS) (Or.inr (by
    rw [(hn.SL.1 c).2.1]
    intro hnil
    have := (h.sym c dst).2 hm
    rw [hnil] at this; simp at this)) hkb
  rw [linkObjs_obj, he]; exact this

theorem stealSet_ne {w : World} (h : LInv w) {src dst c : Nat} (ok : LinkOk w src dst)
    (hS : c ∈ w.stealSet src dst) : c ≠ src ∧ c ≠ dst := by
  constructor
  · rintro rfl
    exact ok.new ((h.sym c dst).2 (stealSet_mem hS).1)
  · rintro rfl
    exact not_client_of_console (stealSet_mem hS).2.2.1 (stealSet_client h hS)

/-- `link_objs` keeps the invariant. -/
theorem WInvX.link {w : World} {x : Option Nat} (h : WInvX w x) (env : Env) {src dst : Nat} (ok : LinkOk w src dst)
    (hsrc : some src ≠ x → (w.obj src).kind = .client → (w.obj src).bcast = false →
      (w.obj src).readers = [] ∧ (w.obj src).writers = [dst])
    (hdst : some dst ≠ x → (w.obj dst).kind = .client →
      ((w.obj dst).bcast = false ∧ (w.obj dst).writers = [] ∧
        ((w.obj dst).readers = [] ∨ (w.obj dst).readers = [src]))) :
    WInvX (w.linkObjs env src dst) x := by
  have s := linkObjs_spec h.l env ok
  refine ⟨s.inv, ?_, ?_, fun c => (s.pstep.touched c).oinv (h.oi c)⟩
  · intro c hx hc
    have hk : (w.obj c).kind = .client := by rw [← s.pstep.kind]; exact hc
    have hb : ((w.linkObjs env src dst).obj c).bcast = (w.obj c).bcast := ((s.pstep.touched c).same).bcast
    obtain ⟨hr, hw⟩ := s.client_links h.l c hk
    by_cases hS : c ∈ w.stealSet src dst
    · obtain ⟨hne, hne2⟩ := stealSet_ne h.l ok hS
      apply ClientShape.nil
      · rw [hr]; simp [hS, hne]
      · rw [hw]; simp [hS, hne2]
    · simp only [hS, if_false] at hr hw
      unfold ClientShape
      rw [hb, hr, hw]
      by_cases e1 : c = src
      · subst e1
        have e2 : c ≠ dst := by
          rintro rfl
          rcases ok.kinds with h1 | h1
          · exact not_client_of_console h1.2 hk
          · exact not_client_of_console h1.1 hk
        simp only [if_true, e2, if_false, List.append_nil]
        have hcsh := h.cs c hx hk
        refine ⟨hcsh.1, fun hbf => Or.inr ⟨dst, (hsrc hx hk hbf).2, Or.inr ?_⟩⟩
        rw [(hsrc hx hk hbf).1]; rfl
      · by_cases e2 : c = dst
        · subst e2
          obtain ⟨h1, h2, h3⟩ := hdst hx hk
          simp only [e1, if_true, if_false, List.append_nil]
          rw [h1, h2]
          refine ⟨fun hh => by simp at hh, fun _ => Or.inr ⟨src, by simp, h3⟩⟩
        · simp only [e1, e2, if_false, List.append_nil]
          exact h.cs c hx hk
  · intro c hl hxc hc hr hw
    have hk : (w.obj c).kind = .client := by rw [← s.pstep.kind]; exact hc
    obtain ⟨hr', hw'⟩ := s.client_links h.l c hk
    by_cases hS : c ∈ w.stealSet src dst
    · exact linkObjs_stolen_eof h.l env hS
    · simp only [hS, if_false] at hr' hw'
      rw [hr'] at hr; rw [hw'] at hw
      have e1 : (w.obj c).readers = [] := (List.append_eq_nil_iff.1 hr).1
      have e2 : (w.obj c).writers = [] := (List.append_eq_nil_iff.1 hw).1
      exact s.eofOld c (h.orph c (by rw [← s.pstep.live]; exact hl) hxc hk e1 e2)

/-- `unlink_objs` of a client's link to a console keeps the invariant. -/
theorem WInvX.unlink {w : World} {x : Option Nat} (h : WInvX w x) (env : Env) {src dst : Nat}
    (hsc : (w.obj src).kind = .client) (hdc : (w.obj dst).kind.isConsole = true)
    (hr : (w.obj src).readers = [dst]) : WInvX (w.unlinkObjs env src dst) x := by
  have u := unlinkObjs_spec h.l env src dst
  refine ⟨u.inv, ?_, ?_, fun c => (u.pstep.touched c).oinv (h.oi c)⟩
  · intro c hx hc
    have hk : (w.obj c).kind = .client := by rw [← u.pstep.kind]; exact hc
    have hne : c ≠ dst := by rintro rfl; exact not_client_of_console hdc hk
    have hcs := h.cs c hx hk
    unfold ClientShape at hcs ⊢
    rw [((u.pstep.touched c).same).bcast, u.rd c, u.wr c, if_neg hne]
    by_cases e : c = src
    · subst e
      rw [if_pos rfl, hr]
      simp only [ne_eq, decide_not, List.filter_cons, decide_true, Bool.not_true, Bool.false_eq_true,
        if_false, List.filter_nil]
      refine ⟨hcs.1, fun hb => ?_⟩
      rcases hcs.2 hb with h1 | ⟨con, h1, _⟩
      · exact Or.inl ⟨trivial, h1.2⟩
      · exact Or.inr ⟨con, h1, Or.inl trivial⟩
    · rw [if_neg e]; exact hcs
  · intro c hl hx hc hr' hw'
    have hk : (w.obj c).kind = .client := by rw [← u.pstep.kind]; exact hc
    have hne : c ≠ dst := by rintro rfl; exact not_client_of_console hdc hk
    by_cases e : c = src
    · subst e
      exact u.eofSrc ((Obj.orphan_iff _).2 ⟨hc, hr', hw'⟩)
    · rw [u.rd c, if_neg e] at hr'
      rw [u.wr c, if_neg hne] at hw'
      exact u.eofOld c (h.orph c (by rw [← u.pstep.live]; exact hl) hx hk hr' hw')

/-- A client is destroyed. -/
theorem WInvX.destroy {w : World} {x : Option Nat} (h : WInvX w (some i)) (env : Env)
    (hk : (w.obj i).kind = .client) (l : List Nat) (hl : l = w.live.filter (fun j => j ≠ i)) :
    WInvX ({ (w.unlinkObj env i) with live := l } : World) x := by
  have u := unlinkObj_spec h.l env i
  have hcl : ∀ c, (w.obj c).kind = .client → c ≠ i →
      ((w.unlinkObj env i).obj c).readers = (w.obj c).readers ∧
      ((w.unlinkObj env i).obj c).writers = (w.obj c).writers := by
    intro c hc hne
    rw [u.rd c, u.wr c, if_neg hne, if_neg hne]
    constructor
    · apply filter_ne_of_not_mem
      intro hm; exact not_client_of_console (h.l.client_readers hc hm) hk
    · apply filter_ne_of_not_mem
      intro hm; exact not_client_of_console (h.l.client_writers hc hm) hk
  refine ⟨⟨u.inv.sym, u.inv.kinds, u.inv.ndR, u.inv.ndW, ?_⟩, ?_, ?_, fun c => (u.pstep.touched c).oinv (h.oi c)⟩
  · intro a b hb
    have h1 := u.inv.live a b hb
    have ha : a ≠ i := by
      rintro rfl
      have := u.rd a; simp only [if_true] at this
      rw [this] at hb; simp at hb
    have hb' : b ≠ i := by
      rintro rfl
      have := u.wr b; simp only [if_true] at this
      have h2 := (u.inv.sym a b).1 hb
      rw [this] at h2; simp at h2
    rw [hl]
    simp only [List.mem_filter, decide_eq_true_eq]
    rw [u.pstep.live] at h1
    exact ⟨⟨h1.1, by simpa using ha⟩, ⟨h1.2, by simpa using hb'⟩⟩
  · intro c _ hc
    have hk' : (w.obj c).kind = .client := by rw [← u.pstep.kind]; exact hc
    by_cases e : c = i
    · subst e
      apply ClientShape.nil
      · have := u.rd c; simpa using this
      · have := u.wr c; simpa using this
    · have := hcl c hk' e
      have hcs := h.cs c (by simp [e]) hk'
      unfold ClientShape at hcs ⊢
      show ((((w.unlinkObj env i).obj c).bcast = true → _) ∧ _)
      rw [((u.pstep.touched c).same).bcast, this.1, this.2]; exact hcs
  · intro c hc _ hkc hr hw
    have hk' : (w.obj c).kind = .client := by rw [← u.pstep.kind]; exact hkc
    rw [hl] at hc
    simp only [List.mem_filter, ne_eq, decide_not, Bool.not_eq_eq_eq_not, Bool.not_true,
      decide_eq_false_iff_not] at hc
    have := hcl c hk' hc.2
    exact u.eofOld c (h.orph c hc.1 (by simp [hc.2]) hk' (this.1 ▸ hr) (this.2 ▸ hw))

/-! ### The functions of the model -/

theorem break1_lstep (w : World) (con : Nat) : LStep w (w.break1 con) := by
  unfold World.break1
  split
  · exact .mod _ _ _ (.write _ _ _)
  · exact ⟨fun _ => .refl _, rfl, rfl⟩
  · exact ⟨fun _ => .refl _, rfl, rfl⟩
  · split
    · exact .mod _ _ _ (.write _ _ _)
    · exact .refl _
  · exact .refl _

theorem give_lstep (w : World) (env : Env) (d : List UInt8) (i : Nat) : LStep w (w.give env d i) := by
  unfold World.give
  apply LStep.mod
  split
  · exact .writeLog _ _ _
  · exact .write _ _ _

theorem deliver_lstep (w : World) (env : Env) (src : Nat) (d : List UInt8) : LStep w (w.deliver env src d) := by
  unfold World.deliver
  split
  · exact .refl _
  · exact .foldl _ _ _ (fun v a _ _ => give_lstep v env d a)

theorem reset1_lstep {w : World} (h : LInv w) (env : Env) (c con : Nat) (hc : (w.obj con).kind.isConsole = true) :
    LStep w (w.reset1 env c con) := by
  unfold World.reset1
  have tk : ∀ v : World, LStep w v → LStep w ({ v with tick := v.tick + 1 } : World) :=
    fun v hv => ⟨hv.loc, hv.live, hv.wait⟩
  apply tk
  split
  · exact .refl _
  split
  · exact (notify_step h env con _ hc).lstep
  split
  · exact (notify_step h env con _ hc).lstep
  split
  · exact (notify_step h env con _ hc).lstep
  · rename_i pid _
    have h1 : LStep w (({ w with running := w.running ++ [(con, pid)], fx := w.fx ++ [.resetStart con pid] } : World).mod con
          (fun o => { o with resetPid := some pid, resetTimer := true })) := by
      refine LStep.trans (b := ({ w with running := w.running ++ [(con, pid)], fx := w.fx ++ [.resetStart con pid] } : World))
        ⟨fun _ => .refl _, rfl, rfl⟩ ?_
      apply LStep.mod
      exact ⟨rfl, rfl, rfl, rfl, rfl, rfl, rfl, fun h => ⟨h.cap, h.susp, h.closed⟩⟩
    refine h1.trans (notify_step (h.same h1.sl) env con _ ?_).lstep
    rw [(h1.sl.1 con).1]; exact hc

theorem toggle_inv {w w' : World} {x : Option Nat} (h : WInvX w x) (env : Env) (c : Nat) (hx : some c ≠ x)
    (hk : (w.obj c).kind = .client) (ht : w.toggle env c = some w') : WInvX w' x ∧ Kp w w' := by
  unfold World.toggle at ht
  split at ht
  · simp only [Option.some.injEq] at ht; subst ht; exact ⟨h, .refl _⟩
  rename_i hb
  have hb : (w.obj c).bcast = false := by simpa using hb
  split at ht
  · simp at ht
  rename_i con t hw
  have hcs := (h.cs c hx hk).2 hb
  rw [hw] at hcs
  have hcs' : t = [] ∧ ((w.obj c).readers = [] ∨ (w.obj c).readers = [con]) := by
    rcases hcs with h1 | ⟨con', h1, h2⟩
    · simp at h1
    · simp only [List.cons.injEq] at h1; rw [h1.1]; exact ⟨h1.2, h2⟩
  obtain ⟨rfl, hrd⟩ := hcs'
  have hcon : (w.obj con).kind.isConsole = true := h.l.client_writers hk (x := con) (by simp [hw])
  have hlv := h.l.live con c ((h.l.sym con c).2 (by simp [hw]))
  have hms : ∀ cm, LStep w (w.mod c (fun o => { o with cmd := cm })) := fun cm =>
    .mod _ _ _ ⟨rfl, rfl, rfl, rfl, rfl, rfl, rfl, fun h => ⟨h.cap, h.susp, h.closed⟩⟩
  split at ht
  · rename_i hne
    simp only [Option.some.injEq] at ht
    have hr : (w.obj c).readers = [con] := hrd.resolve_left hne
    subst ht
    have s := hms .monitor
    have h1 := h.wstep s.ws
    have u := unlinkObjs_spec h1.l env c con
    refine ⟨h1.unlink env (by rw [(s.loc c).kind]; exact hk) (by rw [(s.loc con).kind]; exact hcon)
      (by rw [(s.loc c).rd]; exact hr), s.kp.trans u.pstep.kp⟩
  · rename_i hne
    simp only [Option.some.injEq] at ht
    have hr : (w.obj c).readers = [] := by simpa using hne
    subst ht
    have s := hms .connect
    have h1 := h.wstep s.ws
    have ok : LinkOk (w.mod c (fun o => { o with cmd := .connect })) c con := by
      refine ⟨Or.inl ⟨?_, ?_⟩, ?_, ?_⟩
      · rw [(s.loc c).kind]; exact hk
      · rw [(s.loc con).kind]; exact hcon
      · rw [(s.loc c).rd, hr]; simp
      · rw [s.live]; exact ⟨hlv.2, hlv.1⟩
    refine ⟨h1.link env ok ?_ ?_, s.kp.trans (linkObjs_spec h1.l env ok).pstep.kp⟩
    · intro _ _ _
      rw [(s.loc c).rd, (s.loc c).wr, hr, hw]; exact ⟨rfl, rfl⟩
    · intro _ hkk
      rw [(s.loc con).kind] at hkk
      exact absurd hkk (not_client_of_console hcon)

theorem act_inv {w w' : World} {x : Option Nat} (h : WInvX w x) (env : Env) (c : Nat) (hx : some c ≠ x)
    (hk : (w.obj c).kind = .client) (a : UInt8) (ht : w.act env c a = some w') :
    WInvX w' x ∧ Kp w w' := by
  have hloc : ∀ v, LStep w v → w' = v → WInvX w' x ∧ Kp w w' := by
    rintro v hv rfl
    exact ⟨h.wstep hv.ws, hv.kp⟩
  have htog : ∀ f j, (w.mod c (fun o => { o with force := f, join := j })).toggle env c = some w' →
      WInvX w' x ∧ Kp w w' := by
    intro f j hh
    have s : LStep w (w.mod c (fun o => { o with force := f, join := j })) :=
      .mod _ _ _ ⟨rfl, rfl, rfl, rfl, rfl, rfl, rfl, fun h => ⟨h.cap, h.susp, h.closed⟩⟩
    have := toggle_inv (h.wstep s.ws) env c hx (by rw [(s.loc c).kind]; exact hk) hh
    exact ⟨this.1, s.kp.trans this.2⟩
  unfold World.act at ht
  split at ht
  · simp only [Option.some.injEq] at ht
    exact hloc _ (.foldl _ _ _ (fun v a _ _ => break1_lstep v a)) ht.symm
  split at ht
  · simp only [Option.some.injEq] at ht
    exact hloc _ (.foldl _ _ _ (fun v a _ _ => .mod _ _ _ (.write _ _ _))) ht.symm
  split at ht
  · exact htog _ _ ht
  split at ht
  · exact htog _ _ ht
  split at ht
  · split at ht
    · simp only [Option.some.injEq] at ht; exact hloc _ (.refl _) ht.symm
    · simp only [Option.some.injEq] at ht; exact hloc _ (.mod _ _ _ (.write _ _ _)) ht.symm
  split at ht
  · exact htog _ _ ht
  split at ht
  · simp only [Option.some.injEq] at ht
    refine hloc _ (.mod _ _ _ (OLoc.trans ?_ (.write _ _ _))) ht.symm
    exact ⟨rfl, rfl, rfl, rfl, rfl, rfl, rfl, fun h => ⟨h.cap, h.susp, h.closed⟩⟩
  split at ht
  · simp only [Option.some.injEq] at ht
    refine hloc _ (.foldl _ _ _ (fun v a ha hv => reset1_lstep (h.l.same hv.sl) env c a ?_)) ht.symm
    rw [(hv.loc a).kind]; exact h.l.client_readers hk ha
  split at ht
  · simp only [Option.some.injEq] at ht
    refine hloc _ (.mod _ _ _ ⟨rfl, rfl, rfl, rfl, rfl, rfl, rfl, fun h => ⟨h.cap, ?_, ?_⟩⟩) ht.symm
    · intro _ hs; simp only at hs ⊢; simp at hs; simp [hs]
    · intro hf; simp only at hf ⊢; exact ⟨(h.closed hf).1, by simp [hf]⟩
  · simp only [Option.some.injEq] at ht; exact hloc _ (.refl _) ht.symm

theorem acts_inv (env : Env) (c : Nat) (x : Option Nat) (hx : some c ≠ x) (as : List UInt8) :
    ∀ {w w' : World}, WInvX w x → (w.obj c).kind = .client → w.acts env c as = some w' →
    WInvX w' x ∧ Kp w w' := by
  induction as with
  | nil => intro w w' h hk ht; simp only [World.acts, Option.some.injEq] at ht; subst ht; exact ⟨h, .refl _⟩
  | cons a as ih =>
    intro w w' h hk ht
    simp only [World.acts, Option.bind_eq_some_iff] at ht
    obtain ⟨w1, h1, h2⟩ := ht
    obtain ⟨h3, h4⟩ := act_inv h env c hx hk a h1
    obtain ⟨h6, h7⟩ := ih h3 (by rw [h4.kind]; exact hk) h2
    exact ⟨h6, h4.trans h7⟩

/-- Kinds and waiting requests stay; only the client `i` may leave. -/
structure Kq (w w' : World) (i : Nat) : Prop where
  kind : ∀ j, (w'.obj j).kind = (w.obj j).kind
  live : w'.live = w.live ∨ ((w.obj i).kind = .client ∧ w'.live = w.live.filter (fun j => j ≠ i))
  wait : w'.wait = w.wait

theorem Kp.kq {w w' : World} (h : Kp w w') (i : Nat) : Kq w w' i := ⟨h.kind, Or.inl h.live, h.wait⟩
theorem Kp.transq {a b c : World} {i : Nat} (h : Kp a b) (h' : Kq b c i) : Kq a c i :=
  ⟨fun j => by rw [h'.kind, h.kind], by rw [← h.live, ← h.kind]; exact h'.live, by rw [h'.wait, h.wait]⟩
theorem Kq.transp {a b c : World} {i : Nat} (h : Kq a b i) (h' : Kp b c) : Kq a c i :=
  ⟨fun j => by rw [h'.kind, h.kind], by rw [h'.live]; exact h.live, by rw [h'.wait, h.wait]⟩

theorem shutdown_inv {w : World} (h : WInv w) (env : Env) (up : Bool) (i : Nat) :
    WInv (w.shutdown env up i) ∧ Kq w (w.shutdown env up i) i := by
  unfold World.shutdown
  split
  · exact ⟨h, (Kp.refl w).kq i⟩
  have hoi : ∀ o : Obj, OInv ({ o with fd := false, pin := false, pout := false, pend := [], eof := false, gen := o.gen + 1, hist := o.hist ++ [none] }) :=
    fun o => ⟨by simp, fun _ _ => rfl, fun _ => ⟨rfl, rfl⟩⟩
  have hloc : (w.obj i).kind ≠ .client → WStep w (w.mod i (fun o =>
      { o with fd := false, pin := false, pout := false, pend := [], eof := false, gen := o.gen + 1, hist := o.hist ++ [none] })) :=
    fun hne => .mod _ _ _ ⟨rfl, rfl, rfl, rfl, fun hk => absurd hk hne, fun _ => hoi _⟩
  have hks : (w.mod i (fun o =>
      { o with fd := false, pin := false, pout := false, pend := [], eof := false, gen := o.gen + 1, hist := o.hist ++ [none] })).obj i =
      { w.obj i with fd := false, pin := false, pout := false, pend := [], eof := false, gen := (w.obj i).gen + 1, hist := (w.obj i).hist ++ [none] } := by
    rw [World.mod_self]
  simp only
  generalize hw1 : (w.mod i (fun o =>
      { o with fd := false, pin := false, pout := false, pend := [], eof := false, gen := o.gen + 1, hist := o.hist ++ [none] })) = w1 at hloc hks ⊢
  have hk1 : (w1.obj i).kind = (w.obj i).kind := by rw [hks]
  have hkp : Kp w w1 := by
    rw [← hw1]
    refine ⟨fun j => ?_, rfl, rfl⟩
    rw [World.mod_obj]; split <;> rfl
  have hcon : ∀ (v : World), WStep w1 v → (w.obj i).kind.isConsole = true → ∀ n,
      WInv (v.notify env i n) ∧ Kq w (v.notify env i n) i := by
    intro v hv hc n
    have h1 := (h.wstep (hloc (not_client_of_console hc))).wstep hv
    have n1 := (notify_step h1.l env i n (by rw [(hv.loc i).kind, hk1]; exact hc)).lstep
    exact ⟨h1.wstep n1.ws, (hkp.trans (hv.kp.trans n1.kp)).kq i⟩
  cases hk : (w1.obj i).kind
  case client =>
    have hX : WInvX w1 (some i) := by
      have := WInvX.weaken h (some i)
      have hsl : SL w w1 := by
        rw [← hw1]
        refine ⟨fun j => ?_, rfl⟩
        rw [World.mod_obj]; split <;> exact ⟨rfl, rfl, rfl⟩
      have hoth : ∀ c, c ≠ i → w1.obj c = w.obj c := by
        intro c hc; rw [← hw1]; exact World.mod_ne _ _ hc
      refine ⟨this.l.same hsl, fun c hc => ?_, fun c hl hc => ?_, fun c => ?_⟩
      · rw [hoth c (by simpa using hc)]; exact this.cs c hc
      · rw [hoth c (by simpa using hc)]; exact this.orph c (by rw [← hsl.2]; exact hl) hc
      · by_cases e : c = i
        · subst e; rw [hks]; exact hoi _
        · rw [hoth c e]; exact this.oi c
    simp only
    have u := unlinkObj_spec hX.l env i
    refine ⟨hX.destroy env hk _ rfl, ⟨fun j => ?_, Or.inr ⟨by rw [← hk1]; exact hk, ?_⟩, ?_⟩⟩
    · show ((w1.unlinkObj env i).obj j).kind = _
      rw [u.pstep.kind, hkp.kind]
    · rw [hkp.live]
    · show (w1.unlinkObj env i).wait = _
      rw [u.pstep.wait, hkp.wait]
  case logfile => simp only; exact ⟨h.wstep (hloc (by rw [← hk1, hk]; simp)), hkp.kq i⟩
  case serial =>
    have hc : (w.obj i).kind.isConsole = true := by rw [← hk1, hk]; rfl
    have hs : WStep w1 (w1.mod i (fun o => { o with fd := up, pin := up })) := by
      apply WStep.mod
      refine ⟨rfl, rfl, rfl, rfl, fun hkk => absurd hkk (by rw [hk]; simp), fun ho => ⟨ho.cap, ho.susp, ?_⟩⟩
      intro hup
      simp only at hup ⊢
      exact ⟨hup, by rw [hks]⟩
    simp only
    split
    · exact hcon _ hs hc _
    · exact ⟨(h.wstep (hloc (not_client_of_console hc))).wstep hs, (hkp.trans hs.kp).kq i⟩
  case test =>
    have hc : (w.obj i).kind.isConsole = true := by rw [← hk1, hk]; rfl
    have hs : WStep w1 (w1.mod i (fun o => { o with fd := up, pin := up })) := by
      apply WStep.mod
      refine ⟨rfl, rfl, rfl, rfl, fun hkk => absurd hkk (by rw [hk]; simp), fun ho => ⟨ho.cap, ho.susp, ?_⟩⟩
      intro hup
      simp only at hup ⊢
      exact ⟨hup, by rw [hks]⟩
    simp only
    exact ⟨(h.wstep (hloc (not_client_of_console hc))).wstep hs, (hkp.trans hs.kp).kq i⟩
  all_goals
    have hc : (w.obj i).kind.isConsole = true := by rw [← hk1, hk]; rfl
    simp only
    refine hcon _ ?_ hc _
    apply WStep.mod
    exact ⟨rfl, rfl, rfl, rfl, fun _ h => h, fun ho => ⟨ho.cap, ho.susp, ho.closed⟩⟩

theorem read_inv {w w' : World} (h : WInv w) (env : Env) (up : Bool) (i : Nat) (r : ReadRes)
    (ht : w.read env up i r = some w') : WInv w' ∧ Kq w w' i := by
  have triv : w' = w → WInv w' ∧ Kq w w' i := by rintro rfl; exact ⟨h, (Kp.refl _).kq i⟩
  unfold World.read at ht
  split at ht
  · simp only [Option.some.injEq] at ht; exact triv ht.symm
  split at ht
  · simp only [Option.some.injEq] at ht; exact triv ht.symm
  generalize (if (w.obj i).kind = .logfile then .err else r : ReadRes) = r at ht
  cases r with
  | again => simp only [Option.some.injEq] at ht; exact triv ht.symm
  | err => simp only [Option.some.injEq] at ht; subst ht; exact shutdown_inv h env up i
  | eof =>
    simp only [Option.some.injEq] at ht
    have s1 : WStep w (w.mod i (fun o => { o with eof := true, pin := false })) := by
      refine .mod _ _ _ ⟨rfl, rfl, rfl, rfl, fun _ _ => rfl, fun ho => ⟨ho.cap, ho.susp, ?_⟩⟩
      intro hf; exact ⟨rfl, (ho.closed hf).2⟩
    have h1 := h.wstep s1
    subst ht
    split
    · have := shutdown_inv h1 env up i
      exact ⟨this.1, s1.kp.transq this.2⟩
    · exact ⟨h1, s1.kp.kq i⟩
  | data d0 =>
    simp only at ht
    split at ht
    · rename_i hk
      simp only [Option.map_eq_some_iff] at ht
      obtain ⟨w1, h1, rfl⟩ := ht
      have := (acts_inv env i none (by simp) _ h hk h1)
      have s1 : LStep w1 (w1.mod i (fun o => { o with
          gotEscape := (processClientEscapes (w.obj i).gotEscape (d0.take readBufSize)).gotEscape })) :=
        .mod _ _ _ ⟨rfl, rfl, rfl, rfl, rfl, rfl, rfl, fun h => ⟨h.cap, h.susp, h.closed⟩⟩
      have s2 := s1.trans (deliver_lstep _ env i
        (processClientEscapes (w.obj i).gotEscape (d0.take readBufSize)).data)
      exact ⟨this.1.wstep s2.ws, (this.2.trans s2.kp).kq i⟩
    · simp only [Option.map_eq_some_iff] at ht
      obtain ⟨t, h1, rfl⟩ := ht
      have s1 : LStep w (w.mod i (fun o => ({ o with iac := t.iac }).write t.sent false)) := by
        refine .mod _ _ _ (OLoc.trans ?_ (.write _ _ _))
        exact ⟨rfl, rfl, rfl, rfl, rfl, rfl, rfl, fun h => ⟨h.cap, h.susp, h.closed⟩⟩
      have s2 := s1.trans (deliver_lstep _ env i (t.buf.take t.len))
      exact ⟨h.wstep s2.ws, s2.kp.kq i⟩
    · simp only [Option.some.injEq] at ht
      subst ht
      have s2 := deliver_lstep w env i (d0.take readBufSize)
      exact ⟨h.wstep s2.ws, s2.kp.kq i⟩

theorem push_ws (w : World) (i n : Nat) : WStep w (w.push i n) := by
  refine ⟨fun j => ?_, rfl, rfl⟩
  unfold World.push
  rw [World.mod_obj]
  split
  · refine ⟨rfl, rfl, rfl, rfl, fun _ h => h, fun ho => ⟨?_, ho.susp, ho.closed⟩⟩
    have := ho.cap
    simp only [List.length_drop] at this ⊢
    omega
  · exact .refl _

theorem drained_ws (w : World) (i : Nat) : WStep w (w.drained i) := by
  unfold World.drained
  split
  · exact .mod _ _ _ ⟨rfl, rfl, rfl, rfl, fun _ h => h, fun ho =>
        ⟨ho.cap, fun _ _ => rfl, fun hf => ⟨(ho.closed hf).1, rfl⟩⟩⟩
  · exact ⟨fun _ => .refl _, rfl, rfl⟩

theorem flush_inv {w : World} (h : WInv w) (env : Env) (up : Bool) (i : Nat) (r : WriteRes) :
    WInv (w.flush env up i r) ∧ Kq w (w.flush env up i r) i := by
  unfold World.flush
  simp only
  have s1 := push_ws w i (r.count (w.obj i).pend.length)
  have s2 := drained_ws (w.push i (r.count (w.obj i).pend.length)) i
  have h1 := (h.wstep s1).wstep s2
  have k1 := s1.kp.trans s2.kp
  split
  · exact ⟨h, (Kp.refl _).kq i⟩
  split
  · exact ⟨h, (Kp.refl _).kq i⟩
  split
  · have := shutdown_inv h1 env up i
    exact ⟨this.1, k1.transq this.2⟩
  · exact ⟨h1, k1.kq i⟩

end Conman
