import Verif.Lemma.WorldOwn
import Verif.Spec.Slow

/-
Lemmas for C114: no operation looks at the output that waits for one client, except the sending of that output and the
closing of a connection that the client has ended.
-/
set_option autoImplicit true
namespace Conman
open Spec

/-- Equal but for the output. -/
def EqOut (o o' : Obj) : Prop := ∃ p q, o' = { o with pend := p, pout := q }

theorem EqOut.refl (o : Obj) : EqOut o o := ⟨o.pend, o.pout, rfl⟩
theorem EqOut.symm {o o' : Obj} (h : EqOut o o') : EqOut o' o := by
  obtain ⟨p, q, rfl⟩ := h; exact ⟨o.pend, o.pout, rfl⟩
theorem EqOut.trans {a b c : Obj} (h : EqOut a b) (h' : EqOut b c) : EqOut a c := by
  obtain ⟨p, q, rfl⟩ := h; obtain ⟨p', q', rfl⟩ := h'; exact ⟨p', q', rfl⟩

structure Mute (m : Nat) (w v : World) : Prop where
  obj : ∀ j, j ≠ m → v.obj j = w.obj j
  self : EqOut (w.obj m) (v.obj m)
  live : v.live = w.live
  tick : v.tick = w.tick
  running : v.running = w.running
  wait : v.wait = w.wait
  fx : v.fx.filter (fun e => !isSentTo m e) = w.fx.filter (fun e => !isSentTo m e)

theorem Mute.refl (m : Nat) (w : World) : Mute m w w := ⟨fun _ _ => rfl, .refl _, rfl, rfl, rfl, rfl, rfl⟩
theorem Mute.symm {m : Nat} {w v : World} (h : Mute m w v) : Mute m v w :=
  ⟨fun j hj => (h.obj j hj).symm, h.self.symm, h.live.symm, h.tick.symm, h.running.symm, h.wait.symm, h.fx.symm⟩
theorem Mute.trans {m : Nat} {u w v : World} (h : Mute m u w) (h' : Mute m w v) : Mute m u v :=
  ⟨fun j hj => (h'.obj j hj).trans (h.obj j hj), h.self.trans h'.self, h'.live.trans h.live, h'.tick.trans h.tick,
    h'.running.trans h.running, h'.wait.trans h.wait, h'.fx.trans h.fx⟩

theorem Mute.any {m : Nat} {w v : World} (h : Mute m w v) (i : Nat) : EqOut (w.obj i) (v.obj i) := by
  by_cases hi : i = m
  · subst hi; exact h.self
  · rw [h.obj i hi]; exact .refl _

/-- An operation that does not look at the output of `m`. -/
def Resp (m : Nat) (f : World → World) : Prop := ∀ w v, Mute m w v → Mute m (f w) (f v)

theorem Resp.congr {m f} {g : World → World} (h : Resp m f) (e : ∀ w, g w = f w) : Resp m g := by
  have : g = f := funext e
  rw [this]; exact h
theorem Resp.id' (m : Nat) : Resp m (fun w => w) := fun _ _ h => h
theorem Resp.comp {m f g} (hg : Resp m g) (hf : Resp m f) : Resp m (fun w => g (f w)) := fun w v h => hg _ _ (hf w v h)

theorem Resp.get {m} (i : Nat) (g : Obj → World → World) (hg : ∀ o, Resp m (g o))
    (hi : ∀ o o', EqOut o o' → g o = g o') : Resp m (fun w => g (w.obj i) w) := by
  intro w v h
  show Mute m (g (w.obj i) w) (g (v.obj i) v)
  rw [← hi _ _ (h.any i)]
  exact hg _ w v h

theorem Resp.getO {m} {i : Nat} (hi : i ≠ m) (g : Obj → World → World) (hg : ∀ o, Resp m (g o)) :
    Resp m (fun w => g (w.obj i) w) := by
  intro w v h
  show Mute m (g (w.obj i) w) (g (v.obj i) v)
  rw [h.obj i hi]
  exact hg _ w v h

theorem Resp.time {m} (g : Nat → World → World) (h : ∀ t, Resp m (g t)) : Resp m (fun w => g w.tick w) := by
  intro w v hm
  show Mute m (g w.tick w) (g v.tick v)
  rw [hm.tick]; exact h _ w v hm

theorem Resp.ite {m f g} (c : Prop) [Decidable c] (hf : Resp m f) (hg : Resp m g) :
    Resp m (fun w => if c then f w else g w) := by
  by_cases hc : c
  · simp only [hc, if_true]; exact hf
  · simp only [hc, if_false]; exact hg

theorem Resp.foldl {α : Type} {m} (f : World → α → World) (l : List α) (h : ∀ x, Resp m (fun w => f w x)) :
    Resp m (fun w => l.foldl f w) := by
  induction l with
  | nil => exact Resp.id' m
  | cons x l ih => exact Resp.comp ih (h x)

theorem Resp.mod {m} (i : Nat) (f : Obj → Obj) (hf : ∀ o o', EqOut o o' → EqOut (f o) (f o')) : Resp m (fun w => w.mod i f) := by
  intro w v h
  refine ⟨fun j hj => ?_, ?_, h.live, h.tick, h.running, h.wait, h.fx⟩
  · simp only [World.mod]; rw [h.obj j hj]
  · simp only [World.mod]
    split
    · exact hf _ _ h.self
    · exact h.self

theorem Resp.modO {m} {i : Nat} (hi : i ≠ m) (f : Obj → Obj) : Resp m (fun w => w.mod i f) := by
  intro w v h
  refine ⟨fun j hj => ?_, ?_, h.live, h.tick, h.running, h.wait, h.fx⟩
  · simp only [World.mod]; rw [h.obj j hj]
  · simp only [World.mod, if_neg (Ne.symm hi)]; exact h.self

theorem EqOut.write {o o' : Obj} (h : EqOut o o') (d : List UInt8) (b : Bool) : EqOut (o.write d b) (o'.write d b) := by
  obtain ⟨p, q, rfl⟩ := h
  unfold Obj.write
  by_cases h1 : d = []
  · rw [if_pos h1, if_pos h1]; exact ⟨p, q, rfl⟩
  · rw [if_neg h1, if_neg h1]
    by_cases h2 : o.eof = true
    · rw [if_pos h2, if_pos (show ({ o with pend := p, pout := q } : Obj).eof = true from h2)]; exact ⟨p, q, rfl⟩
    · rw [if_neg h2, if_neg (show ¬ ({ o with pend := p, pout := q } : Obj).eof = true from h2)]
      by_cases h3 : b = true ∧ o.kind = .client ∧ o.quiet = true
      · rw [if_pos h3, if_pos (show b = true ∧ ({ o with pend := p, pout := q } : Obj).kind = .client ∧ ({ o with pend := p, pout := q } : Obj).quiet = true from h3)]
        exact ⟨p, q, rfl⟩
      · rw [if_neg h3, if_neg (show ¬ (b = true ∧ ({ o with pend := p, pout := q } : Obj).kind = .client ∧ ({ o with pend := p, pout := q } : Obj).quiet = true) from h3)]
        exact ⟨_, _, rfl⟩

theorem EqOut.writes (l : List (List UInt8)) : ∀ {o o' : Obj}, EqOut o o' →
    EqOut (l.foldl (fun o d => o.write d false) o) (l.foldl (fun o d => o.write d false) o') := by
  induction l with
  | nil => intro o o' h; exact h
  | cons d l ih => intro o o' h; exact ih (h.write d false)

theorem EqOut.writeLog {o o' : Obj} (h : EqOut o o') (clk : Nat → List UInt8) (d : List UInt8) :
    EqOut (o.writeLog clk d) (o'.writeLog clk d) := by
  obtain ⟨p, q, rfl⟩ := h
  unfold Obj.writeLog
  exact EqOut.writes _ ⟨p, q, rfl⟩

theorem Resp.fx {m} (e : Fx) : Resp m (fun w => { w with fx := w.fx ++ [e] }) := by
  intro w v h
  refine ⟨h.obj, h.self, h.live, h.tick, h.running, h.wait, ?_⟩
  simp only [List.filter_append, h.fx]

theorem Resp.run' {m} (f : List (Nat × Nat) → List (Nat × Nat)) : Resp m (fun w => { w with running := f w.running }) :=
  fun _ _ h => ⟨h.obj, h.self, h.live, h.tick, congrArg f h.running, h.wait, h.fx⟩
theorem Resp.live' {m} (f : List Nat → List Nat) : Resp m (fun w => { w with live := f w.live }) :=
  fun _ _ h => ⟨h.obj, h.self, congrArg f h.live, h.tick, h.running, h.wait, h.fx⟩
theorem Resp.wait' {m} (f : List Req → List Req) : Resp m (fun w => { w with wait := f w.wait }) :=
  fun _ _ h => ⟨h.obj, h.self, h.live, h.tick, h.running, congrArg f h.wait, h.fx⟩
theorem Resp.tick1 (m : Nat) : Resp m (fun w => { w with tick := w.tick + 1 }) :=
  fun _ _ h => ⟨h.obj, h.self, h.live, congrArg (· + 1) h.tick, h.running, h.wait, h.fx⟩

/-! ### the operations -/

theorem note_resp {m} (env : Env) (n : Note) (i : Nat) : Resp m (fun w => w.note env n i) :=
  Resp.time (fun t w => w.mod i (·.write (env.txt n t) true)) (fun _ => Resp.mod i _ (by intro _ _ h; exact h.write _ _))

theorem notify_resp {m} (env : Env) (n : Note) (con : Nat) : Resp m (fun w => w.notify env con n) := by
  refine Resp.get con (fun o w => (o.writers.filter (fun i => !o.readers.contains i)).foldl (fun w i => w.note env n i)
    (o.readers.foldl (fun w i => w.note env n i) w)) (fun o => ?_) (by rintro o _ ⟨p, q, rfl⟩; rfl)
  exact Resp.comp (f := fun w => o.readers.foldl (fun w i => w.note env n i) w) (Resp.foldl _ _ (fun x => note_resp env n x))
    (Resp.foldl _ _ (fun x => note_resp env n x))

theorem cut_resp {m} (src dst : Nat) : Resp m (fun w => w.cut src dst) := by
  refine Resp.comp (f := fun w => w.mod src (fun o => { o with readers := o.readers.filter (· ≠ dst) }))
    (Resp.mod dst _ ?_) (Resp.mod src _ ?_)
  · rintro o _ ⟨p, q, rfl⟩; exact ⟨p, q, rfl⟩
  · rintro o _ ⟨p, q, rfl⟩; exact ⟨p, q, rfl⟩

theorem unlinkObjs_resp {m} (env : Env) (src dst : Nat) : Resp m (fun w => w.unlinkObjs env src dst) := by
  refine Resp.get dst (fun od w =>
    let n := od.writers.count src
    let w1 := w.cut src dst
    let w2 := if n > 0 ∧ (w1.obj src).kind = .client ∧ (w1.obj dst).kind.isConsole then
      w1.notify env dst (.departed src dst) else w1
    if (w2.obj src).orphan then w2.mod src (fun o => { o with eof := true })
    else if (w2.obj dst).orphan then w2.mod dst (fun o => { o with eof := true })
    else w2) (fun od => ?_) (by rintro o _ ⟨p, q, rfl⟩; rfl)
  have h2 : Resp m (fun w1 : World => if od.writers.count src > 0 ∧ (w1.obj src).kind = .client ∧ (w1.obj dst).kind.isConsole then
      w1.notify env dst (.departed src dst) else w1) :=
    Resp.get src (fun o1 w1 => if od.writers.count src > 0 ∧ o1.kind = .client ∧ (w1.obj dst).kind.isConsole then
      w1.notify env dst (.departed src dst) else w1) (fun o1 =>
    Resp.get dst (fun o2 w1 => if od.writers.count src > 0 ∧ o1.kind = .client ∧ o2.kind.isConsole then
      w1.notify env dst (.departed src dst) else w1) (fun o2 =>
      Resp.ite _ (notify_resp env _ dst) (Resp.id' m)) (by rintro o _ ⟨p, q, rfl⟩; rfl)) (by rintro o _ ⟨p, q, rfl⟩; rfl)
  have hm : ∀ i, Resp m (fun w : World => w.mod i (fun o => { o with eof := true })) := fun i =>
    Resp.mod i _ (by rintro o _ ⟨p, q, rfl⟩; exact ⟨p, q, rfl⟩)
  have h3 : Resp m (fun w2 : World => if (w2.obj src).orphan then w2.mod src (fun o => { o with eof := true })
    else if (w2.obj dst).orphan then w2.mod dst (fun o => { o with eof := true }) else w2) :=
    Resp.get src (fun o1 w2 => if o1.orphan then w2.mod src (fun o => { o with eof := true })
      else if (w2.obj dst).orphan then w2.mod dst (fun o => { o with eof := true }) else w2) (fun o1 =>
    Resp.get dst (fun o2 w2 => if o1.orphan then w2.mod src (fun o => { o with eof := true })
      else if o2.orphan then w2.mod dst (fun o => { o with eof := true }) else w2) (fun o2 =>
      Resp.ite _ (hm src) (Resp.ite _ (hm dst) (Resp.id' m))) (by rintro o _ ⟨p, q, rfl⟩; rfl)) (by rintro o _ ⟨p, q, rfl⟩; rfl)
  exact Resp.comp h3 (Resp.comp h2 (cut_resp src dst))

theorem unlinkWriters_resp {m} (env : Env) (i : Nat) (fuel : Nat) : Resp m (fun w => w.unlinkWriters env i fuel) := by
  induction fuel with
  | zero => exact (Resp.id' m).congr (fun _ => rfl)
  | succ n ih =>
    refine (Resp.get i (fun o w => match o.writers with
      | [] => w
      | x :: _ => (w.unlinkObjs env x i).unlinkWriters env i n) (fun o => ?_) (by rintro o _ ⟨p, q, rfl⟩; rfl)).congr (fun _ => rfl)
    cases hw : o.writers with
    | nil => exact Resp.id' m
    | cons x l => exact Resp.comp ih (unlinkObjs_resp env x i)

theorem unlinkReaders_resp {m} (env : Env) (i : Nat) (fuel : Nat) : Resp m (fun w => w.unlinkReaders env i fuel) := by
  induction fuel with
  | zero => exact (Resp.id' m).congr (fun _ => rfl)
  | succ n ih =>
    refine (Resp.get i (fun o w => match o.readers with
      | [] => w
      | x :: _ => (w.unlinkObjs env i x).unlinkReaders env i n) (fun o => ?_) (by rintro o _ ⟨p, q, rfl⟩; rfl)).congr (fun _ => rfl)
    cases hw : o.readers with
    | nil => exact Resp.id' m
    | cons x l => exact Resp.comp ih (unlinkObjs_resp env i x)

theorem unlinkObj_resp {m} (env : Env) (i : Nat) : Resp m (fun w => w.unlinkObj env i) := by
  refine Resp.comp (g := fun w1 => w1.unlinkReaders env i (w1.obj i).readers.length)
    (f := fun w => w.unlinkWriters env i (w.obj i).writers.length) ?_ ?_
  · exact Resp.get i (fun o w => w.unlinkReaders env i o.readers.length) (fun o => unlinkReaders_resp env i _)
      (by rintro o _ ⟨p, q, rfl⟩; rfl)
  · exact Resp.get i (fun o w => w.unlinkWriters env i o.writers.length) (fun o => unlinkWriters_resp env i _)
      (by rintro o _ ⟨p, q, rfl⟩; rfl)

theorem linkObjs_resp {m} (env : Env) (src dst : Nat) : Resp m (fun w => w.linkObjs env src dst) := by
  have h1 : Resp m (fun w : World => if (w.obj src).kind = .client ∧ (w.obj dst).kind.isConsole then
      let ws := (w.obj dst).writers
      let stolen := (w.obj src).force && !ws.isEmpty
      let wa := w.notify env dst (if stolen then .stolenBy src dst else .joinedBy src dst)
      let wb := ws.foldl (fun w x =>
        w.note env (if stolen then .stolenFrom x dst else .joinedWith x dst) src) wa
      if stolen then ws.foldl (fun w x => w.unlinkObj env x) wb else wb
    else w) := by
    refine Resp.get src (fun o1 w => if o1.kind = .client ∧ (w.obj dst).kind.isConsole then
      let ws := (w.obj dst).writers
      let stolen := o1.force && !ws.isEmpty
      let wa := w.notify env dst (if stolen then .stolenBy src dst else .joinedBy src dst)
      let wb := ws.foldl (fun w x =>
        w.note env (if stolen then .stolenFrom x dst else .joinedWith x dst) src) wa
      if stolen then ws.foldl (fun w x => w.unlinkObj env x) wb else wb
    else w) (fun o1 => ?_) (by rintro o _ ⟨p, q, rfl⟩; rfl)
    refine Resp.get dst (fun o2 w => if o1.kind = .client ∧ o2.kind.isConsole then
      let stolen := o1.force && !o2.writers.isEmpty
      let wa := w.notify env dst (if stolen then .stolenBy src dst else .joinedBy src dst)
      let wb := o2.writers.foldl (fun w x =>
        w.note env (if stolen then .stolenFrom x dst else .joinedWith x dst) src) wa
      if stolen then o2.writers.foldl (fun w x => w.unlinkObj env x) wb else wb
    else w) (fun o2 => ?_) (by rintro o _ ⟨p, q, rfl⟩; rfl)
    refine Resp.ite _ ?_ (Resp.id' m)
    have hn := notify_resp (m := m) env (if (o1.force && !o2.writers.isEmpty) then .stolenBy src dst else .joinedBy src dst) dst
    have hf : Resp m (fun w => o2.writers.foldl (fun w x =>
        w.note env (if (o1.force && !o2.writers.isEmpty) then .stolenFrom x dst else .joinedWith x dst) src) w) :=
      Resp.foldl _ _ (fun x => note_resp env _ src)
    have hu : Resp m (fun w : World => if (o1.force && !o2.writers.isEmpty) then o2.writers.foldl (fun w x => w.unlinkObj env x) w else w) :=
      Resp.ite _ (Resp.foldl _ _ (fun x => unlinkObj_resp env x)) (Resp.id' m)
    exact Resp.comp hu (Resp.comp hf hn)
  have h2 : Resp m (fun w => w.mod src (fun o => { o with readers := o.readers ++ [dst] })) :=
    Resp.mod src _ (by rintro o _ ⟨p, q, rfl⟩; exact ⟨p, q, rfl⟩)
  have h3 : Resp m (fun w => w.mod dst (fun o => { o with writers := o.writers ++ [src] })) :=
    Resp.mod dst _ (by rintro o _ ⟨p, q, rfl⟩; exact ⟨p, q, rfl⟩)
  exact Resp.comp h3 (Resp.comp h2 h1)

theorem break1_resp {m} (con : Nat) : Resp m (fun w => w.break1 con) := by
  refine (Resp.get con (fun o w => match o.kind with
    | .process => w.mod con (·.write [0x26, 0x42] false)
    | .serial | .ipmi => { w with fx := w.fx ++ [.brk con] }
    | .telnet => if o.conn = .up then w.mod con (·.write (sendTelnetCmd 243 none) false) else w
    | _ => w) (fun o => ?_) (by rintro o _ ⟨p, q, rfl⟩; rfl)).congr (fun _ => rfl)
  cases o.kind with
  | process => exact Resp.mod con _ (by intro _ _ h; exact h.write _ _)
  | serial => exact Resp.fx (.brk con)
  | ipmi => exact Resp.fx (.brk con)
  | telnet => exact Resp.ite _ (Resp.mod con _ (by intro _ _ h; exact h.write _ _)) (Resp.id' m)
  | client => exact Resp.id' m
  | logfile => exact Resp.id' m
  | unixsock => exact Resp.id' m
  | test => exact Resp.id' m

theorem reset1_resp {m} (env : Env) (c con : Nat) : Resp m (fun w => w.reset1 env c con) := by
  refine Resp.comp (g := fun w1 => { w1 with tick := w1.tick + 1 }) (f := fun w =>
    if (w.obj con).resetCmd = false then w
    else if (w.obj con).resetPid.isSome then w.notify env con (.resetBusy con)
    else if env.fmtOk con w.tick = false then w.notify env con (.resetLong con)
    else
      match env.fork w.tick with
      | none => w.notify env con (.resetFork con)
      | some pid =>
        (({ w with running := w.running ++ [(con, pid)], fx := w.fx ++ [.resetStart con pid] } : World).mod con
          (fun o => { o with resetPid := some pid, resetTimer := true })).notify env con (.resetBy c con))
    (Resp.tick1 m) ?_
  refine Resp.get con (fun o w =>
    if o.resetCmd = false then w
    else if o.resetPid.isSome then w.notify env con (.resetBusy con)
    else if env.fmtOk con w.tick = false then w.notify env con (.resetLong con)
    else
      match env.fork w.tick with
      | none => w.notify env con (.resetFork con)
      | some pid =>
        (({ w with running := w.running ++ [(con, pid)], fx := w.fx ++ [.resetStart con pid] } : World).mod con
          (fun o => { o with resetPid := some pid, resetTimer := true })).notify env con (.resetBy c con)) (fun o => ?_)
    (by rintro o _ ⟨p, q, rfl⟩; rfl)
  refine Resp.time (fun t w =>
    if o.resetCmd = false then w
    else if o.resetPid.isSome then w.notify env con (.resetBusy con)
    else if env.fmtOk con t = false then w.notify env con (.resetLong con)
    else
      match env.fork t with
      | none => w.notify env con (.resetFork con)
      | some pid =>
        (({ w with running := w.running ++ [(con, pid)], fx := w.fx ++ [.resetStart con pid] } : World).mod con
          (fun o => { o with resetPid := some pid, resetTimer := true })).notify env con (.resetBy c con)) (fun t => ?_)
  refine Resp.ite _ (Resp.id' m) (Resp.ite _ (notify_resp env _ con) (Resp.ite _ (notify_resp env _ con) ?_))
  cases env.fork t with
  | none => exact notify_resp env _ con
  | some pid =>
    have h1 : Resp m (fun w => w.mod con (fun o => { o with resetPid := some pid, resetTimer := true })) :=
      Resp.mod con _ (by rintro o _ ⟨p, q, rfl⟩; exact ⟨p, q, rfl⟩)
    exact Resp.comp (notify_resp env _ con) (Resp.comp h1
      (Resp.comp (Resp.fx (.resetStart con pid)) (Resp.run' (· ++ [(con, pid)]))))

/-! ### partial operations -/

def MuteO (m : Nat) : Option World → Option World → Prop
  | none, none => True
  | some a, some b => Mute m a b
  | _, _ => False

def RespO (m : Nat) (f : World → Option World) : Prop := ∀ w v, Mute m w v → MuteO m (f w) (f v)

theorem RespO.congr {m f} {g : World → Option World} (h : RespO m f) (e : ∀ w, g w = f w) : RespO m g := by
  have : g = f := funext e
  rw [this]; exact h

theorem Resp.opt {m f} (h : Resp m f) : RespO m (fun w => some (f w)) := fun w v hm => h w v hm
theorem RespO.none (m : Nat) : RespO m (fun _ => Option.none) := fun _ _ _ => trivial

theorem RespO.bind {m} {f g : World → Option World} (hf : RespO m f) (hg : RespO m g) : RespO m (fun w => (f w).bind g) := by
  intro w v h
  have h1 := hf w v h
  show MuteO m ((f w).bind g) ((f v).bind g)
  cases e : f w with
  | none =>
    cases e' : f v with
    | none => trivial
    | some b => rw [e, e'] at h1; exact h1.elim
  | some a =>
    cases e' : f v with
    | none => rw [e, e'] at h1; exact h1.elim
    | some b => rw [e, e'] at h1; exact hg a b h1

theorem RespO.map {m} {f : World → Option World} {g : World → World} (hf : RespO m f) (hg : Resp m g) :
    RespO m (fun w => (f w).map g) :=
  (hf.bind hg.opt).congr (fun w => by cases f w <;> rfl)

theorem RespO.comp {m} {f : World → World} {g : World → Option World} (hg : RespO m g) (hf : Resp m f) :
    RespO m (fun w => g (f w)) := fun w v h => hg _ _ (hf w v h)

theorem RespO.get {m} (i : Nat) (g : Obj → World → Option World) (hg : ∀ o, RespO m (g o))
    (hi : ∀ o o', EqOut o o' → g o = g o') : RespO m (fun w => g (w.obj i) w) := by
  intro w v h
  show MuteO m (g (w.obj i) w) (g (v.obj i) v)
  rw [← hi _ _ (h.any i)]
  exact hg _ w v h

theorem RespO.ite {m} {f g : World → Option World} (c : Prop) [Decidable c] (hf : RespO m f) (hg : RespO m g) :
    RespO m (fun w => if c then f w else g w) := by
  by_cases hc : c
  · simp only [hc, if_true]; exact hf
  · simp only [hc, if_false]; exact hg

theorem toggle_resp {m} (env : Env) (c : Nat) : RespO m (fun w => w.toggle env c) := by
  refine (RespO.get c (fun o w => if o.bcast then some w else
    match o.writers with
    | [] => none
    | con :: _ =>
      if o.readers ≠ [] then some ((w.mod c (fun o => { o with cmd := .monitor })).unlinkObjs env c con)
      else some ((w.mod c (fun o => { o with cmd := .connect })).linkObjs env c con)) (fun o => ?_)
      (by rintro o _ ⟨p, q, rfl⟩; rfl)).congr (fun _ => rfl)
  refine RespO.ite _ (Resp.id' m).opt ?_
  cases hw : o.writers with
  | nil => exact RespO.none m
  | cons con l =>
    exact RespO.ite _ (Resp.comp (unlinkObjs_resp env c con) (Resp.mod c _ (by rintro o _ ⟨p, q, rfl⟩; exact ⟨p, q, rfl⟩))).opt
      (Resp.comp (linkObjs_resp env c con) (Resp.mod c _ (by rintro o _ ⟨p, q, rfl⟩; exact ⟨p, q, rfl⟩))).opt

theorem replay_resp {m} (env : Env) (c con : Nat) :
    Resp m (fun w => w.mod c (·.write (env.replay con (w.logHist con)) false)) := by
  refine Resp.get con (fun o w => w.mod c (·.write (env.replay con
    (o.log.bind (fun l => if (w.obj l).fd then some (w.obj l).hist else none))) false)) (fun o => ?_) (by rintro o _ ⟨p, q, rfl⟩; rfl)
  cases hl : o.log with
  | none => exact Resp.mod c (·.write (env.replay con none) false) (by intro _ _ h; exact h.write _ _)
  | some l =>
    exact Resp.get l (fun o2 w => w.mod c (·.write (env.replay con
      (if o2.fd then some o2.hist else none)) false)) (fun o2 => Resp.mod c _ (by intro _ _ h; exact h.write _ _))
      (by rintro o _ ⟨p, q, rfl⟩; rfl)

theorem act_resp {m} (env : Env) (c : Nat) (a : UInt8) : RespO m (fun w => w.act env c a) := by
  refine (RespO.get c (fun o w =>
    if a = 0x42 then some (o.readers.foldl World.break1 w)
    else if a = 0x44 then some (o.readers.foldl (fun w i => w.mod i (·.write [0x7F] false)) w)
    else if a = 0x46 then (w.mod c (fun o => { o with force := true, join := false })).toggle env c
    else if a = 0x4A then (w.mod c (fun o => { o with force := false, join := true })).toggle env c
    else if a = 0x4C then
      match o.writers with
      | [] => some w
      | con :: _ => some (w.mod c (·.write (env.replay con (w.logHist con)) false))
    else if a = 0x4D then (w.mod c (fun o => { o with force := false, join := false })).toggle env c
    else if a = 0x51 then
      let q := !o.quiet
      some (w.mod c (fun o => ({ o with quiet := q }).write
        (env.txt (if q then .quietOn else .quietOff) w.tick) false))
    else if a = 0x52 then some (o.readers.foldl (fun w con => w.reset1 env c con) w)
    else if a = 0x5A then some (w.mod c (fun o => { o with suspend := !o.suspend, pout := o.suspend && o.fd }))
    else some w) (fun o => ?_) (by rintro o _ ⟨p, q, rfl⟩; rfl)).congr (fun _ => rfl)
  refine RespO.ite _ ?_ (RespO.ite _ ?_ (RespO.ite _ ?_ (RespO.ite _ ?_ (RespO.ite _ ?_ (RespO.ite _ ?_ (RespO.ite _ ?_
    (RespO.ite _ ?_ (RespO.ite _ ?_ (Resp.id' m).opt))))))))
  · exact (Resp.foldl _ _ (fun x => break1_resp x)).opt
  · exact (Resp.foldl _ _ (fun x => Resp.mod x _ (by intro _ _ h; exact h.write _ _))).opt
  · exact (toggle_resp env c).comp (Resp.mod c _ (by rintro o _ ⟨p, q, rfl⟩; exact ⟨p, q, rfl⟩))
  · exact (toggle_resp env c).comp (Resp.mod c _ (by rintro o _ ⟨p, q, rfl⟩; exact ⟨p, q, rfl⟩))
  · cases hw : o.writers with
    | nil => exact (Resp.id' m).opt
    | cons con l => exact (replay_resp env c con).opt
  · exact (toggle_resp env c).comp (Resp.mod c _ (by rintro o _ ⟨p, q, rfl⟩; exact ⟨p, q, rfl⟩))
  · exact (Resp.time (fun t w => w.mod c (fun o' => ({ o' with quiet := !o.quiet }).write
      (env.txt (if !o.quiet then .quietOn else .quietOff) t) false))
      (fun t => Resp.mod c _ (by
        rintro o _ ⟨p, q, rfl⟩
        refine EqOut.write ?_ _ _
        exact ⟨p, q, rfl⟩))).opt
  · exact (Resp.foldl _ _ (fun x => reset1_resp env c x)).opt
  · exact (Resp.mod c _ (by rintro o _ ⟨p, q, rfl⟩; exact ⟨p, o.suspend && o.fd, rfl⟩)).opt

theorem acts_resp {m} (env : Env) (c : Nat) (as : List UInt8) : RespO m (fun w => w.acts env c as) := by
  induction as with
  | nil => exact (Resp.id' m).opt
  | cons a as ih => exact (act_resp env c a).bind ih

theorem give_resp {m} (env : Env) (d : List UInt8) (i : Nat) : Resp m (fun w => w.give env d i) := by
  refine Resp.mod i _ ?_
  rintro o _ ⟨p, q, rfl⟩
  by_cases hk : o.kind = .logfile
  · rw [if_pos hk, if_pos (show ({ o with pend := p, pout := q } : Obj).kind = .logfile from hk)]
    exact EqOut.writeLog (o := o) ⟨p, q, rfl⟩ _ _
  · rw [if_neg hk, if_neg (show ¬ ({ o with pend := p, pout := q } : Obj).kind = .logfile from hk)]
    exact EqOut.write (o := o) ⟨p, q, rfl⟩ _ _

theorem deliver_resp {m} (env : Env) (d : List UInt8) (i : Nat) : Resp m (fun w => w.deliver env i d) := by
  refine Resp.ite (f := fun w => w) _ (Resp.id' m) ?_
  exact Resp.get i (fun o w => o.readers.foldl (fun w i => w.give env d i) w) (fun o =>
    Resp.foldl _ _ (fun x => give_resp env d x)) (by rintro o _ ⟨p, q, rfl⟩; rfl)

theorem shutdown_resp {m} (env : Env) (up : Bool) (i : Nat) : Resp m (fun w => w.shutdown env up i) := by
  refine (Resp.get i (fun o0 w => if o0.fd = false then w else
    (fun (w1 : World) => match (w1.obj i).kind with
    | .client => { (w1.unlinkObj env i) with live := w1.live.filter (fun j => j ≠ i) }
    | .logfile => w1
    | .serial =>
      if up then (w1.mod i (fun o => { o with fd := up, pin := up })).notify env i (.connected i)
      else w1.mod i (fun o => { o with fd := up, pin := up })
    | .test => w1.mod i (fun o => { o with fd := up, pin := up })
    | _ => (w1.mod i (fun o => { o with conn := .down })).notify env i (.disconnected i)) (w.mod i (fun o =>
      { o with fd := false, pin := false, pout := false, pend := [], eof := false, gen := o.gen + 1, hist := o.hist ++ [none] })))
    (fun o => ?_) (by rintro o _ ⟨p, q, rfl⟩; rfl)).congr (fun _ => rfl)
  refine Resp.ite _ (Resp.id' m) (Resp.comp (g := fun (w1 : World) => match (w1.obj i).kind with
    | .client => { (w1.unlinkObj env i) with live := w1.live.filter (fun j => j ≠ i) }
    | .logfile => w1
    | .serial =>
      if up then (w1.mod i (fun o => { o with fd := up, pin := up })).notify env i (.connected i)
      else w1.mod i (fun o => { o with fd := up, pin := up })
    | .test => w1.mod i (fun o => { o with fd := up, pin := up })
    | _ => (w1.mod i (fun o => { o with conn := .down })).notify env i (.disconnected i)) ?_
      (Resp.mod i _ (by rintro o _ ⟨p, q, rfl⟩; exact ⟨[], false, rfl⟩)))
  refine Resp.get i (fun o (w1 : World) => match o.kind with
    | .client => { (w1.unlinkObj env i) with live := w1.live.filter (fun j => j ≠ i) }
    | .logfile => w1
    | .serial =>
      if up then (w1.mod i (fun o => { o with fd := up, pin := up })).notify env i (.connected i)
      else w1.mod i (fun o => { o with fd := up, pin := up })
    | .test => w1.mod i (fun o => { o with fd := up, pin := up })
    | _ => (w1.mod i (fun o => { o with conn := .down })).notify env i (.disconnected i)) (fun o => ?_)
    (by rintro o _ ⟨p, q, rfl⟩; rfl)
  have hm : ∀ u : Bool, Resp m (fun w1 : World => w1.mod i (fun o => { o with fd := u, pin := u })) :=
    fun u => Resp.mod i _ (by rintro o _ ⟨p, q, rfl⟩; exact ⟨p, q, rfl⟩)
  have hx : Resp m (fun w1 : World => (w1.mod i (fun o => { o with conn := .down })).notify env i (.disconnected i)) :=
    Resp.comp (notify_resp env _ i) (Resp.mod i _ (by rintro o _ ⟨p, q, rfl⟩; exact ⟨p, q, rfl⟩))
  cases o.kind with
  | client =>
    intro w v h
    have h1 := unlinkObj_resp (m := m) env i w v h
    exact ⟨h1.obj, h1.self, congrArg (List.filter (fun j => j ≠ i)) h.live, h1.tick, h1.running, h1.wait, h1.fx⟩
  | logfile => exact Resp.id' m
  | serial => exact Resp.ite _ (Resp.comp (notify_resp env _ i) (hm up)) (hm up)
  | test => exact hm up
  | process => exact hx
  | telnet => exact hx
  | ipmi => exact hx
  | unixsock => exact hx

theorem read_resp {m} (env : Env) (up : Bool) (i : Nat) (r : ReadRes) (hr : i ≠ m ∨ r ≠ .eof) :
    RespO m (fun w => w.read env up i r) := by
  refine (RespO.get i (fun o w => if o.fd = false then some w else if o.kind = .telnet ∧ o.conn ≠ .up then some w else
    match (if o.kind = .logfile then .err else r : ReadRes) with
    | .again => some w
    | .err => some (w.shutdown env up i)
    | .eof => some (if ((w.mod i (fun o => { o with eof := true, pin := false })).obj i).pend = [] then
        (w.mod i (fun o => { o with eof := true, pin := false })).shutdown env up i
        else w.mod i (fun o => { o with eof := true, pin := false }))
    | .data d0 =>
      match o.kind with
      | .client =>
        (w.acts env i (processClientEscapes o.gotEscape (d0.take readBufSize)).acts).map (fun w =>
          (w.mod i (fun o' => { o' with gotEscape := (processClientEscapes o.gotEscape (d0.take readBufSize)).gotEscape })).deliver env i
            (processClientEscapes o.gotEscape (d0.take readBufSize)).data)
      | .telnet =>
        (processTelnetEscapes o.iac (d0.take readBufSize)).map (fun t =>
          (w.mod i (fun o => ({ o with iac := t.iac }).write t.sent false)).deliver env i
            (t.buf.take t.len))
      | _ => some (w.deliver env i (d0.take readBufSize))) (fun o => ?_) (by rintro o _ ⟨p, q, rfl⟩; rfl)).congr (fun _ => rfl)
  refine RespO.ite _ (Resp.id' m).opt (RespO.ite _ (Resp.id' m).opt ?_)
  have hr' : i ≠ m ∨ (if o.kind = .logfile then .err else r : ReadRes) ≠ .eof := by
    rcases hr with h | h
    · exact Or.inl h
    · refine Or.inr ?_
      by_cases hk : o.kind = .logfile
      · rw [if_pos hk]; intro e; cases e
      · rw [if_neg hk]; exact h
  cases hrr : (if o.kind = .logfile then .err else r : ReadRes) with
  | again => exact (Resp.id' m).opt
  | err => exact (shutdown_resp env up i).opt
  | eof =>
    have hi : i ≠ m := by
      rcases hr' with h | h
      · exact h
      · exact absurd hrr h
    have h1 : Resp m (fun w => w.mod i (fun o => { o with eof := true, pin := false })) := Resp.modO hi _
    have h2 : Resp m (fun w1 : World => if (w1.obj i).pend = [] then w1.shutdown env up i else w1) :=
      Resp.getO hi (fun o w1 => if o.pend = [] then w1.shutdown env up i else w1) (fun o =>
        Resp.ite _ (shutdown_resp env up i) (Resp.id' m))
    exact (Resp.comp h2 h1).opt
  | data d0 =>
    have hd := deliver_resp (m := m) env (d0.take readBufSize) i
    cases o.kind with
    | client =>
      refine RespO.map (acts_resp env i _) ?_
      have h1 : Resp m (fun w => w.mod i (fun o' => { o' with gotEscape := (processClientEscapes o.gotEscape (d0.take readBufSize)).gotEscape })) :=
        Resp.mod i _ (by rintro o _ ⟨p, q, rfl⟩; exact ⟨p, q, rfl⟩)
      exact Resp.comp (deliver_resp env _ i) h1
    | telnet =>
      show RespO m (fun w => (processTelnetEscapes o.iac (d0.take readBufSize)).map (fun t =>
          (w.mod i (fun o => ({ o with iac := t.iac }).write t.sent false)).deliver env i
            (t.buf.take t.len)))
      cases ht : processTelnetEscapes o.iac (d0.take readBufSize) with
      | none => exact RespO.none m
      | some t =>
        have h1 : Resp m (fun w => w.mod i (fun o => ({ o with iac := t.iac }).write t.sent false)) :=
          Resp.mod i _ (by
            rintro o _ ⟨p, q, rfl⟩
            refine EqOut.write ?_ _ _
            exact ⟨p, q, rfl⟩)
        exact (Resp.comp (deliver_resp env (t.buf.take t.len) i) h1).opt
    | logfile => exact hd.opt
    | process => exact hd.opt
    | serial => exact hd.opt
    | ipmi => exact hd.opt
    | unixsock => exact hd.opt
    | test => exact hd.opt

theorem flush_resp {m} (env : Env) (up : Bool) {i : Nat} (hi : i ≠ m) (r : WriteRes) : Resp m (fun w => w.flush env up i r) := by
  refine (Resp.getO hi (fun o w => if o.fd = false then w else if o.kind = .telnet ∧ o.conn = .pending then w else
    if (r = .err ∧ o.pend ≠ []) ∨ ((((w.push i (r.count o.pend.length)).drained i).obj i).pend = [] ∧ o.eof) then
      ((w.push i (r.count o.pend.length)).drained i).shutdown env up i
    else (w.push i (r.count o.pend.length)).drained i) (fun o => ?_)).congr (fun _ => rfl)
  refine Resp.ite _ (Resp.id' m) (Resp.ite _ (Resp.id' m) ?_)
  have hp : ∀ n, Resp m (fun w => w.push i n) := by
    intro n
    refine Resp.getO hi (fun o w => ({ w with fx := if n = 0 then w.fx else w.fx ++ [.sent i (o.pend.take n)] } : World).mod i
      (fun o => { o with pend := o.pend.drop n })) (fun o => ?_)
    have h1 : Resp m (fun w => w.mod i (fun o => { o with pend := o.pend.drop n })) := Resp.modO hi _
    by_cases hn : n = 0
    · simp only [if_pos hn]; exact h1
    · simp only [if_neg hn]
      exact Resp.comp h1 (Resp.fx (.sent i (o.pend.take n)))
  have hdr : Resp m (fun w => w.drained i) :=
    Resp.getO hi (fun o w => if o.pend = [] then w.mod i (fun o => { o with pout := false }) else w) (fun o =>
      Resp.ite _ (Resp.modO hi _) (Resp.id' m))
  have h1 : Resp m (fun w => (w.push i (r.count o.pend.length)).drained i) := Resp.comp hdr (hp _)
  have h2 : Resp m (fun w1 : World => if (r = .err ∧ o.pend ≠ []) ∨ ((w1.obj i).pend = [] ∧ o.eof) then
      w1.shutdown env up i else w1) :=
    Resp.getO hi (fun o1 w1 => if (r = .err ∧ o.pend ≠ []) ∨ (o1.pend = [] ∧ o.eof) then w1.shutdown env up i else w1) (fun o1 =>
      Resp.ite _ (shutdown_resp env up i) (Resp.id' m))
  exact Resp.comp h2 h1

theorem checkState_resp {m} (env : Env) (c con : Nat) : Resp m (fun w => w.checkState env c con) :=
  Resp.get con (fun o w => if o.isUp then w else w.note env (.isDown con) c) (fun o =>
    Resp.ite _ (Resp.id' m) (note_resp env _ c)) (by rintro o _ ⟨p, q, rfl⟩; rfl)

theorem newClient_resp {m} (c : Nat) (q : Req) : Resp m (fun w => w.newClient c q) := by
  have h1 : Resp m (fun w => w.mod c (fun o => { kind := .client, fd := true, pin := true, quiet := q.quiet, force := q.force, join := q.join, bcast := q.bcast, cmd := q.cmd, gen := o.gen })) :=
    Resp.mod c _ (by rintro o _ ⟨p, q, rfl⟩; exact .refl _)
  exact Resp.comp h1 (Resp.live' (· ++ [c]))

theorem grant_resp {m} (env : Env) (c : Nat) (q : Req) : Resp m (fun w => w.grant env c q) := by
  have hn := newClient_resp (m := m) c q
  have hl : ∀ con, Resp m (fun w => (w.linkObjs env c con).checkState env c con) := fun con =>
    Resp.comp (checkState_resp env c con) (linkObjs_resp env c con)
  unfold World.grant
  cases hcmd : q.cmd with
  | monitor =>
    cases hcs : q.consoles with
    | nil => exact hn
    | cons con l => exact Resp.comp (checkState_resp env c con) (Resp.comp (linkObjs_resp env con c) hn)
  | connect =>
    cases hcs : q.consoles with
    | nil => exact hn
    | cons con l =>
      cases l with
      | nil =>
        exact Resp.comp (checkState_resp env c con) (Resp.comp (linkObjs_resp env con c) (Resp.comp (linkObjs_resp env c con) hn))
      | cons con2 l => exact Resp.comp (Resp.foldl _ _ hl) hn

theorem connUp_resp {m} (env : Env) (i : Nat) : Resp m (fun w => w.connUp env i) := by
  refine (Resp.get i (fun o w => if o.kind.isConsole = false then w else if o.fd ∧ ¬ o.conn = .pending then w else
    if o.kind = .telnet then
      (if o.kind = .test then w.mod i (fun o => { o with fd := true, pin := true, conn := .up, eof := false })
        else (w.mod i (fun o => { o with fd := true, pin := true, conn := .up, eof := false })).notify env i (.connected i)).mod i
          (·.write telHello false)
    else if o.kind = .test then w.mod i (fun o => { o with fd := true, pin := true, conn := .up, eof := false })
        else (w.mod i (fun o => { o with fd := true, pin := true, conn := .up, eof := false })).notify env i (.connected i))
    (fun o => ?_) (by rintro o _ ⟨p, q, rfl⟩; rfl)).congr (fun _ => rfl)
  have h1 : Resp m (fun w => w.mod i (fun o => { o with fd := true, pin := true, conn := .up, eof := false })) :=
    Resp.mod i _ (by rintro o _ ⟨p, q, rfl⟩; exact ⟨p, q, rfl⟩)
  have h2 : Resp m (fun w => if o.kind = .test then w.mod i (fun o => { o with fd := true, pin := true, conn := .up, eof := false })
        else (w.mod i (fun o => { o with fd := true, pin := true, conn := .up, eof := false })).notify env i (.connected i)) :=
    Resp.ite _ h1 (Resp.comp (notify_resp env _ i) h1)
  have h3 : Resp m (fun w => w.mod i (·.write telHello false)) := Resp.mod i _ (by intro _ _ h; exact h.write _ _)
  exact Resp.ite _ (Resp.id' m) (Resp.ite _ (Resp.id' m) (Resp.ite _ (Resp.comp h3 h2) h2))

theorem reqOk_mute {m : Nat} {w v : World} (h : Mute m w v) (q : Req) : (w.reqOk q ↔ v.reqOk q) ∧ v.validate q = w.validate q := by
  have hk : ∀ i, (v.obj i).kind = (w.obj i).kind := fun i => by obtain ⟨p, q, e⟩ := h.any i; rw [e]
  have hwr : ∀ i, (v.obj i).writers = (w.obj i).writers := fun i => by obtain ⟨p, q, e⟩ := h.any i; rw [e]
  refine ⟨?_, ?_⟩
  · unfold World.reqOk
    simp only [h.live, hk]
  · unfold World.validate
    simp only [hwr]

theorem step_resp {m} (env : Env) (s : Step) (hs : ∀ up rd wr, s ≠ .poll m up rd wr) : RespO m (fun w => w.step env s) := by
  cases s with
  | check q =>
    intro w v h
    show Mute m (if w.reqOk q.norm ∧ w.validate q.norm = none then { w with wait := w.wait ++ [q.norm] } else w)
      (if v.reqOk q.norm ∧ v.validate q.norm = none then { v with wait := v.wait ++ [q.norm] } else v)
    obtain ⟨h1, h2⟩ := reqOk_mute h q.norm
    rw [h2]
    by_cases hc : w.reqOk q.norm ∧ w.validate q.norm = none
    · rw [if_pos hc, if_pos ⟨h1.1 hc.1, hc.2⟩]
      exact Resp.wait' (· ++ [q.norm]) w v h
    · rw [if_neg hc, if_neg (fun g => hc ⟨h1.2 g.1, g.2⟩)]; exact h
  | grant c k =>
    intro w v h
    show Mute m (match w.wait[k]? with
      | some q => if c ∈ w.live then w else ({ w with wait := w.wait.eraseIdx k } : World).grant env c q
      | none => w) (match v.wait[k]? with
      | some q => if c ∈ v.live then v else ({ v with wait := v.wait.eraseIdx k } : World).grant env c q
      | none => v)
    rw [h.wait]
    cases w.wait[k]? with
    | none => exact h
    | some q =>
      show Mute m (if c ∈ w.live then w else ({ w with wait := w.wait.eraseIdx k } : World).grant env c q)
        (if c ∈ v.live then v else ({ v with wait := w.wait.eraseIdx k } : World).grant env c q)
      by_cases hc : c ∈ w.live
      · rw [if_pos hc, if_pos (by rw [h.live]; exact hc)]; exact h
      · rw [if_neg hc, if_neg (by rw [h.live]; exact hc)]
        have := Resp.comp (grant_resp env c q) (Resp.wait' (fun _ => w.wait.eraseIdx k)) w v h
        exact this
  | poll i up rd wr =>
    have hi : i ≠ m := fun e => hs up rd wr (by rw [e])
    clear hs
    intro w v h
    have hrd : MuteO m (match rd with
        | none => some w
        | some r => w.read env up i r) (match rd with
        | none => some v
        | some r => v.read env up i r) := by
      cases rd with
      | none => exact h
      | some r => exact read_resp env up i r (Or.inl hi) w v h
    show MuteO m (if i ∉ w.live ∨ ((w.obj i).pin = false ∧ (w.obj i).pout = false) then some w
      else (match rd with
        | none => some w
        | some r => w.read env up i r).map (fun w1 : World => if i ∉ w1.live then w1
          else match (if (w.obj i).pout then wr else none) with
          | none => w1
          | some r => w1.flush env up i r))
      (if i ∉ v.live ∨ ((v.obj i).pin = false ∧ (v.obj i).pout = false) then some v
      else (match rd with
        | none => some v
        | some r => v.read env up i r).map (fun w1 : World => if i ∉ w1.live then w1
          else match (if (v.obj i).pout then wr else none) with
          | none => w1
          | some r => w1.flush env up i r))
    rw [h.obj i hi, h.live]
    by_cases hc : i ∉ w.live ∨ ((w.obj i).pin = false ∧ (w.obj i).pout = false)
    · rw [if_pos hc, if_pos hc]; exact h
    · rw [if_neg hc, if_neg hc]
      have hf : Resp m (fun w1 : World => if i ∉ w1.live then w1
          else match (if (w.obj i).pout then wr else none) with
          | none => w1
          | some r => w1.flush env up i r) := by
        cases (if (w.obj i).pout then wr else none) with
        | none => exact (Resp.id' m).congr (fun w => by simp only [ite_self])
        | some r =>
          intro a b hab
          show Mute m (if i ∉ a.live then a else a.flush env up i r) (if i ∉ b.live then b else b.flush env up i r)
          rw [hab.live]
          by_cases hl : i ∉ a.live
          · rw [if_pos hl, if_pos hl]; exact hab
          · rw [if_neg hl, if_neg hl]; exact flush_resp env up hi r a b hab
      revert hrd
      generalize (match rd with
        | none => some w
        | some r => w.read env up i r) = x
      generalize (match rd with
        | none => some v
        | some r => v.read env up i r) = y
      intro hxy
      cases x with
      | none => cases y with
        | none => trivial
        | some b => exact hxy.elim
      | some a => cases y with
        | none => exact hxy.elim
        | some b => exact hf a b hxy
  | connUp i =>
    intro w v h
    show Mute m (if i ∈ w.live then w.connUp env i else w) (if i ∈ v.live then v.connUp env i else v)
    rw [h.live]
    by_cases hl : i ∈ w.live
    · rw [if_pos hl, if_pos hl]; exact connUp_resp env i w v h
    · rw [if_neg hl, if_neg hl]; exact h
  | connPend i =>
    intro w v h
    show Mute m (if i ∈ w.live ∧ (w.obj i).kind = .telnet ∧ (w.obj i).fd = false then
      w.mod i (fun o => { o with fd := true, pin := true, pout := true, conn := .pending }) else w)
      (if i ∈ v.live ∧ (v.obj i).kind = .telnet ∧ (v.obj i).fd = false then
      v.mod i (fun o => { o with fd := true, pin := true, pout := true, conn := .pending }) else v)
    have e1 : (v.obj i).kind = (w.obj i).kind := by obtain ⟨p, q, e⟩ := h.any i; rw [e]
    have e2 : (v.obj i).fd = (w.obj i).fd := by obtain ⟨p, q, e⟩ := h.any i; rw [e]
    rw [h.live, e1, e2]
    by_cases hl : i ∈ w.live ∧ (w.obj i).kind = .telnet ∧ (w.obj i).fd = false
    · rw [if_pos hl, if_pos hl]
      exact Resp.mod i _ (by rintro o _ ⟨p, q, rfl⟩; exact ⟨p, true, rfl⟩) w v h
    · rw [if_neg hl, if_neg hl]; exact h
  | connDown i =>
    refine ((Resp.get i (fun o w => if o.kind = .telnet ∧ o.conn = .pending then
      w.mod i (fun o => { o with fd := false, pin := false, pout := false, conn := .down }) else w) (fun o => ?_)
      (by rintro o _ ⟨p, q, rfl⟩; rfl)).opt).congr (fun _ => rfl)
    exact Resp.ite _ (Resp.mod i _ (by rintro o _ ⟨p, q, rfl⟩; exact ⟨p, false, rfl⟩)) (Resp.id' m)
  | connFail i =>
    intro w v h
    show Mute m (if i ∈ w.live ∧ (w.obj i).kind = .process ∧ (w.obj i).fd = false then
      w.notify env i (.connFailed i) else w)
      (if i ∈ v.live ∧ (v.obj i).kind = .process ∧ (v.obj i).fd = false then
      v.notify env i (.connFailed i) else v)
    have e1 : (v.obj i).kind = (w.obj i).kind := by obtain ⟨p, q, e⟩ := h.any i; rw [e]
    have e2 : (v.obj i).fd = (w.obj i).fd := by obtain ⟨p, q, e⟩ := h.any i; rw [e]
    rw [h.live, e1, e2]
    by_cases hl : i ∈ w.live ∧ (w.obj i).kind = .process ∧ (w.obj i).fd = false
    · rw [if_pos hl, if_pos hl]; exact notify_resp env _ i w v h
    · rw [if_neg hl, if_neg hl]; exact h
  | resetTimeout con =>
    refine ((Resp.get con (fun o w => if o.resetTimer then
      match o.resetPid with
      | none => w.mod con (fun o => { o with resetPid := none, resetTimer := false })
      | some p => if (con, p) ∈ (w.mod con (fun o => { o with resetPid := none, resetTimer := false })).running then
          { (w.mod con (fun o => { o with resetPid := none, resetTimer := false })) with
            running := (w.mod con (fun o => { o with resetPid := none, resetTimer := false })).running.filter (· ≠ (con, p)),
            fx := (w.mod con (fun o => { o with resetPid := none, resetTimer := false })).fx ++ [.kill con p] }
        else w.mod con (fun o => { o with resetPid := none, resetTimer := false })
      else w) (fun o => ?_)
      (by rintro o _ ⟨p, q, rfl⟩; rfl)).opt).congr (fun _ => rfl)
    have hm : Resp m (fun w => w.mod con (fun o => { o with resetPid := none, resetTimer := false })) :=
      Resp.mod con _ (by rintro o _ ⟨p, q, rfl⟩; exact ⟨p, q, rfl⟩)
    refine Resp.ite _ ?_ (Resp.id' m)
    cases o.resetPid with
    | none => exact hm
    | some p =>
      have hr : Resp m (fun w1 : World => if (con, p) ∈ w1.running then
          { w1 with running := w1.running.filter (· ≠ (con, p)), fx := w1.fx ++ [.kill con p] } else w1) := by
        intro a b hab
        show Mute m (if (con, p) ∈ a.running then _ else a) (if (con, p) ∈ b.running then _ else b)
        rw [hab.running]
        by_cases hl : (con, p) ∈ a.running
        · rw [if_pos hl, if_pos hl]
          have := Resp.comp (Resp.fx (m := m) (.kill con p)) (Resp.run' (·.filter (· ≠ (con, p)))) a b hab
          dsimp only at this
          rw [hab.running] at this
          exact this
        · rw [if_neg hl, if_neg hl]; exact hab
      exact Resp.comp hr hm
  | childExit con pid => exact (Resp.run' (·.filter (· ≠ (con, pid)))).opt
  | logOpen i ok =>
    refine ((Resp.get i (fun o w => if o.kind = .logfile then
      w.mod i (fun o =>
        if ok then
          { ({ o with fd := true, pout := false, eof := false }).write (env.txt (.logOpened i) w.tick) false with
            line := .init }
        else { o with fd := false, pin := false, pout := false })
      else w) (fun o => ?_)
      (by rintro o _ ⟨p, q, rfl⟩; rfl)).opt).congr (fun _ => rfl)
    refine Resp.ite _ (Resp.time (fun t w => w.mod i (fun o =>
        if ok then
          { ({ o with fd := true, pout := false, eof := false }).write (env.txt (.logOpened i) t) false with
            line := .init }
        else { o with fd := false, pin := false, pout := false })) (fun t => Resp.mod i _ ?_)) (Resp.id' m)
    rintro o _ ⟨p, q, rfl⟩
    cases ok with
    | false => exact ⟨p, false, rfl⟩
    | true =>
      have h0 : EqOut ({ o with fd := true, pout := false, eof := false } : Obj)
        ({ ({ o with pend := p, pout := q } : Obj) with fd := true, pout := false, eof := false } : Obj) := ⟨p, false, rfl⟩
      obtain ⟨p', q', e⟩ := h0.write (env.txt (.logOpened i) t) false
      show EqOut ({ ({ o with fd := true, pout := false, eof := false } : Obj).write (env.txt (.logOpened i) t) false with line := .init })
        ({ ({ ({ o with pend := p, pout := q } : Obj) with fd := true, pout := false, eof := false } : Obj).write (env.txt (.logOpened i) t) false with line := .init })
      rw [e]
      exact ⟨p', q', rfl⟩
  | logStamp i =>
    exact ((Resp.get i (fun o w => if o.kind = .logfile then w.note env (.logStamp i) i else w) (fun o =>
      Resp.ite _ (note_resp env _ i) (Resp.id' m)) (by rintro o _ ⟨p, q, rfl⟩; rfl)).opt).congr (fun _ => rfl)

/-- What `m` takes of its output. -/
theorem push_mute (m n : Nat) (w : World) : Mute m (w.push m n) w := by
  unfold World.push
  refine ⟨fun j hj => ?_, ?_, rfl, rfl, rfl, rfl, ?_⟩
  · simp only [World.mod, if_neg hj]
  · simp only [World.mod, if_true]; exact ⟨(w.obj m).pend, (w.obj m).pout, rfl⟩
  · simp only [World.mod]
    by_cases hn : n = 0
    · rw [if_pos hn]
    · rw [if_neg hn, List.filter_append]
      simp [isSentTo]

theorem drained_mute (m : Nat) (w : World) : Mute m (w.drained m) w := by
  unfold World.drained
  by_cases hp : (w.obj m).pend = []
  · rw [if_pos hp]
    refine ⟨fun j hj => ?_, ?_, rfl, rfl, rfl, rfl, rfl⟩
    · simp only [World.mod, if_neg hj]
    · simp only [World.mod, if_true]; exact ⟨(w.obj m).pend, (w.obj m).pout, rfl⟩
  · rw [if_neg hp]; exact .refl _ _

theorem flush_mute {m : Nat} {w : World} (env : Env) (up : Bool) {r : WriteRes} (hr : r ≠ .err) (he : (w.obj m).eof = false) :
    Mute m (w.flush env up m r) w := by
  unfold World.flush
  dsimp only
  split
  · exact .refl _ _
  split
  · exact .refl _ _
  rw [if_neg (by rw [he]; exact fun h => h.elim (fun h => hr h.1) (fun h => nomatch h.2))]
  exact (drained_mute m _).trans (push_mute m _ w)

theorem flush_eof {m : Nat} {w : World} (env : Env) (up : Bool) {r : WriteRes} (hk : (w.obj m).kind = .client) (he : (w.obj m).eof = true) :
    m ∉ (w.flush env up m r).live ∨ ((w.flush env up m r).obj m).eof = true := by
  unfold World.flush
  dsimp only
  split
  · exact Or.inr he
  rename_i hf
  split
  · exact Or.inr he
  have h1 := ((drained_mute m (w.push m (r.count (w.obj m).pend.length))).trans (push_mute m _ w)).symm.self
  obtain ⟨p, q, e⟩ := h1
  split
  · refine Or.inl (shutdown_client env up m ?_ ?_)
    · rw [e]; simpa using hf
    · rw [e]; exact hk
  · exact Or.inr (by rw [e]; exact he)

/-- `m` is connected. -/
def World.isConn (w : World) (m : Nat) : Prop := m ∈ w.live ∧ (w.obj m).kind = .client ∧ (w.obj m).eof = false

theorem Mute.isConn {m : Nat} {w v : World} (h : Mute m w v) (hc : w.isConn m) : v.isConn m := by
  obtain ⟨p, q, e⟩ := h.self
  obtain ⟨h1, h2, h3⟩ := hc
  exact ⟨by rw [h.live]; exact h1, by rw [e]; exact h2, by rw [e]; exact h3⟩

theorem idle_step (env : Env) (w : World) : w.step env (.check { cmd := .connect, consoles := [] }) = some w := by
  have : ¬ (w.reqOk ({ cmd := .connect, consoles := [] } : Req).norm ∧ w.validate ({ cmd := .connect, consoles := [] } : Req).norm = none) := by
    intro h; exact absurd h.2 (by simp [World.validate, Req.norm])
  show some (if w.reqOk ({ cmd := .connect, consoles := [] } : Req).norm ∧ w.validate ({ cmd := .connect, consoles := [] } : Req).norm = none then _ else w) = _
  rw [if_neg this]

/-- One step, and the same step without what it says about the output of `m`. -/
theorem step_sans {m : Nat} {w v : World} (env : Env) (he : EInv w) (hm : Mute m w v) (hc : w.isConn m) (s : Step) (hk : keepsOpen m s = true) :
    (∀ w', w.step env s = some w' → w'.isConn m → ∃ v', v.step env (sansOutput m s) = some v' ∧ Mute m w' v') ∧
    (∀ v', v.step env (sansOutput m s) = some v' → v'.isConn m → ∃ w', w.step env s = some w' ∧ Mute m w' v') ∧
    (w.step env s = none ↔ v.step env (sansOutput m s) = none) := by
  by_cases hp : ∃ up rd wr, s = .poll m up rd wr
  · obtain ⟨up, rd, wr, rfl⟩ := hp
    have hpin : (w.obj m).pin = true := (he.cl m hc.1 hc.2.1).pin hc.2.2
    have hpinv : (v.obj m).pin = true := by obtain ⟨p, q, e⟩ := hm.self; rw [e]; exact hpin
    have hcv := hm.isConn hc
    have hw : w.step env (.poll m up rd wr) = (match rd with
        | none => some w
        | some r => w.read env up m r).map (fun w1 : World => if m ∉ w1.live then w1
          else match (if (w.obj m).pout then wr else none) with
          | none => w1
          | some r => w1.flush env up m r) := by
      show (if m ∉ w.live ∨ ((w.obj m).pin = false ∧ (w.obj m).pout = false) then some w else _) = _
      have hn : ¬ (m ∉ w.live ∨ ((w.obj m).pin = false ∧ (w.obj m).pout = false)) := by
        rintro (h | ⟨h, _⟩)
        · exact h hc.1
        · rw [hpin] at h; cases h
      exact if_neg hn
    have hwr : (if (w.obj m).pout then wr else none) ≠ some .err := by
      by_cases hpo : (w.obj m).pout = true
      · rw [if_pos hpo]; intro e; simp [keepsOpen, e] at hk
      · rw [if_neg hpo]; intro e; cases e
    revert hw hwr
    generalize (if (w.obj m).pout then wr else none) = wr'
    intro hw hwr
    -- after the reading
    have key : ∀ w1 v1 : World, Mute m w1 v1 → (w1.obj m).kind = .client →
        (∀ w', (if m ∉ w1.live then w1 else match wr' with
          | none => w1
          | some r => w1.flush env up m r) = w' → w'.isConn m ∨ v1.isConn m → Mute m w' v1) := by
      intro w1 v1 h1 hk1 w' e hcc
      by_cases hl : m ∉ w1.live
      · rw [if_pos hl] at e; subst e; exact h1
      · rw [if_neg hl] at e
        cases wr' with
        | none => subst e; exact h1
        | some r =>
          have e : w1.flush env up m r = w' := e
          subst e
          have hr : r ≠ .err := fun e => hwr (by rw [e])
          by_cases hE : (w1.obj m).eof = true
          · exfalso
            rcases hcc with ⟨a, _, b⟩ | ⟨_, _, b⟩
            · rcases flush_eof (r := r) env up hk1 hE with g | g
              · exact g a
              · rw [g] at b; cases b
            · obtain ⟨p, q, e⟩ := h1.self
              rw [e] at b
              have b : (w1.obj m).eof = false := b
              rw [hE] at b; cases b
          · exact (flush_mute env up hr (by simpa using hE)).trans h1
    cases rd with
    | none =>
      have e0 : sansOutput m (.poll m up none wr) = .check { cmd := .connect, consoles := [] } := by simp [sansOutput]
      rw [e0, idle_step, hw]
      refine ⟨fun w' h1 h2 => ⟨v, rfl, ?_⟩, fun v' h1 h2 => ⟨_, rfl, ?_⟩, by simp⟩
      · simp only [Option.map_some, Option.some.injEq] at h1
        exact key w v hm hc.2.1 w' h1 (Or.inl h2)
      · cases h1
        exact key w v hm hc.2.1 _ rfl (Or.inr h2)
    | some r =>
      have e0 : sansOutput m (.poll m up (some r) wr) = .poll m up (some r) none := by simp [sansOutput]
      have hr : r ≠ .eof := by intro e; simp [keepsOpen, e] at hk
      have hv : v.step env (.poll m up (some r) none) = v.read env up m r := by
        show (if m ∉ v.live ∨ ((v.obj m).pin = false ∧ (v.obj m).pout = false) then some v else
          (v.read env up m r).map (fun w1 : World => if m ∉ w1.live then w1
          else match (if (v.obj m).pout then none else none) with
          | none => w1
          | some r => w1.flush env up m r)) = _
        rw [if_neg]
        · cases v.read env up m r with
          | none => rfl
          | some a => simp only [ite_self, Option.map_some]
        · rintro (h | ⟨h, _⟩)
          · exact h hcv.1
          · rw [hpinv] at h; cases h
      dsimp only at hw
      rw [e0, hv, hw]
      have hrd : MuteO m (w.read env up m r) (v.read env up m r) := read_resp env up m r (Or.inr hr) w v hm
      cases hx : w.read env up m r with
      | none =>
        cases hy : v.read env up m r with
        | none => exact ⟨fun _ h => (nomatch h), fun _ h => (nomatch h), by simp⟩
        | some b => rw [hx, hy] at hrd; exact hrd.elim
      | some a =>
        cases hy : v.read env up m r with
        | none => rw [hx, hy] at hrd; exact hrd.elim
        | some b =>
          rw [hx, hy] at hrd
          have hka : (a.obj m).kind = .client := by rw [(read_inv he.d.inv env up m r hx).2.kind]; exact hc.2.1
          refine ⟨fun w' h1 h2 => ⟨b, rfl, ?_⟩, fun v' h1 h2 => ⟨_, rfl, ?_⟩, by simp⟩
          · simp only [Option.map_some, Option.some.injEq] at h1
            exact key a b hrd hka w' h1 (Or.inl h2)
          · cases h1
            exact key a b hrd hka _ rfl (Or.inr h2)
  · have e0 : sansOutput m s = s := by
      cases s with
      | poll i up rd wr =>
        have hi : i ≠ m := fun e => hp ⟨up, rd, wr, by rw [e]⟩
        simp [sansOutput, hi]
      | _ => rfl
    rw [e0]
    have h := step_resp env s (fun up rd wr e => hp ⟨up, rd, wr, e⟩) w v hm
    cases hx : w.step env s with
    | none =>
      cases hy : v.step env s with
      | none => exact ⟨fun _ h => (nomatch h), fun _ h => (nomatch h), by simp⟩
      | some b => dsimp only at h; rw [hx, hy] at h; exact h.elim
    | some a =>
      cases hy : v.step env s with
      | none => dsimp only at h; rw [hx, hy] at h; exact h.elim
      | some b =>
        dsimp only at h; rw [hx, hy] at h
        exact ⟨fun w' e _ => ⟨b, rfl, by cases e; exact h⟩, fun v' e _ => ⟨a, rfl, by cases e; exact h⟩, by simp⟩

theorem stays_head {env : Env} {m : Nat} {w : World} {h : List Step} (hs : StaysConnected env m w h) : w.isConn m :=
  hs [] h w rfl rfl
theorem stays_tail {env : Env} {m : Nat} {w w' : World} {s : Step} {h : List Step} (hs : StaysConnected env m w (s :: h))
    (e : w.step env s = some w') : StaysConnected env m ({ w' with tick := w'.tick + 1 } : World) h := by
  intro h1 h2 w1 e1 e2
  refine hs (s :: h1) h2 w1 (by rw [e1]; rfl) ?_
  show (w.step env s).bind _ = some w1
  rw [e]; exact e2
theorem stays_cons {env : Env} {m : Nat} {w : World} {s : Step} {h : List Step} (hc : w.isConn m)
    (hs : ∀ w', w.step env s = some w' → StaysConnected env m ({ w' with tick := w'.tick + 1 } : World) h) :
    StaysConnected env m w (s :: h) := by
  intro h1 h2 w1 e1 e2
  cases h1 with
  | nil => cases e2; exact hc
  | cons s' h1 =>
    have e3 := List.cons.inj e1
    obtain ⟨rfl, e3⟩ := e3
    have e2 : (w.step env s).bind (fun w => ({ w with tick := w.tick + 1 } : World).run env h1) = some w1 := e2
    cases e : w.step env s with
    | none => rw [e] at e2; cases e2
    | some w' => rw [e] at e2; exact hs w' e h1 h2 w1 e3 e2

theorem EInv.tick1 {w : World} (h : EInv w) : EInv ({ w with tick := w.tick + 1 } : World) := ⟨h.d.tick _, h.cl⟩

theorem run_sans {m : Nat} (env : Env) (h : List Step) : ∀ {w v : World}, EInv w → Mute m w v → StaysConnected env m w h →
    (∀ s ∈ h, keepsOpen m s = true) →
    StaysConnected env m v (h.map (sansOutput m)) ∧ MuteO m (w.run env h) (v.run env (h.map (sansOutput m))) := by
  induction h with
  | nil =>
    intro w v he hm hs _
    refine ⟨fun h1 h2 w1 e1 e2 => ?_, hm⟩
    have : h1 = [] := by
      have := congrArg List.length e1
      simp only [List.map_nil, List.length_nil, List.length_append] at this
      exact List.eq_nil_of_length_eq_zero (by omega)
    subst this; cases e2; exact hm.isConn (stays_head hs)
  | cons s h ih =>
    intro w v he hm hs hk
    obtain ⟨a1, a2, a3⟩ := step_sans env he hm (stays_head hs) s (hk s List.mem_cons_self)
    have hk' := fun x hx => hk x (List.mem_cons_of_mem s hx)
    show StaysConnected env m v (sansOutput m s :: h.map (sansOutput m)) ∧ MuteO m ((w.step env s).bind _) ((v.step env (sansOutput m s)).bind _)
    cases e : w.step env s with
    | none =>
      have e' := a3.1 e
      refine ⟨stays_cons (hm.isConn (stays_head hs)) (fun v' h => by rw [e'] at h; cases h), ?_⟩
      rw [e']; trivial
    | some w' =>
      have ht := stays_tail hs e
      have hcw : w'.isConn m := by have := stays_head ht; exact this
      obtain ⟨v', e', hm'⟩ := a1 w' e hcw
      have r := ih (he.step s e).tick1 (Resp.tick1 m w' v' hm') ht hk'
      refine ⟨stays_cons (hm.isConn (stays_head hs)) (fun v'' h => by rw [e'] at h; cases h; exact r.1), ?_⟩
      rw [e']; exact r.2

theorem run_unsans {m : Nat} (env : Env) (h : List Step) : ∀ {w v : World}, EInv w → Mute m w v →
    StaysConnected env m v (h.map (sansOutput m)) → (∀ s ∈ h, keepsOpen m s = true) →
    StaysConnected env m w h ∧ MuteO m (w.run env h) (v.run env (h.map (sansOutput m))) := by
  induction h with
  | nil =>
    intro w v he hm hs _
    refine ⟨fun h1 h2 w1 e1 e2 => ?_, hm⟩
    have : h1 = [] := by
      have := congrArg List.length e1
      simp only [List.length_nil, List.length_append] at this
      exact List.eq_nil_of_length_eq_zero (by omega)
    subst this; cases e2; exact hm.symm.isConn (stays_head hs)
  | cons s h ih =>
    intro w v he hm hs hk
    have hcw0 := hm.symm.isConn (stays_head hs)
    obtain ⟨a1, a2, a3⟩ := step_sans env he hm hcw0 s (hk s List.mem_cons_self)
    have hk' := fun x hx => hk x (List.mem_cons_of_mem s hx)
    show StaysConnected env m w (s :: h) ∧ MuteO m ((w.step env s).bind _) ((v.step env (sansOutput m s)).bind _)
    cases e : v.step env (sansOutput m s) with
    | none =>
      have e' := a3.2 e
      refine ⟨stays_cons hcw0 (fun v' h => by rw [e'] at h; cases h), ?_⟩
      rw [e']; trivial
    | some v' =>
      have ht : StaysConnected env m ({ v' with tick := v'.tick + 1 } : World) (h.map (sansOutput m)) := stays_tail hs e
      have hcv : v'.isConn m := by have := stays_head ht; exact this
      obtain ⟨w', e', hm'⟩ := a2 v' e hcv
      have r := ih (he.step s e').tick1 (Resp.tick1 m w' v' hm') ht hk'
      refine ⟨stays_cons hcw0 (fun w'' h => by rw [e'] at h; cases h; exact r.1), ?_⟩
      rw [e']; exact r.2

theorem MuteO.symm {m : Nat} {a b : Option World} (h : MuteO m a b) : MuteO m b a := by
  cases a <;> cases b
  · trivial
  · exact h.elim
  · exact h.elim
  · exact Mute.symm h

theorem MuteO.trans {m : Nat} {a b c : Option World} (h : MuteO m a b) (h' : MuteO m b c) : MuteO m a c := by
  cases a <;> cases b <;> cases c <;> first | exact h.elim | exact h'.elim | trivial | exact Mute.trans h h'

theorem run_slow {m : Nat} {env : Env} {w : World} (he : EInv w) {h h' : List Step} (hs : StaysConnected env m w h)
    (hk : ∀ s ∈ h, keepsOpen m s = true) (hk' : ∀ s ∈ h', keepsOpen m s = true)
    (hm : h'.map (sansOutput m) = h.map (sansOutput m)) :
    StaysConnected env m w h' ∧ MuteO m (w.run env h) (w.run env h') := by
  obtain ⟨s1, m1⟩ := run_sans env h he (.refl m w) hs hk
  rw [← hm] at s1 m1
  obtain ⟨s2, m2⟩ := run_unsans env h' he (.refl m w) s1 hk'
  exact ⟨s2, m1.trans m2.symm⟩

/-- A computable check of `StaysConnected`. -/
def staysOk (env : Env) (m : Nat) : World → List Step → Bool
  | w, [] => w.live.contains m && (w.obj m).kind = .client && !(w.obj m).eof
  | w, s :: ss => w.live.contains m && (w.obj m).kind = .client && !(w.obj m).eof &&
    (match w.step env s with
      | none => true
      | some w' => staysOk env m ({ w' with tick := w'.tick + 1 } : World) ss)

theorem staysOk_stays (env : Env) (m : Nat) (h : List Step) : ∀ w, staysOk env m w h = true → StaysConnected env m w h := by
  induction h with
  | nil =>
    intro w hc h1 h2 w1 e1 e2
    have : h1 = [] := by
      have := congrArg List.length e1
      simp only [List.length_nil, List.length_append] at this
      exact List.eq_nil_of_length_eq_zero (by omega)
    subst this; cases e2
    simpa [staysOk, and_assoc] using hc
  | cons s h ih =>
    intro w hc
    unfold staysOk at hc
    simp only [Bool.and_eq_true] at hc
    refine stays_cons ?_ (fun w' e => ?_)
    · exact ⟨by simpa using hc.1.1.1, by simpa using hc.1.1.2, by simpa using hc.1.2⟩
    · have h2 := hc.2
      rw [e] at h2
      exact ih _ h2

end Conman
