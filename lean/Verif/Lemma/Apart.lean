import Verif.Lemma.WorldRun
import Verif.Spec.Apart

/-
Lemmas for `Props/Apart.lean`: every operation on objects of one side works on that side alone.
`Loc A b f`: if the links do not cross `A`, the operation `f`, on objects `i` with `A i = b`, keeps this; with `b` it
commutes with taking the part `A` of the world, otherwise it does not change this part, except the clock.
-/
namespace Conman
open Spec

/-- The part of the world chosen by `A`. -/
def World.part (A : Nat → Bool) (w : World) : World where
  obj j := if A j then w.obj j else {}
  live := w.live.filter A
  tick := w.tick
  running := w.running.filter (fun x => A x.1)
  fx := w.fx.filter (fxAt A)
  wait := w.wait.filter (fun q => q.consoles.all A)

/-- All links of `o` lead to objects of one side. -/
def Side (A : Nat → Bool) (b : Bool) (o : Obj) : Prop :=
  (∀ j ∈ o.readers, A j = b) ∧ (∀ j ∈ o.writers, A j = b) ∧ ∀ j, o.log = some j → A j = b

def Sep (A : Nat → Bool) (w : World) : Prop := ∀ i, Side A (A i) (w.obj i)

def OutOf (A : Nat → Bool) (w w' : World) : Prop :=
  w.tick ≤ w'.tick ∧ w'.part A = { w.part A with tick := w'.tick }

/-- An operation on objects of side `b`. -/
def Loc (A : Nat → Bool) (b : Bool) (f : World → World) : Prop :=
  ∀ w, Sep A w → Sep A (f w) ∧ if b then (f w).part A = f (w.part A) else OutOf A w (f w)

theorem Loc.congr {A b f} {g : World → World} (h : Loc A b f) (e : ∀ w, g w = f w) : Loc A b g := by
  have : g = f := funext e
  rw [this]; exact h

theorem Loc.id' (A : Nat → Bool) (b : Bool) : Loc A b (fun w => w) := by
  intro w h
  refine ⟨h, ?_⟩
  cases b
  · exact ⟨Nat.le_refl _, rfl⟩
  · rfl

theorem OutOf.trans {A : Nat → Bool} {u v w : World} (h : OutOf A u v) (h' : OutOf A v w) : OutOf A u w :=
  ⟨Nat.le_trans h.1 h'.1, by rw [h'.2, h.2]⟩

theorem Loc.comp {A b f g} (hg : Loc A b g) (hf : Loc A b f) : Loc A b (fun w => g (f w)) := by
  intro w h
  have h1 := hf w h
  have h2 := hg (f w) h1.1
  refine ⟨h2.1, ?_⟩
  cases b
  · exact h1.2.trans h2.2
  · show (g (f w)).part A = g (f (w.part A))
    have e1 : (f w).part A = f (w.part A) := h1.2
    have e2 : (g (f w)).part A = g ((f w).part A) := h2.2
    rw [e2, e1]

theorem part_obj {A : Nat → Bool} (w : World) {i : Nat} (h : A i = true) : (w.part A).obj i = w.obj i := by
  simp [World.part, h]

theorem Loc.get {A b} {i : Nat} (hi : A i = b) (g : Obj → World → World) (h : ∀ o, Side A b o → Loc A b (g o)) :
    Loc A b (fun w => g (w.obj i) w) := by
  intro w hw
  have hs : Side A b (w.obj i) := hi ▸ hw i
  have h1 := h _ hs w hw
  refine ⟨h1.1, ?_⟩
  cases b
  · exact h1.2
  · show (g (w.obj i) w).part A = g ((w.part A).obj i) (w.part A)
    rw [part_obj w hi]; exact h1.2

theorem Loc.time {A b} (g : Nat → World → World) (h : ∀ t, Loc A b (g t)) : Loc A b (fun w => g w.tick w) := by
  intro w hw
  have h1 := h w.tick w hw
  refine ⟨h1.1, ?_⟩
  cases b
  · exact h1.2
  · exact h1.2

theorem part_live {A : Nat → Bool} (w : World) {i : Nat} (h : A i = true) : i ∈ (w.part A).live ↔ i ∈ w.live := by
  simp [World.part, h]

theorem Loc.alive {A b} {i : Nat} (hi : A i = b) (g : Bool → World → World) (h : ∀ t, Loc A b (g t)) :
    Loc A b (fun w => g (decide (i ∈ w.live)) w) := by
  intro w hw
  have h1 := h (decide (i ∈ w.live)) w hw
  refine ⟨h1.1, ?_⟩
  cases b
  · exact h1.2
  · show (g (decide (i ∈ w.live)) w).part A = g (decide (i ∈ (w.part A).live)) (w.part A)
    have e : decide (i ∈ (w.part A).live) = decide (i ∈ w.live) := by
      rw [decide_eq_decide]; exact part_live w hi
    rw [e]; exact h1.2

theorem Loc.runs {A b} {i : Nat} (p : Nat) (hi : A i = b) (g : Bool → World → World) (h : ∀ t, Loc A b (g t)) :
    Loc A b (fun w => g (decide ((i, p) ∈ w.running)) w) := by
  intro w hw
  have h1 := h (decide ((i, p) ∈ w.running)) w hw
  refine ⟨h1.1, ?_⟩
  cases b
  · exact h1.2
  · show (g (decide ((i, p) ∈ w.running)) w).part A = g (decide ((i, p) ∈ (w.part A).running)) (w.part A)
    have e : decide ((i, p) ∈ (w.part A).running) = decide ((i, p) ∈ w.running) := by
      rw [decide_eq_decide]; simp [World.part, hi]
    rw [e]; exact h1.2

theorem Loc.ite {A b f g} (c : Prop) [Decidable c] (hf : Loc A b f) (hg : Loc A b g) :
    Loc A b (fun w => if c then f w else g w) := by
  by_cases hc : c
  · simp only [hc, if_true]; exact hf
  · simp only [hc, if_false]; exact hg

theorem Loc.foldl {α : Type} {A b} (f : World → α → World) (l : List α) (h : ∀ x ∈ l, Loc A b (fun w => f w x)) :
    Loc A b (fun w => l.foldl f w) := by
  induction l with
  | nil => exact Loc.id' A b
  | cons x l ih =>
    exact Loc.comp (ih (fun y hy => h y (List.mem_cons_of_mem _ hy))) (h x List.mem_cons_self)

theorem part_mod_in {A : Nat → Bool} (w : World) {i : Nat} (f : Obj → Obj) (h : A i = true) :
    (w.mod i f).part A = (w.part A).mod i f := by
  unfold World.part World.mod
  congr 1
  funext j
  by_cases hj : j = i
  · subst hj; simp [h]
  · simp [hj]

theorem part_mod_out {A : Nat → Bool} (w : World) {i : Nat} (f : Obj → Obj) (h : A i = false) :
    (w.mod i f).part A = w.part A := by
  unfold World.part World.mod
  congr 1
  funext j
  by_cases hj : j = i
  · subst hj; simp [h]
  · simp [hj]

theorem Loc.mod {A b} {i : Nat} (hi : A i = b) (f : Obj → Obj) (hf : ∀ o, Side A b o → Side A b (f o)) :
    Loc A b (fun w => w.mod i f) := by
  intro w hw
  constructor
  · intro j
    by_cases hj : j = i
    · subst hj
      have := hf _ (hi ▸ hw j)
      simp only [World.mod, if_true]
      rw [hi]; exact this
    · simp only [World.mod, if_neg hj]; exact hw j
  · cases b
    · exact ⟨Nat.le_refl _, by rw [part_mod_out w f hi]; rfl⟩
    · exact part_mod_in w f hi

/-- The links stay. -/
theorem Side.keep {A b} {o o' : Obj} (h : Side A b o) (h1 : o'.readers = o.readers) (h2 : o'.writers = o.writers)
    (h3 : o'.log = o.log) : Side A b o' := by
  unfold Side; rw [h1, h2, h3]; exact h

theorem write_log' (o : Obj) (d : List UInt8) (b : Bool) : (o.write d b).log = o.log := by
  rcases o.write_cases d b with h | ⟨_, h⟩ <;> rw [h]

theorem Side.write {A b} {o : Obj} (h : Side A b o) (d : List UInt8) (t : Bool) : Side A b (o.write d t) :=
  h.keep (o.write_readers d t) (o.write_writers d t) (write_log' o d t)

theorem Side.writes {A b} (l : List (List UInt8)) : ∀ {o : Obj}, Side A b o →
    Side A b (l.foldl (fun o d => o.write d false) o) := by
  induction l with
  | nil => intro o h; exact h
  | cons d l ih => intro o h; exact ih (h.write d false)

theorem Side.writeLog {A b} {o : Obj} (h : Side A b o) (clk : Nat → List UInt8) (d : List UInt8) :
    Side A b (o.writeLog clk d) := by
  unfold Obj.writeLog
  exact Side.writes _ (h.keep rfl rfl rfl)

/-! ### the other fields -/

theorem Loc.fx {A b} {e : Fx} (he : fxAt A e = b) : Loc A b (fun w => { w with fx := w.fx ++ [e] }) := by
  intro w hw
  refine ⟨hw, ?_⟩
  cases b
  · refine ⟨Nat.le_refl _, ?_⟩
    simp [World.part, List.filter_append, he]
  · simp [World.part, List.filter_append, he]

theorem Loc.start {A b} {con pid : Nat} (hc : A con = b) : Loc A b (fun w => { w with running := w.running ++ [(con, pid)] }) := by
  intro w hw
  refine ⟨hw, ?_⟩
  cases b
  · refine ⟨Nat.le_refl _, ?_⟩
    simp [World.part, List.filter_append, hc]
  · simp [World.part, List.filter_append, hc]

theorem Loc.end' {A b} {con pid : Nat} (hc : A con = b) :
    Loc A b (fun w => { w with running := w.running.filter (· ≠ (con, pid)) }) := by
  intro w hw
  refine ⟨hw, ?_⟩
  cases b
  · refine ⟨Nat.le_refl _, ?_⟩
    simp only [World.part, List.filter_filter]
    congr 1
    apply List.filter_congr
    intro x _
    by_cases hx : x = (con, pid)
    · subst hx; simp [hc]
    · simp [hx]
  · simp only [World.part, List.filter_filter, if_true]
    congr 1
    apply List.filter_congr
    intro x _
    exact Bool.and_comm _ _

theorem Loc.dead {A b} {i : Nat} (hi : A i = b) : Loc A b (fun w => { w with live := w.live.filter (fun j => j ≠ i) }) := by
  intro w hw
  refine ⟨hw, ?_⟩
  cases b
  · refine ⟨Nat.le_refl _, ?_⟩
    simp only [World.part, List.filter_filter]
    congr 1
    apply List.filter_congr
    intro x _
    by_cases hx : x = i
    · subst hx; simp [hi]
    · simp [hx]
  · simp only [World.part, List.filter_filter, if_true]
    congr 1
    apply List.filter_congr
    intro x _
    exact Bool.and_comm _ _

theorem Loc.born {A b} {i : Nat} (hi : A i = b) : Loc A b (fun w => { w with live := w.live ++ [i] }) := by
  intro w hw
  refine ⟨hw, ?_⟩
  cases b
  · refine ⟨Nat.le_refl _, ?_⟩
    simp [World.part, List.filter_append, hi]
  · simp [World.part, List.filter_append, hi]

theorem Loc.tick1 (A : Nat → Bool) (b : Bool) : Loc A b (fun w => { w with tick := w.tick + 1 }) := by
  intro w hw
  refine ⟨hw, ?_⟩
  cases b
  · exact ⟨Nat.le_succ _, rfl⟩
  · rfl

/-! ### the operations -/

theorem note_loc {A b} (env : Env) (n : Note) {i : Nat} (hi : A i = b) : Loc A b (fun w => w.note env n i) :=
  Loc.time (fun t w => w.mod i (·.write (env.txt n t) true)) (fun _ => Loc.mod hi _ (by intro _ h; exact h.write _ _))

theorem notify_loc {A b} (env : Env) (n : Note) {con : Nat} (hi : A con = b) : Loc A b (fun w => w.notify env con n) := by
  refine Loc.get hi (fun o w => (o.writers.filter (fun i => !o.readers.contains i)).foldl (fun w i => w.note env n i)
    (o.readers.foldl (fun w i => w.note env n i) w)) (fun o ho => ?_)
  refine Loc.comp (f := fun w => o.readers.foldl (fun w i => w.note env n i) w) (Loc.foldl _ _ ?_) (Loc.foldl _ _ ?_)
  · intro x hx; exact note_loc env n (ho.2.1 x (List.mem_filter.1 hx).1)
  · intro x hx; exact note_loc env n (ho.1 x hx)

theorem cut_loc {A b} {src dst : Nat} (hs : A src = b) (hd : A dst = b) : Loc A b (fun w => w.cut src dst) := by
  refine Loc.comp (f := fun w => w.mod src (fun o => { o with readers := o.readers.filter (· ≠ dst) }))
    (Loc.mod hd _ ?_) (Loc.mod hs _ ?_)
  · intro o h
    exact ⟨h.1, fun j hj => h.2.1 j (List.mem_filter.1 hj).1, h.2.2⟩
  · intro o h
    exact ⟨fun j hj => h.1 j (List.mem_filter.1 hj).1, h.2.1, h.2.2⟩

theorem unlinkObjs_loc {A b} (env : Env) {src dst : Nat} (hs : A src = b) (hd : A dst = b) :
    Loc A b (fun w => w.unlinkObjs env src dst) := by
  refine Loc.get hd (fun od w =>
    let n := od.writers.count src
    let w1 := w.cut src dst
    let w2 := if n > 0 ∧ (w1.obj src).kind = .client ∧ (w1.obj dst).kind.isConsole then
      w1.notify env dst (.departed src dst) else w1
    if (w2.obj src).orphan then w2.mod src (fun o => { o with eof := true })
    else if (w2.obj dst).orphan then w2.mod dst (fun o => { o with eof := true })
    else w2) (fun od _ => ?_)
  have h2 : Loc A b (fun w1 : World => if od.writers.count src > 0 ∧ (w1.obj src).kind = .client ∧ (w1.obj dst).kind.isConsole then
      w1.notify env dst (.departed src dst) else w1) :=
    Loc.get hs (fun o1 w1 => if od.writers.count src > 0 ∧ o1.kind = .client ∧ (w1.obj dst).kind.isConsole then
      w1.notify env dst (.departed src dst) else w1) (fun o1 _ =>
    Loc.get hd (fun o2 w1 => if od.writers.count src > 0 ∧ o1.kind = .client ∧ o2.kind.isConsole then
      w1.notify env dst (.departed src dst) else w1) (fun o2 _ =>
      Loc.ite _ (notify_loc env _ hd) (Loc.id' A b)))
  have h3 : Loc A b (fun w2 : World => if (w2.obj src).orphan then w2.mod src (fun o => { o with eof := true })
    else if (w2.obj dst).orphan then w2.mod dst (fun o => { o with eof := true }) else w2) :=
    Loc.get hs (fun o1 w2 => if o1.orphan then w2.mod src (fun o => { o with eof := true })
      else if (w2.obj dst).orphan then w2.mod dst (fun o => { o with eof := true }) else w2) (fun o1 _ =>
    Loc.get hd (fun o2 w2 => if o1.orphan then w2.mod src (fun o => { o with eof := true })
      else if o2.orphan then w2.mod dst (fun o => { o with eof := true }) else w2) (fun o2 _ =>
      Loc.ite _ (Loc.mod hs _ (by intro _ h; exact h.keep rfl rfl rfl))
        (Loc.ite _ (Loc.mod hd _ (by intro _ h; exact h.keep rfl rfl rfl)) (Loc.id' A b))))
  exact Loc.comp h3 (Loc.comp h2 (cut_loc hs hd))

theorem unlinkWriters_loc {A b} (env : Env) {i : Nat} (hi : A i = b) (fuel : Nat) :
    Loc A b (fun w => w.unlinkWriters env i fuel) := by
  induction fuel with
  | zero => exact (Loc.id' A b).congr (fun _ => rfl)
  | succ n ih =>
    refine (Loc.get hi (fun o w => match o.writers with
      | [] => w
      | x :: _ => (w.unlinkObjs env x i).unlinkWriters env i n) (fun o ho => ?_)).congr (fun _ => rfl)
    cases hw : o.writers with
    | nil => exact Loc.id' A b
    | cons x l =>
      exact Loc.comp ih (unlinkObjs_loc env (ho.2.1 x (by rw [hw]; exact List.mem_cons_self)) hi)

theorem unlinkReaders_loc {A b} (env : Env) {i : Nat} (hi : A i = b) (fuel : Nat) :
    Loc A b (fun w => w.unlinkReaders env i fuel) := by
  induction fuel with
  | zero => exact (Loc.id' A b).congr (fun _ => rfl)
  | succ n ih =>
    refine (Loc.get hi (fun o w => match o.readers with
      | [] => w
      | x :: _ => (w.unlinkObjs env i x).unlinkReaders env i n) (fun o ho => ?_)).congr (fun _ => rfl)
    cases hw : o.readers with
    | nil => exact Loc.id' A b
    | cons x l =>
      exact Loc.comp ih (unlinkObjs_loc env hi (ho.1 x (by rw [hw]; exact List.mem_cons_self)))

theorem unlinkObj_loc {A b} (env : Env) {i : Nat} (hi : A i = b) : Loc A b (fun w => w.unlinkObj env i) := by
  refine Loc.comp (g := fun w1 => w1.unlinkReaders env i (w1.obj i).readers.length)
    (f := fun w => w.unlinkWriters env i (w.obj i).writers.length) ?_ ?_
  · exact Loc.get hi (fun o w => w.unlinkReaders env i o.readers.length) (fun o _ => unlinkReaders_loc env hi _)
  · exact Loc.get hi (fun o w => w.unlinkWriters env i o.writers.length) (fun o _ => unlinkWriters_loc env hi _)

theorem linkObjs_loc {A b} (env : Env) {src dst : Nat} (hs : A src = b) (hd : A dst = b) :
    Loc A b (fun w => w.linkObjs env src dst) := by
  have h1 : Loc A b (fun w : World => if (w.obj src).kind = .client ∧ (w.obj dst).kind.isConsole then
      let ws := (w.obj dst).writers
      let stolen := (w.obj src).force && !ws.isEmpty
      let wa := w.notify env dst (if stolen then .stolenBy src dst else .joinedBy src dst)
      let wb := ws.foldl (fun w x =>
        w.note env (if stolen then .stolenFrom x dst else .joinedWith x dst) src) wa
      if stolen then ws.foldl (fun w x => w.unlinkObj env x) wb else wb
    else w) := by
    refine Loc.get hs (fun o1 w => if o1.kind = .client ∧ (w.obj dst).kind.isConsole then
      let ws := (w.obj dst).writers
      let stolen := o1.force && !ws.isEmpty
      let wa := w.notify env dst (if stolen then .stolenBy src dst else .joinedBy src dst)
      let wb := ws.foldl (fun w x =>
        w.note env (if stolen then .stolenFrom x dst else .joinedWith x dst) src) wa
      if stolen then ws.foldl (fun w x => w.unlinkObj env x) wb else wb
    else w) (fun o1 _ => ?_)
    refine Loc.get hd (fun o2 w => if o1.kind = .client ∧ o2.kind.isConsole then
      let stolen := o1.force && !o2.writers.isEmpty
      let wa := w.notify env dst (if stolen then .stolenBy src dst else .joinedBy src dst)
      let wb := o2.writers.foldl (fun w x =>
        w.note env (if stolen then .stolenFrom x dst else .joinedWith x dst) src) wa
      if stolen then o2.writers.foldl (fun w x => w.unlinkObj env x) wb else wb
    else w) (fun o2 h2 => ?_)
    refine Loc.ite _ ?_ (Loc.id' A b)
    have hn := notify_loc (b := b) env (if (o1.force && !o2.writers.isEmpty) then .stolenBy src dst else .joinedBy src dst) hd
    have hf : Loc A b (fun w => o2.writers.foldl (fun w x =>
        w.note env (if (o1.force && !o2.writers.isEmpty) then .stolenFrom x dst else .joinedWith x dst) src) w) :=
      Loc.foldl _ _ (fun x _ => note_loc env _ hs)
    have hu : Loc A b (fun w : World => if (o1.force && !o2.writers.isEmpty) then o2.writers.foldl (fun w x => w.unlinkObj env x) w else w) :=
      Loc.ite _ (Loc.foldl _ _ (fun x hx => unlinkObj_loc env (h2.2.1 x hx))) (Loc.id' A b)
    exact Loc.comp hu (Loc.comp hf hn)
  have h2 : Loc A b (fun w => w.mod src (fun o => { o with readers := o.readers ++ [dst] })) := by
    refine Loc.mod hs _ (fun o h => ⟨fun j hj => ?_, h.2.1, h.2.2⟩)
    rcases List.mem_append.1 hj with hj | hj
    · exact h.1 j hj
    · rw [List.mem_singleton.1 hj]; exact hd
  have h3 : Loc A b (fun w => w.mod dst (fun o => { o with writers := o.writers ++ [src] })) := by
    refine Loc.mod hd _ (fun o h => ⟨h.1, fun j hj => ?_, h.2.2⟩)
    rcases List.mem_append.1 hj with hj | hj
    · exact h.2.1 j hj
    · rw [List.mem_singleton.1 hj]; exact hs
  exact Loc.comp h3 (Loc.comp h2 h1)

theorem break1_loc {A b} {con : Nat} (hi : A con = b) : Loc A b (fun w => w.break1 con) := by
  refine (Loc.get hi (fun o w => match o.kind with
    | .process => w.mod con (·.write [0x26, 0x42] false)
    | .serial | .ipmi => { w with fx := w.fx ++ [.brk con] }
    | .telnet => if o.conn = .up then w.mod con (·.write (sendTelnetCmd 243 none) false) else w
    | _ => w) (fun o _ => ?_)).congr (fun _ => rfl)
  cases o.kind with
  | process => exact Loc.mod hi _ (by intro _ h; exact h.write _ _)
  | serial => exact Loc.fx (e := .brk con) hi
  | ipmi => exact Loc.fx (e := .brk con) hi
  | telnet => exact Loc.ite _ (Loc.mod hi _ (by intro _ h; exact h.write _ _)) (Loc.id' A b)
  | client => exact Loc.id' A b
  | logfile => exact Loc.id' A b
  | unixsock => exact Loc.id' A b
  | test => exact Loc.id' A b

theorem reset1_loc {A b} (env : Env) (c : Nat) {con : Nat} (hi : A con = b) : Loc A b (fun w => w.reset1 env c con) := by
  refine Loc.comp (g := fun w1 => { w1 with tick := w1.tick + 1 }) (f := fun w =>
    if (w.obj con).resetCmd = false then w
    else if (w.obj con).resetPid.isSome then w.notify env con (.resetBusy con)
    else if env.fmtOk con w.tick = false then w.notify env con (.resetLong con)
    else
      match env.fork w.tick with
      | none => w.notify env con (.resetFork con)
      | some pid =>
        (({ w with running := w.running ++ [(con, pid)], fx := w.fx ++ [.resetStart con pid] } : World).mod con
          (fun o => { o with resetPid := some pid, resetTimer := true })).notify env con (.resetBy c con))
    (Loc.tick1 A b) ?_
  refine Loc.get hi (fun o w =>
    if o.resetCmd = false then w
    else if o.resetPid.isSome then w.notify env con (.resetBusy con)
    else if env.fmtOk con w.tick = false then w.notify env con (.resetLong con)
    else
      match env.fork w.tick with
      | none => w.notify env con (.resetFork con)
      | some pid =>
        (({ w with running := w.running ++ [(con, pid)], fx := w.fx ++ [.resetStart con pid] } : World).mod con
          (fun o => { o with resetPid := some pid, resetTimer := true })).notify env con (.resetBy c con)) (fun o _ => ?_)
  refine Loc.time (fun t w =>
    if o.resetCmd = false then w
    else if o.resetPid.isSome then w.notify env con (.resetBusy con)
    else if env.fmtOk con t = false then w.notify env con (.resetLong con)
    else
      match env.fork t with
      | none => w.notify env con (.resetFork con)
      | some pid =>
        (({ w with running := w.running ++ [(con, pid)], fx := w.fx ++ [.resetStart con pid] } : World).mod con
          (fun o => { o with resetPid := some pid, resetTimer := true })).notify env con (.resetBy c con)) (fun t => ?_)
  refine Loc.ite _ (Loc.id' A b) (Loc.ite _ (notify_loc env _ hi) (Loc.ite _ (notify_loc env _ hi) ?_))
  cases env.fork t with
  | none => exact notify_loc env _ hi
  | some pid =>
    have h1 : Loc A b (fun w => w.mod con (fun o => { o with resetPid := some pid, resetTimer := true })) :=
      Loc.mod hi _ (by intro _ h; exact h.keep rfl rfl rfl)
    exact Loc.comp (notify_loc env _ hi) (Loc.comp h1
      (Loc.comp (Loc.fx (e := .resetStart con pid) hi) (Loc.start (pid := pid) hi)))

/-! ### partial operations -/

def LocO (A : Nat → Bool) (b : Bool) (f : World → Option World) : Prop :=
  ∀ w, Sep A w → (∀ w', f w = some w' → Sep A w') ∧
    if b then (f w).map (World.part A) = f (w.part A) else ∀ w', f w = some w' → OutOf A w w'

theorem LocO.congr {A b f} {g : World → Option World} (h : LocO A b f) (e : ∀ w, g w = f w) : LocO A b g := by
  have : g = f := funext e
  rw [this]; exact h

theorem Loc.opt {A b f} (h : Loc A b f) : LocO A b (fun w => some (f w)) := by
  intro w hw
  have h1 := h w hw
  refine ⟨fun w' e => by cases e; exact h1.1, ?_⟩
  cases b
  · intro w' e; cases e; exact h1.2
  · show some ((f w).part A) = some (f (w.part A))
    exact congrArg some h1.2

theorem LocO.none (A : Nat → Bool) (b : Bool) : LocO A b (fun _ => Option.none) := by
  intro w _
  refine ⟨fun w' e => (nomatch e), ?_⟩
  cases b
  · intro w' e; cases e
  · rfl

theorem LocO.bind {A b} {f g : World → Option World} (hf : LocO A b f) (hg : LocO A b g) :
    LocO A b (fun w => (f w).bind g) := by
  intro w hw
  have h1 := hf w hw
  show (∀ w', (f w).bind g = some w' → Sep A w') ∧ (if b then ((f w).bind g).map (World.part A) = (f (w.part A)).bind g
    else ∀ w', (f w).bind g = some w' → OutOf A w w')
  cases e : f w with
  | none =>
    refine ⟨fun w' h => (nomatch h), ?_⟩
    cases b
    · intro w' h; cases h
    · have e1 : (f w).map (World.part A) = f (w.part A) := h1.2
      rw [e] at e1
      rw [← e1]; rfl
  | some u =>
    have h2 := hg u (h1.1 u e)
    refine ⟨fun w' h => h2.1 w' h, ?_⟩
    cases b
    · intro w' h
      exact OutOf.trans (h1.2 u e) (h2.2 w' h)
    · have e1 : (f w).map (World.part A) = f (w.part A) := h1.2
      rw [e] at e1
      rw [← e1]
      exact h2.2

theorem LocO.map {A b} {f : World → Option World} {g : World → World} (hf : LocO A b f) (hg : Loc A b g) :
    LocO A b (fun w => (f w).map g) :=
  (hf.bind hg.opt).congr (fun w => by cases f w <;> rfl)

theorem LocO.comp {A b} {f : World → World} {g : World → Option World} (hg : LocO A b g) (hf : Loc A b f) :
    LocO A b (fun w => g (f w)) :=
  (hf.opt.bind hg).congr (fun _ => rfl)

theorem LocO.get {A b} {i : Nat} (hi : A i = b) (g : Obj → World → Option World) (h : ∀ o, Side A b o → LocO A b (g o)) :
    LocO A b (fun w => g (w.obj i) w) := by
  intro w hw
  have hs : Side A b (w.obj i) := hi ▸ hw i
  have h1 := h _ hs w hw
  refine ⟨h1.1, ?_⟩
  cases b
  · exact h1.2
  · show (g (w.obj i) w).map (World.part A) = g ((w.part A).obj i) (w.part A)
    rw [part_obj w hi]; exact h1.2

theorem LocO.alive {A b} {i : Nat} (hi : A i = b) (g : Bool → World → Option World) (h : ∀ t, LocO A b (g t)) :
    LocO A b (fun w => g (decide (i ∈ w.live)) w) := by
  intro w hw
  have h1 := h (decide (i ∈ w.live)) w hw
  refine ⟨h1.1, ?_⟩
  cases b
  · exact h1.2
  · show (g (decide (i ∈ w.live)) w).map (World.part A) = g (decide (i ∈ (w.part A).live)) (w.part A)
    have e : decide (i ∈ (w.part A).live) = decide (i ∈ w.live) := by
      rw [decide_eq_decide]; exact part_live w hi
    rw [e]; exact h1.2

theorem LocO.ite {A b} {f g : World → Option World} (c : Prop) [Decidable c] (hf : LocO A b f) (hg : LocO A b g) :
    LocO A b (fun w => if c then f w else g w) := by
  by_cases hc : c
  · simp only [hc, if_true]; exact hf
  · simp only [hc, if_false]; exact hg

theorem toggle_loc {A b} (env : Env) {c : Nat} (hc : A c = b) : LocO A b (fun w => w.toggle env c) := by
  refine (LocO.get hc (fun o w => if o.bcast then some w else
    match o.writers with
    | [] => none
    | con :: _ =>
      if o.readers ≠ [] then some ((w.mod c (fun o => { o with cmd := .monitor })).unlinkObjs env c con)
      else some ((w.mod c (fun o => { o with cmd := .connect })).linkObjs env c con)) (fun o ho => ?_)).congr (fun _ => rfl)
  refine LocO.ite _ (Loc.id' A b).opt ?_
  cases hw : o.writers with
  | nil => exact LocO.none A b
  | cons con l =>
    have hcon : A con = b := ho.2.1 con (by rw [hw]; exact List.mem_cons_self)
    exact LocO.ite _ (Loc.comp (unlinkObjs_loc env hc hcon) (Loc.mod hc _ (by intro _ h; exact h.keep rfl rfl rfl))).opt
      (Loc.comp (linkObjs_loc env hc hcon) (Loc.mod hc _ (by intro _ h; exact h.keep rfl rfl rfl))).opt

theorem replay_loc {A b} (env : Env) {c con : Nat} (hc : A c = b) (hcon : A con = b) :
    Loc A b (fun w => w.mod c (·.write (env.replay con (w.logHist con)) false)) := by
  refine Loc.get hcon (fun o w => w.mod c (·.write (env.replay con
    (o.log.bind (fun l => if (w.obj l).fd then some (w.obj l).hist else none))) false)) (fun o ho => ?_)
  cases hl : o.log with
  | none => exact Loc.mod hc (·.write (env.replay con none) false) (by intro _ h; exact h.write _ _)
  | some l =>
    exact Loc.get (ho.2.2 l hl) (fun o2 w => w.mod c (·.write (env.replay con
      (if o2.fd then some o2.hist else none)) false)) (fun o2 _ => Loc.mod hc _ (by intro _ h; exact h.write _ _))

theorem act_loc {A b} (env : Env) {c : Nat} (hc : A c = b) (a : UInt8) : LocO A b (fun w => w.act env c a) := by
  refine (LocO.get hc (fun o w =>
    if a = 0x42 then some (o.readers.foldl World.break1 w)
    else if a = 0x44 then some (o.readers.foldl (fun w i => w.mod i (·.write [0x7F] false)) w)
    else if a = 0x46 then (w.mod c (fun o => { o with force := true, join := false })).toggle env c
    else if a = 0x4A then (w.mod c (fun o => { o with force := false, join := true })).toggle env c
    else if a = 0x4C then
      match o.writers with
      | [] => some w
      | con :: _ => some (w.mod c (·.write (env.replay con (w.logHist con)) false))
    else if a = 0x4D then (w.mod c (fun o => { o with force := false, join := false })).toggle env c
    else if a = 0x51 then
      let q := !o.quiet
      some (w.mod c (fun o => ({ o with quiet := q }).write
        (env.txt (if q then .quietOn else .quietOff) w.tick) false))
    else if a = 0x52 then some (o.readers.foldl (fun w con => w.reset1 env c con) w)
    else if a = 0x5A then some (w.mod c (fun o => { o with suspend := !o.suspend, pout := o.suspend && o.fd }))
    else some w) (fun o ho => ?_)).congr (fun _ => rfl)
  refine LocO.ite _ ?_ (LocO.ite _ ?_ (LocO.ite _ ?_ (LocO.ite _ ?_ (LocO.ite _ ?_ (LocO.ite _ ?_ (LocO.ite _ ?_
    (LocO.ite _ ?_ (LocO.ite _ ?_ (Loc.id' A b).opt))))))))
  · exact (Loc.foldl _ _ (fun x hx => break1_loc (ho.1 x hx))).opt
  · exact (Loc.foldl _ _ (fun x hx => Loc.mod (ho.1 x hx) _ (by intro _ h; exact h.write _ _))).opt
  · exact (toggle_loc env hc).comp (Loc.mod hc _ (by intro _ h; exact h.keep rfl rfl rfl))
  · exact (toggle_loc env hc).comp (Loc.mod hc _ (by intro _ h; exact h.keep rfl rfl rfl))
  · cases hw : o.writers with
    | nil => exact (Loc.id' A b).opt
    | cons con l => exact (replay_loc env hc (ho.2.1 con (by rw [hw]; exact List.mem_cons_self))).opt
  · exact (toggle_loc env hc).comp (Loc.mod hc _ (by intro _ h; exact h.keep rfl rfl rfl))
  · exact (Loc.time (fun t w => w.mod c (fun o' => ({ o' with quiet := !o.quiet }).write
      (env.txt (if !o.quiet then .quietOn else .quietOff) t) false))
      (fun t => Loc.mod hc _ (by intro _ h; refine Side.write ?_ _ _; exact h.keep rfl rfl rfl))).opt
  · exact (Loc.foldl _ _ (fun x hx => reset1_loc env c (ho.1 x hx))).opt
  · exact (Loc.mod hc _ (by intro _ h; exact h.keep rfl rfl rfl)).opt

theorem acts_loc {A b} (env : Env) {c : Nat} (hc : A c = b) (as : List UInt8) : LocO A b (fun w => w.acts env c as) := by
  induction as with
  | nil => exact (Loc.id' A b).opt
  | cons a as ih => exact (act_loc env hc a).bind ih

theorem give_loc {A b} (env : Env) (d : List UInt8) {i : Nat} (hi : A i = b) : Loc A b (fun w => w.give env d i) := by
  refine Loc.mod hi _ (fun o h => ?_)
  by_cases hk : o.kind = .logfile
  · simp only [hk, if_true]; exact h.writeLog _ _
  · simp only [hk, if_false]; exact h.write _ _

theorem deliver_loc {A b} (env : Env) (d : List UInt8) {i : Nat} (hi : A i = b) : Loc A b (fun w => w.deliver env i d) := by
  refine Loc.ite (f := fun w => w) _ (Loc.id' A b) ?_
  exact Loc.get hi (fun o w => o.readers.foldl (fun w i => w.give env d i) w) (fun o ho =>
    Loc.foldl _ _ (fun x hx => give_loc env d (ho.1 x hx)))

theorem foldl_live' {α : Type} (f : World → α → World) (hf : ∀ w x, (f w x).live = w.live) (l : List α) :
    ∀ w : World, (l.foldl f w).live = w.live := by
  induction l with
  | nil => intro w; rfl
  | cons x l ih => intro w; exact (ih _).trans (hf w x)

theorem notify_live' (w : World) (env : Env) (con : Nat) (n : Note) : (w.notify env con n).live = w.live :=
  (foldl_live' (fun w i => w.note env n i) (fun _ _ => rfl) _ _).trans
    (foldl_live' (fun w i => w.note env n i) (fun _ _ => rfl) _ _)

theorem unlinkObjs_live' (w : World) (env : Env) (src dst : Nat) : (w.unlinkObjs env src dst).live = w.live := by
  have h1 : ∀ (w1 : World) (c : Prop) [Decidable c] (n : Note), (if c then w1.notify env dst n else w1).live = w1.live := by
    intro w1 c _ n
    by_cases hc : c
    · rw [if_pos hc]; exact notify_live' ..
    · rw [if_neg hc]
  have h2 : ∀ w2 : World, (if (w2.obj src).orphan then w2.mod src (fun o => { o with eof := true })
    else if (w2.obj dst).orphan then w2.mod dst (fun o => { o with eof := true }) else w2).live = w2.live := by
    intro w2
    split
    · rfl
    · split <;> rfl
  exact (h2 _).trans ((h1 _ _ _).trans rfl)

theorem unlinkWriters_live' (env : Env) (i fuel : Nat) : ∀ w : World, (w.unlinkWriters env i fuel).live = w.live := by
  induction fuel with
  | zero => intro w; rfl
  | succ n ih =>
    intro w
    unfold World.unlinkWriters
    split
    · rfl
    · exact (ih _).trans (unlinkObjs_live' ..)

theorem unlinkReaders_live' (env : Env) (i fuel : Nat) : ∀ w : World, (w.unlinkReaders env i fuel).live = w.live := by
  induction fuel with
  | zero => intro w; rfl
  | succ n ih =>
    intro w
    unfold World.unlinkReaders
    split
    · rfl
    · exact (ih _).trans (unlinkObjs_live' ..)

theorem unlinkObj_live' (w : World) (env : Env) (i : Nat) : (w.unlinkObj env i).live = w.live :=
  (unlinkReaders_live' env i _ _).trans (unlinkWriters_live' env i _ _)

theorem shutdown_loc {A b} (env : Env) (up : Bool) {i : Nat} (hi : A i = b) : Loc A b (fun w => w.shutdown env up i) := by
  refine (Loc.get hi (fun o0 w => if o0.fd = false then w else
    (fun (w1 : World) => match (w1.obj i).kind with
    | .client => { (w1.unlinkObj env i) with live := w1.live.filter (fun j => j ≠ i) }
    | .logfile => w1
    | .serial =>
      if up then (w1.mod i (fun o => { o with fd := up, pin := up })).notify env i (.connected i)
      else w1.mod i (fun o => { o with fd := up, pin := up })
    | .test => w1.mod i (fun o => { o with fd := up, pin := up })
    | _ => (w1.mod i (fun o => { o with conn := .down })).notify env i (.disconnected i)) (w.mod i (fun o =>
      { o with fd := false, pin := false, pout := false, pend := [], eof := false, gen := o.gen + 1, hist := o.hist ++ [none] })))
    (fun o _ => ?_)).congr (fun _ => rfl)
  refine Loc.ite _ (Loc.id' A b) (Loc.comp (g := fun (w1 : World) => match (w1.obj i).kind with
    | .client => { (w1.unlinkObj env i) with live := w1.live.filter (fun j => j ≠ i) }
    | .logfile => w1
    | .serial =>
      if up then (w1.mod i (fun o => { o with fd := up, pin := up })).notify env i (.connected i)
      else w1.mod i (fun o => { o with fd := up, pin := up })
    | .test => w1.mod i (fun o => { o with fd := up, pin := up })
    | _ => (w1.mod i (fun o => { o with conn := .down })).notify env i (.disconnected i)) ?_
      (Loc.mod hi _ (by intro _ h; exact h.keep rfl rfl rfl)))
  refine Loc.get hi (fun o (w1 : World) => match o.kind with
    | .client => { (w1.unlinkObj env i) with live := w1.live.filter (fun j => j ≠ i) }
    | .logfile => w1
    | .serial =>
      if up then (w1.mod i (fun o => { o with fd := up, pin := up })).notify env i (.connected i)
      else w1.mod i (fun o => { o with fd := up, pin := up })
    | .test => w1.mod i (fun o => { o with fd := up, pin := up })
    | _ => (w1.mod i (fun o => { o with conn := .down })).notify env i (.disconnected i)) (fun o _ => ?_)
  have hm : ∀ u : Bool, Loc A b (fun w1 : World => w1.mod i (fun o => { o with fd := u, pin := u })) :=
    fun u => Loc.mod hi _ (by intro _ h; exact h.keep rfl rfl rfl)
  have hx : Loc A b (fun w1 : World => (w1.mod i (fun o => { o with conn := .down })).notify env i (.disconnected i)) :=
    Loc.comp (notify_loc env _ hi) (Loc.mod hi _ (by intro _ h; exact h.keep rfl rfl rfl))
  cases o.kind with
  | client =>
    refine (Loc.comp (Loc.dead hi) (unlinkObj_loc env hi)).congr (fun w1 => ?_)
    show _ = ({ w1.unlinkObj env i with live := (w1.unlinkObj env i).live.filter (fun j => j ≠ i) } : World)
    rw [unlinkObj_live']
  | logfile => exact Loc.id' A b
  | serial => exact Loc.ite _ (Loc.comp (notify_loc env _ hi) (hm up)) (hm up)
  | test => exact hm up
  | process => exact hx
  | telnet => exact hx
  | ipmi => exact hx
  | unixsock => exact hx


theorem read_loc {A b} (env : Env) (up : Bool) {i : Nat} (hi : A i = b) (r : ReadRes) :
    LocO A b (fun w => w.read env up i r) := by
  refine (LocO.get hi (fun o w => if o.fd = false then some w else if o.kind = .telnet ∧ o.conn ≠ .up then some w else
    match (if o.kind = .logfile then .err else r : ReadRes) with
    | .again => some w
    | .err => some (w.shutdown env up i)
    | .eof => some (if ((w.mod i (fun o => { o with eof := true, pin := false })).obj i).pend = [] then
        (w.mod i (fun o => { o with eof := true, pin := false })).shutdown env up i
        else w.mod i (fun o => { o with eof := true, pin := false }))
    | .data d0 =>
      match o.kind with
      | .client =>
        (w.acts env i (processClientEscapes o.gotEscape (d0.take readBufSize)).acts).map (fun w =>
          (w.mod i (fun o' => { o' with gotEscape := (processClientEscapes o.gotEscape (d0.take readBufSize)).gotEscape })).deliver env i
            (processClientEscapes o.gotEscape (d0.take readBufSize)).data)
      | .telnet =>
        (processTelnetEscapes o.iac (d0.take readBufSize)).map (fun t =>
          (w.mod i (fun o => ({ o with iac := t.iac }).write t.sent false)).deliver env i
            (t.buf.take t.len))
      | _ => some (w.deliver env i (d0.take readBufSize))) (fun o _ => ?_)).congr (fun _ => rfl)
  refine LocO.ite _ (Loc.id' A b).opt (LocO.ite _ (Loc.id' A b).opt ?_)
  cases (if o.kind = .logfile then .err else r : ReadRes) with
  | again => exact (Loc.id' A b).opt
  | err => exact (shutdown_loc env up hi).opt
  | eof =>
    have h1 : Loc A b (fun w => w.mod i (fun o => { o with eof := true, pin := false })) :=
      Loc.mod hi _ (by intro _ h; exact h.keep rfl rfl rfl)
    have h2 : Loc A b (fun w1 : World => if (w1.obj i).pend = [] then w1.shutdown env up i else w1) :=
      Loc.get hi (fun o w1 => if o.pend = [] then w1.shutdown env up i else w1) (fun o _ =>
        Loc.ite _ (shutdown_loc env up hi) (Loc.id' A b))
    exact (Loc.comp h2 h1).opt
  | data d0 =>
    have hd := deliver_loc (b := b) env (d0.take readBufSize) hi
    cases o.kind with
    | client =>
      refine LocO.map (acts_loc env hi _) ?_
      have h1 : Loc A b (fun w => w.mod i (fun o' => { o' with gotEscape := (processClientEscapes o.gotEscape (d0.take readBufSize)).gotEscape })) :=
        Loc.mod hi _ (by intro _ h; exact h.keep rfl rfl rfl)
      exact Loc.comp (deliver_loc env _ hi) h1
    | telnet =>
      show LocO A b (fun w => (processTelnetEscapes o.iac (d0.take readBufSize)).map (fun t =>
          (w.mod i (fun o => ({ o with iac := t.iac }).write t.sent false)).deliver env i
            (t.buf.take t.len)))
      cases ht : processTelnetEscapes o.iac (d0.take readBufSize) with
      | none => exact LocO.none A b
      | some t =>
        have h1 : Loc A b (fun w => w.mod i (fun o => ({ o with iac := t.iac }).write t.sent false)) :=
          Loc.mod hi _ (by intro _ h; refine Side.write ?_ _ _; exact h.keep rfl rfl rfl)
        exact (Loc.comp (deliver_loc env (t.buf.take t.len) hi) h1).opt
    | logfile => exact hd.opt
    | process => exact hd.opt
    | serial => exact hd.opt
    | ipmi => exact hd.opt
    | unixsock => exact hd.opt
    | test => exact hd.opt

theorem push_loc {A b} {i : Nat} (hi : A i = b) (n : Nat) : Loc A b (fun w => w.push i n) := by
  refine Loc.get hi (fun o w => ({ w with fx := if n = 0 then w.fx else w.fx ++ [.sent i (o.pend.take n)] } : World).mod i
    (fun o => { o with pend := o.pend.drop n })) (fun o _ => ?_)
  have h1 : Loc A b (fun w => w.mod i (fun o => { o with pend := o.pend.drop n })) :=
    Loc.mod hi _ (by intro _ h; exact h.keep rfl rfl rfl)
  by_cases hn : n = 0
  · simp only [if_pos hn]; exact h1
  · simp only [if_neg hn]
    exact Loc.comp h1 (Loc.fx (e := .sent i (o.pend.take n)) hi)

theorem drained_loc {A b} {i : Nat} (hi : A i = b) : Loc A b (fun w => w.drained i) :=
  Loc.get hi (fun o w => if o.pend = [] then w.mod i (fun o => { o with pout := false }) else w) (fun _ _ =>
    Loc.ite _ (Loc.mod hi _ (by intro _ h; exact h.keep rfl rfl rfl)) (Loc.id' A b))

theorem flush_loc {A b} (env : Env) (up : Bool) {i : Nat} (hi : A i = b) (r : WriteRes) :
    Loc A b (fun w => w.flush env up i r) := by
  refine (Loc.get hi (fun o w => if o.fd = false then w else if o.kind = .telnet ∧ o.conn = .pending then w else
    if (r = .err ∧ o.pend ≠ []) ∨ ((((w.push i (r.count o.pend.length)).drained i).obj i).pend = [] ∧ o.eof) then
      ((w.push i (r.count o.pend.length)).drained i).shutdown env up i
    else (w.push i (r.count o.pend.length)).drained i) (fun o _ => ?_)).congr (fun _ => rfl)
  refine Loc.ite _ (Loc.id' A b) (Loc.ite _ (Loc.id' A b) ?_)
  have h1 : Loc A b (fun w => (w.push i (r.count o.pend.length)).drained i) := Loc.comp (drained_loc hi) (push_loc hi _)
  have h2 : Loc A b (fun w1 : World => if (r = .err ∧ o.pend ≠ []) ∨ ((w1.obj i).pend = [] ∧ o.eof) then
      w1.shutdown env up i else w1) :=
    Loc.get hi (fun o1 w1 => if (r = .err ∧ o.pend ≠ []) ∨ (o1.pend = [] ∧ o.eof) then w1.shutdown env up i else w1) (fun o1 _ =>
      Loc.ite _ (shutdown_loc env up hi) (Loc.id' A b))
  exact Loc.comp h2 h1

theorem checkState_loc {A b} (env : Env) {c con : Nat} (hc : A c = b) (hcon : A con = b) :
    Loc A b (fun w => w.checkState env c con) :=
  Loc.get hcon (fun o w => if o.isUp then w else w.note env (.isDown con) c) (fun o _ =>
    Loc.ite _ (Loc.id' A b) (note_loc env _ hc))

theorem newClient_loc {A b} {c : Nat} (hc : A c = b) (q : Req) : Loc A b (fun w => w.newClient c q) := by
  have h1 : Loc A b (fun w => w.mod c (fun o => { kind := .client, fd := true, pin := true, quiet := q.quiet, force := q.force, join := q.join, bcast := q.bcast, cmd := q.cmd, gen := o.gen })) :=
    Loc.mod hc _ (by
      intro o _
      exact ⟨fun j hj => (nomatch hj), fun j hj => (nomatch hj), fun j hj => (nomatch hj)⟩)
  exact Loc.comp h1 (Loc.born hc)

theorem grant_loc {A b} (env : Env) {c : Nat} (hc : A c = b) (q : Req) (hq : ∀ x ∈ q.consoles, A x = b) :
    Loc A b (fun w => w.grant env c q) := by
  have hn := newClient_loc (b := b) hc q
  have hl : ∀ con ∈ q.consoles, Loc A b (fun w => (w.linkObjs env c con).checkState env c con) := fun con h =>
    Loc.comp (checkState_loc env hc (hq con h)) (linkObjs_loc env hc (hq con h))
  unfold World.grant
  cases hcmd : q.cmd with
  | monitor =>
    cases hcs : q.consoles with
    | nil => exact hn
    | cons con l =>
      have hcon : A con = b := hq con (by rw [hcs]; exact List.mem_cons_self)
      exact Loc.comp (checkState_loc env hc hcon) (Loc.comp (linkObjs_loc env hcon hc) hn)
  | connect =>
    cases hcs : q.consoles with
    | nil => exact hn
    | cons con l =>
      have hcon : A con = b := hq con (by rw [hcs]; exact List.mem_cons_self)
      cases l with
      | nil =>
        exact Loc.comp (checkState_loc env hc hcon) (Loc.comp (linkObjs_loc env hcon hc) (Loc.comp (linkObjs_loc env hc hcon) hn))
      | cons con2 l =>
        rw [hcs] at hl
        exact Loc.comp (Loc.foldl _ _ hl) hn

theorem connUp_loc {A b} (env : Env) {i : Nat} (hi : A i = b) : Loc A b (fun w => w.connUp env i) := by
  refine (Loc.get hi (fun o w => if o.kind.isConsole = false then w else if o.fd ∧ ¬ o.conn = .pending then w else
    if o.kind = .telnet then
      (if o.kind = .test then w.mod i (fun o => { o with fd := true, pin := true, conn := .up, eof := false })
        else (w.mod i (fun o => { o with fd := true, pin := true, conn := .up, eof := false })).notify env i (.connected i)).mod i
          (·.write telHello false)
    else if o.kind = .test then w.mod i (fun o => { o with fd := true, pin := true, conn := .up, eof := false })
        else (w.mod i (fun o => { o with fd := true, pin := true, conn := .up, eof := false })).notify env i (.connected i))
    (fun o _ => ?_)).congr (fun _ => rfl)
  have h1 : Loc A b (fun w => w.mod i (fun o => { o with fd := true, pin := true, conn := .up, eof := false })) :=
    Loc.mod hi _ (by intro _ h; exact h.keep rfl rfl rfl)
  have h2 : Loc A b (fun w => if o.kind = .test then w.mod i (fun o => { o with fd := true, pin := true, conn := .up, eof := false })
        else (w.mod i (fun o => { o with fd := true, pin := true, conn := .up, eof := false })).notify env i (.connected i)) :=
    Loc.ite _ h1 (Loc.comp (notify_loc env _ hi) h1)
  have h3 : Loc A b (fun w => w.mod i (·.write telHello false)) := Loc.mod hi _ (by intro _ h; exact h.write _ _)
  exact Loc.ite _ (Loc.id' A b) (Loc.ite _ (Loc.id' A b) (Loc.ite _ (Loc.comp h3 h2) h2))

theorem poll_loc {A b} (env : Env) (up : Bool) {i : Nat} (hi : A i = b) (rd : Option ReadRes) (wr : Option WriteRes) :
    LocO A b (fun w => w.step env (.poll i up rd wr)) := by
  have hfl : ∀ o : Obj, Loc A b (fun w1 : World => if i ∉ w1.live then w1 else
      match (if o.pout then wr else none) with | none => w1 | some r => w1.flush env up i r) := by
    intro o
    refine (Loc.alive hi (fun t w1 => if t = false then w1 else
      match (if o.pout then wr else none) with | none => w1 | some r => w1.flush env up i r) (fun t =>
        Loc.ite _ (Loc.id' A b) ?_)).congr (fun w1 => ?_)
    · cases (if o.pout then wr else none) with
      | none => exact Loc.id' A b
      | some r => exact flush_loc env up hi r
    · simp only [decide_eq_false_iff_not]
  have hrd : LocO A b (fun w : World => match rd with | none => some w | some r => w.read env up i r) := by
    cases rd with
    | none => exact (Loc.id' A b).opt
    | some r => exact read_loc env up hi r
  have key : ∀ (F : World → Option World) (G : World → World) (p1 p2 : Bool), LocO A b F → Loc A b G →
      LocO A b (fun w => if i ∉ w.live ∨ (p1 = false ∧ p2 = false) then some w else (F w).map G) := by
    intro F G p1 p2 hF hG
    refine (LocO.alive hi (fun t w => if t = false ∨ (p1 = false ∧ p2 = false) then some w else (F w).map G) (fun t =>
      LocO.ite _ (Loc.id' A b).opt (LocO.map hF hG))).congr (fun w => ?_)
    simp only [decide_eq_false_iff_not]
  exact (LocO.get hi (fun o w => if i ∉ w.live ∨ (o.pin = false ∧ o.pout = false) then some w else
      (match rd with | none => some w | some r => w.read env up i r).map (fun w1 : World => if i ∉ w1.live then w1 else
        match (if o.pout then wr else none) with | none => w1 | some r => w1.flush env up i r)) (fun o _ => key _ _ _ _ hrd (hfl o))).congr (fun _ => rfl)

theorem step_loc {A b} (env : Env) (s : Step) (hs : stepAt A s = b)
    (h1 : ∀ q, s ≠ .check q) (h2 : ∀ c k, s ≠ .grant c k) : LocO A b (fun w => w.step env s) := by
  cases s with
  | check q => exact absurd rfl (h1 q)
  | grant c k => exact absurd rfl (h2 c k)
  | poll i up rd wr => exact poll_loc env up hs rd wr
  | connUp i =>
    refine ((Loc.alive hs (fun t w => if t then w.connUp env i else w) (fun t =>
      Loc.ite _ (connUp_loc env hs) (Loc.id' A b))).congr (fun w => ?_)).opt
    simp only [decide_eq_true_eq]
  | connPend i =>
    refine ((Loc.alive hs (fun t w => if t = true ∧ (w.obj i).kind = .telnet ∧ (w.obj i).fd = false then
      w.mod i (fun o => { o with fd := true, pin := true, pout := true, conn := .pending }) else w) (fun t =>
      Loc.get hs (fun o w => if t = true ∧ o.kind = .telnet ∧ o.fd = false then
      w.mod i (fun o => { o with fd := true, pin := true, pout := true, conn := .pending }) else w) (fun o _ =>
      Loc.ite _ (Loc.mod hs _ (by intro _ h; exact h.keep rfl rfl rfl)) (Loc.id' A b)))).congr (fun w => ?_)).opt
    simp only [decide_eq_true_eq]
  | connDown i =>
    exact (Loc.get hs (fun o w => if o.kind = .telnet ∧ o.conn = .pending then
      w.mod i (fun o => { o with fd := false, pin := false, pout := false, conn := .down }) else w) (fun o _ =>
      Loc.ite _ (Loc.mod hs _ (by intro _ h; exact h.keep rfl rfl rfl)) (Loc.id' A b))).opt
  | connFail i =>
    refine ((Loc.alive hs (fun t w => if t = true ∧ (w.obj i).kind = .process ∧ (w.obj i).fd = false then
      w.notify env i (.connFailed i) else w) (fun t =>
      Loc.get hs (fun o w => if t = true ∧ o.kind = .process ∧ o.fd = false then
      w.notify env i (.connFailed i) else w) (fun o _ =>
      Loc.ite _ (notify_loc env _ hs) (Loc.id' A b)))).congr (fun w => ?_)).opt
    simp only [decide_eq_true_eq]
  | resetTimeout con =>
    refine ((Loc.get hs (fun o w => if o.resetTimer then
      match o.resetPid with
      | none => w.mod con (fun o => { o with resetPid := none, resetTimer := false })
      | some p => (fun w1 : World => if (con, p) ∈ w1.running then
          { w1 with running := w1.running.filter (· ≠ (con, p)), fx := w1.fx ++ [.kill con p] } else w1)
          (w.mod con (fun o => { o with resetPid := none, resetTimer := false }))
      else w) (fun o _ => Loc.ite _ ?_ (Loc.id' A b))).congr (fun w => rfl)).opt
    have hm : Loc A b (fun w => w.mod con (fun o => { o with resetPid := none, resetTimer := false })) :=
      Loc.mod hs _ (by intro _ h; exact h.keep rfl rfl rfl)
    cases o.resetPid with
    | none => exact hm
    | some p =>
      refine Loc.comp (g := fun w1 : World => if (con, p) ∈ w1.running then
          { w1 with running := w1.running.filter (· ≠ (con, p)), fx := w1.fx ++ [.kill con p] } else w1) ?_ hm
      refine (Loc.runs p hs (fun t w1 => if t then
          { w1 with running := w1.running.filter (· ≠ (con, p)), fx := w1.fx ++ [.kill con p] } else w1) (fun t =>
        Loc.ite _ (Loc.comp (Loc.fx (e := .kill con p) hs) (Loc.end' (pid := p) hs)) (Loc.id' A b))).congr (fun w => ?_)
      simp only [decide_eq_true_eq]
  | childExit con pid => exact (Loc.end' (pid := pid) hs).opt
  | logOpen i ok =>
    refine (Loc.get hs (fun o0 w => if o0.kind = .logfile then
      w.mod i (fun o =>
        if ok then
          { ({ o with fd := true, pout := false, eof := false }).write (env.txt (.logOpened i) w.tick) false with
            line := .init }
        else { o with fd := false, pin := false, pout := false })
      else w) (fun o0 _ => Loc.ite _ (Loc.time (fun t w => w.mod i (fun o =>
        if ok then
          { ({ o with fd := true, pout := false, eof := false }).write (env.txt (.logOpened i) t) false with
            line := .init }
        else { o with fd := false, pin := false, pout := false })) (fun t => Loc.mod hs _ ?_)) (Loc.id' A b))).opt
    intro o h
    cases ok
    · exact h.keep rfl rfl rfl
    · have h0 : Side A b ({ o with fd := true, pout := false, eof := false } : Obj) := h.keep rfl rfl rfl
      have h1 := h0.write (env.txt (.logOpened i) t) false
      exact h1.keep rfl rfl rfl
  | logStamp i =>
    exact (Loc.get hs (fun o w => if o.kind = .logfile then w.note env (.logStamp i) i else w) (fun o _ =>
      Loc.ite _ (note_loc env _ hs) (Loc.id' A b))).opt


/-! ### steps -/

theorem norm_consoles (q : Req) : q.norm.consoles = q.consoles := by
  unfold Req.norm; split <;> rfl

theorem any_part {A : Nat → Bool} (w : World) (l : List Nat) (h : ∀ x ∈ l, A x = true) :
    l.any (fun c => !((w.part A).obj c).writers.isEmpty) = l.any (fun c => !(w.obj c).writers.isEmpty) := by
  induction l with
  | nil => rfl
  | cons x l ih =>
    simp only [List.any_cons]
    rw [part_obj w (h x List.mem_cons_self), ih (fun y hy => h y (List.mem_cons_of_mem _ hy))]

theorem validate_part {A : Nat → Bool} (w : World) (q : Req) (h : ∀ x ∈ q.consoles, A x = true) :
    (w.part A).validate q = w.validate q := by
  unfold World.validate
  rw [any_part w _ h]

theorem reqOk_part {A : Nat → Bool} (w : World) (q : Req) (h : ∀ x ∈ q.consoles, A x = true) :
    (w.part A).reqOk q ↔ w.reqOk q := by
  unfold World.reqOk
  constructor
  · rintro ⟨h1, h2⟩
    refine ⟨h1, fun x hx => ?_⟩
    have := h2 x hx
    rw [part_live w (h x hx), part_obj w (h x hx)] at this
    exact this
  · rintro ⟨h1, h2⟩
    refine ⟨h1, fun x hx => ?_⟩
    rw [part_live w (h x hx), part_obj w (h x hx)]
    exact h2 x hx

theorem check_loc {A b} (env : Env) (q : Req) (hs : stepAt A (.check q) = b) : LocO A b (fun w => w.step env (.check q)) := by
  refine Loc.opt (f := fun w => if w.reqOk q.norm ∧ w.validate q.norm = none then { w with wait := w.wait ++ [q.norm] } else w) ?_
  intro w hw
  have hs' : (!q.norm.consoles.isEmpty && q.norm.consoles.all A) = b := by rw [norm_consoles]; exact hs
  refine ⟨?_, ?_⟩
  · show Sep A (if w.reqOk q.norm ∧ w.validate q.norm = none then _ else w)
    split
    · exact hw
    · exact hw
  · cases b
    · show OutOf A w (if w.reqOk q.norm ∧ w.validate q.norm = none then _ else w)
      by_cases hc : w.reqOk q.norm ∧ w.validate q.norm = none
      · rw [if_pos hc]
        refine ⟨Nat.le_refl _, ?_⟩
        have hne : q.norm.consoles ≠ [] := by
          intro h0
          have := hc.2
          unfold World.validate at this
          rw [if_pos h0] at this
          cases this
        have hall : q.norm.consoles.all A = false := by
          cases hl : q.norm.consoles with
          | nil => exact absurd hl hne
          | cons x l => rw [hl] at hs'; simpa using hs'
        simp only [World.part, List.filter_append, List.filter_cons, hall, List.filter_nil, Bool.false_eq_true, if_false,
          List.append_nil]
      · rw [if_neg hc]; exact ⟨Nat.le_refl _, rfl⟩
    · have hall : q.norm.consoles.all A = true := by
        rw [Bool.and_eq_true] at hs'; exact hs'.2
      have hx : ∀ x ∈ q.norm.consoles, A x = true := List.all_eq_true.1 hall
      show (if w.reqOk q.norm ∧ w.validate q.norm = none then { w with wait := w.wait ++ [q.norm] } else w).part A =
        if (w.part A).reqOk q.norm ∧ (w.part A).validate q.norm = none then
          { w.part A with wait := (w.part A).wait ++ [q.norm] } else w.part A
      by_cases hc : w.reqOk q.norm ∧ w.validate q.norm = none
      · have hc' : (w.part A).reqOk q.norm ∧ (w.part A).validate q.norm = none :=
          ⟨(reqOk_part w _ hx).2 hc.1, (validate_part w _ hx).trans hc.2⟩
        rw [if_pos hc, if_pos hc']
        simp only [World.part, List.filter_append, List.filter_cons, hall, List.filter_nil, if_true]
      · have hc' : ¬ ((w.part A).reqOk q.norm ∧ (w.part A).validate q.norm = none) := fun h =>
          hc ⟨(reqOk_part w _ hx).1 h.1, (validate_part w _ hx).symm.trans h.2⟩
        rw [if_neg hc, if_neg hc']

theorem step_loc' {A b} (env : Env) (s : Step) (hs : stepAt A s = b) (h2 : ∀ c k, s ≠ .grant c k) :
    LocO A b (fun w => w.step env s) := by
  cases s with
  | check q => exact check_loc env q hs
  | grant c k => exact absurd rfl (h2 c k)
  | poll i up rd wr => exact step_loc env _ hs (fun _ e => by cases e) (fun _ _ e => by cases e)
  | connUp i => exact step_loc env _ hs (fun _ e => by cases e) (fun _ _ e => by cases e)
  | connPend i => exact step_loc env _ hs (fun _ e => by cases e) (fun _ _ e => by cases e)
  | connDown i => exact step_loc env _ hs (fun _ e => by cases e) (fun _ _ e => by cases e)
  | connFail i => exact step_loc env _ hs (fun _ e => by cases e) (fun _ _ e => by cases e)
  | resetTimeout con => exact step_loc env _ hs (fun _ e => by cases e) (fun _ _ e => by cases e)
  | childExit con pid => exact step_loc env _ hs (fun _ e => by cases e) (fun _ _ e => by cases e)
  | logOpen i ok => exact step_loc env _ hs (fun _ e => by cases e) (fun _ _ e => by cases e)
  | logStamp i => exact step_loc env _ hs (fun _ e => by cases e) (fun _ _ e => by cases e)

theorem pick_split {α : Type} (l : List α) (k : Nat) (q : α) (h : l[k]? = some q) :
    ∃ l1 l2, l = l1 ++ q :: l2 ∧ l1.length = k ∧ l.eraseIdx k = l1 ++ l2 := by
  induction l generalizing k with
  | nil => simp at h
  | cons x l ih =>
    cases k with
    | zero =>
      simp only [List.getElem?_cons_zero, Option.some.injEq] at h
      exact ⟨[], l, by rw [h]; rfl, rfl, rfl⟩
    | succ k =>
      simp only [List.getElem?_cons_succ] at h
      obtain ⟨l1, l2, h1, h2, h3⟩ := ih k h
      exact ⟨x :: l1, l2, by rw [h1]; rfl, by simp [h2], by simp [h3]⟩

theorem pick_filter {α : Type} (p : α → Bool) (l m : List α) (he : l.filter p = m.filter p) (k : Nat) (q : α)
    (hk : l[k]? = some q) (hp : p q = true) :
    ∃ k', m[k']? = some q ∧ (l.eraseIdx k).filter p = (m.eraseIdx k').filter p := by
  obtain ⟨l1, l2, h1, h2, h3⟩ := pick_split l k q hk
  rw [h1, List.filter_append, List.filter_cons_of_pos hp] at he
  obtain ⟨m1, m2, e1, e2, e3⟩ := List.filter_eq_append_iff.1 he.symm
  obtain ⟨n1, n2, f1, f2, _, f4⟩ := List.filter_eq_cons_iff.1 e3
  have hn1 : n1.filter p = [] := List.filter_eq_nil_iff.2 (fun a ha => by simpa using f2 a ha)
  have hm : m = (m1 ++ n1) ++ q :: n2 := by rw [e1, f1]; simp
  refine ⟨(m1 ++ n1).length, ?_, ?_⟩
  · rw [hm]; simp
  · have : m.eraseIdx (m1 ++ n1).length = m1 ++ n1 ++ n2 := by
      rw [hm, List.eraseIdx_append_of_length_le (Nat.le_refl _)]
      simp
    rw [h3, this]
    simp only [List.filter_append, e2, hn1, f4, List.append_nil]

/-- A grant outside. -/
theorem grant_out {A : Nat → Bool} (env : Env) {w w' : World} (hd : DInv w) (hw : Sep A w) {c k : Nat} (hc : A c = false)
    (hq : ∀ q, w.wait[k]? = some q → ∀ x ∈ q.consoles, A x = false) (hs : w.step env (.grant c k) = some w') :
    Sep A w' ∧ OutOf A w w' := by
  cases e : w.wait[k]? with
  | none =>
    have : w' = w := by
      have h : some (match w.wait[k]? with
        | some q => if c ∈ w.live then w else ({ w with wait := w.wait.eraseIdx k } : World).grant env c q
        | none => w) = some w' := hs
      rw [e] at h; exact (Option.some.inj h).symm
    subst this; exact ⟨hw, Nat.le_refl _, rfl⟩
  | some q =>
    have h : some (match w.wait[k]? with
      | some q => if c ∈ w.live then w else ({ w with wait := w.wait.eraseIdx k } : World).grant env c q
      | none => w) = some w' := hs
    rw [e] at h
    have h := Option.some.inj h
    by_cases hl : c ∈ w.live
    · have h : (if c ∈ w.live then w else ({ w with wait := w.wait.eraseIdx k } : World).grant env c q) = w' := h
      rw [if_pos hl] at h; subst h; exact ⟨hw, Nat.le_refl _, rfl⟩
    · have h : (if c ∈ w.live then w else ({ w with wait := w.wait.eraseIdx k } : World).grant env c q) = w' := h
      rw [if_neg hl] at h
      have hmem : q ∈ w.wait := List.mem_of_getElem? e
      have hne := (hd.wait q hmem).1.ne
      have hall : q.consoles.all A = false := by
        cases hcs : q.consoles with
        | nil => exact absurd hcs hne
        | cons x l => simp [hq q e x (by rw [hcs]; exact List.mem_cons_self)]
      have h0 : OutOf A w ({ w with wait := w.wait.eraseIdx k } : World) := by
        refine ⟨Nat.le_refl _, ?_⟩
        obtain ⟨l1, l2, e1, _, e3⟩ := pick_split w.wait k q e
        simp only [World.part]
        rw [e3, e1]
        simp [List.filter_append, hall]
      have h1 := grant_loc (b := false) env hc q (hq q e) ({ w with wait := w.wait.eraseIdx k } : World) hw
      subst h
      exact ⟨h1.1, h0.trans h1.2⟩

/-- A step that does not concern `A`. -/
theorem step_out {A : Nat → Bool} (env : Env) {w w' : World} (hd : DInv w) (hw : Sep A w) {s : Step} (hoff : stepAt A s = false)
    (hq : ∀ c k q, s = .grant c k → w.wait[k]? = some q → ∀ x ∈ q.consoles, A x = A c) (hs : w.step env s = some w') :
    Sep A w' ∧ OutOf A w w' := by
  by_cases hg : ∃ c k, s = .grant c k
  · obtain ⟨c, k, rfl⟩ := hg
    have hc : A c = false := hoff
    exact grant_out env hd hw hc (fun q e x hx => (hq c k q rfl e x hx).trans hc) hs
  · have h := step_loc' (b := false) env s hoff (fun c k e => hg ⟨c, k, e⟩) w hw
    exact ⟨h.1 w' hs, h.2 w' hs⟩

theorem part_eqs {A : Nat → Bool} {w v : World} (h : w.part A = v.part A) :
    (∀ i, A i = true → w.obj i = v.obj i) ∧ w.live.filter A = v.live.filter A ∧ w.tick = v.tick ∧
    w.fx.filter (fxAt A) = v.fx.filter (fxAt A) ∧
    w.wait.filter (fun q => q.consoles.all A) = v.wait.filter (fun q => q.consoles.all A) := by
  refine ⟨fun i hi => ?_, congrArg World.live h, (congrArg World.tick h : (w.part A).tick = (v.part A).tick), congrArg World.fx h, congrArg World.wait h⟩
  rw [← part_obj w hi, ← part_obj v hi, h]

/-- A step that concerns `A`, in two worlds that agree on it. -/
theorem step_in {A : Nat → Bool} (env : Env) {w v w' : World} (hw : Sep A w) (hv : Sep A v) (he : w.part A = v.part A)
    {s : Step} (hon : stepAt A s = true)
    (hq : ∀ c k q, s = .grant c k → w.wait[k]? = some q → ∀ x ∈ q.consoles, A x = A c) (hs : w.step env s = some w') :
    ∃ s' v', v.step env s' = some v' ∧ w'.part A = v'.part A ∧ Sep A w' ∧ Sep A v' ∧ dropIdx s' = dropIdx s ∧
      stepAt A s' = true ∧ (∀ c k q, s' = .grant c k → v.wait[k]? = some q → ∀ x ∈ q.consoles, A x = A c) := by
  by_cases hg : ∃ c k, s = .grant c k
  · obtain ⟨c, k, rfl⟩ := hg
    have hc : A c = true := hon
    have h : some (match w.wait[k]? with
      | some q => if c ∈ w.live then w else ({ w with wait := w.wait.eraseIdx k } : World).grant env c q
      | none => w) = some w' := hs
    have hnone : v.wait[v.wait.length]? = none := by simp
    have hstay : w' = w → ∃ s' v', v.step env s' = some v' ∧ w'.part A = v'.part A ∧ Sep A w' ∧ Sep A v' ∧ dropIdx s' = dropIdx (.grant c k) ∧
      stepAt A s' = true ∧ (∀ c k q, s' = .grant c k → v.wait[k]? = some q → ∀ x ∈ q.consoles, A x = A c) := by
      rintro rfl
      refine ⟨.grant c v.wait.length, v, ?_, he, hw, hv, rfl, hc, ?_⟩
      · show some (match v.wait[v.wait.length]? with
          | some q => if c ∈ v.live then v else ({ v with wait := v.wait.eraseIdx v.wait.length } : World).grant env c q
          | none => v) = some v
        rw [hnone]
      · intro c' k' q' e e'
        cases e
        rw [hnone] at e'; cases e'
    cases e : w.wait[k]? with
    | none => rw [e] at h; exact hstay (Option.some.inj h).symm
    | some q =>
      rw [e] at h
      have h : (if c ∈ w.live then w else ({ w with wait := w.wait.eraseIdx k } : World).grant env c q) = w' := Option.some.inj h
      by_cases hl : c ∈ w.live
      · rw [if_pos hl] at h; exact hstay h.symm
      · rw [if_neg hl] at h
        have hx : ∀ x ∈ q.consoles, A x = true := fun x hx => (hq c k q rfl e x hx).trans hc
        have hall : q.consoles.all A = true := List.all_eq_true.2 hx
        obtain ⟨_, hlive, _, _, hwait⟩ := part_eqs he
        obtain ⟨k', hk', hf⟩ := pick_filter _ _ _ hwait k q e hall
        have hlv : c ∉ v.live := by
          intro hc'
          have : c ∈ v.live.filter A := List.mem_filter.2 ⟨hc', hc⟩
          rw [← hlive] at this
          exact hl (List.mem_filter.1 this).1
        have h0 : ({ w with wait := w.wait.eraseIdx k } : World).part A = ({ v with wait := v.wait.eraseIdx k' } : World).part A := by
          have e1 : ({ w with wait := w.wait.eraseIdx k } : World).part A =
            { w.part A with wait := (w.wait.eraseIdx k).filter (fun q => q.consoles.all A) } := rfl
          have e2 : ({ v with wait := v.wait.eraseIdx k' } : World).part A =
            { v.part A with wait := (v.wait.eraseIdx k').filter (fun q => q.consoles.all A) } := rfl
          rw [e1, e2, he, hf]
        have g1 := grant_loc (b := true) env hc q hx ({ w with wait := w.wait.eraseIdx k } : World) hw
        have g2 := grant_loc (b := true) env hc q hx ({ v with wait := v.wait.eraseIdx k' } : World) hv
        refine ⟨.grant c k', ({ v with wait := v.wait.eraseIdx k' } : World).grant env c q, ?_, ?_, ?_, g2.1, rfl, hc, ?_⟩
        · show some (match v.wait[k']? with
            | some q => if c ∈ v.live then v else ({ v with wait := v.wait.eraseIdx k' } : World).grant env c q
            | none => v) = _
          rw [hk']
          show some (if c ∈ v.live then v else _) = _
          rw [if_neg hlv]
        · have e1 : (({ w with wait := w.wait.eraseIdx k } : World).grant env c q).part A = _ := g1.2
          have e2 : (({ v with wait := v.wait.eraseIdx k' } : World).grant env c q).part A = _ := g2.2
          rw [← h, e1, e2, h0]
        · rw [← h]; exact g1.1
        · intro c' k'' q' e' e''
          cases e'
          rw [hk'] at e''
          cases e''
          intro x hx'; exact (hx x hx').trans hc.symm
  · have hn : ∀ c k, s ≠ .grant c k := fun c k e => hg ⟨c, k, e⟩
    have h1 := step_loc' (b := true) env s hon hn w hw
    have h2 := step_loc' (b := true) env s hon hn v hv
    have e1 : (w.step env s).map (World.part A) = (w.part A).step env s := h1.2
    have e2 : (v.step env s).map (World.part A) = (v.part A).step env s := h2.2
    rw [he, ← e2, hs] at e1
    obtain ⟨v', hv', e3⟩ := Option.map_eq_some_iff.1 e1.symm
    exact ⟨s, v', hv', e3.symm, h1.1 w' hs, h2.1 v' hv', rfl, hon, fun c k q e => absurd e (hn c k)⟩

theorem idle_run (env : Env) (n : Nat) : ∀ v : World, v.run env (List.replicate n idle) = some { v with tick := v.tick + n } := by
  induction n with
  | zero => intro v; rfl
  | succ n ih =>
    intro v
    have hi : v.step env idle = some v := by
      show some (if v.reqOk (Req.norm _) ∧ v.validate (Req.norm _) = none then _ else v) = some v
      rw [if_neg]
      rintro ⟨_, h⟩
      cases h
    rw [List.replicate_succ]
    simp only [World.run, hi, Option.bind_some]
    rw [ih]
    simp only [Nat.add_assoc, Nat.add_comm 1 n]

theorem Sep.other {A : Nat → Bool} {w : World} (h : Sep A w) : Sep (fun i => !A i) w := by
  intro i
  have h1 := h i
  refine ⟨fun j hj => ?_, fun j hj => ?_, fun j hj => ?_⟩
  · show (!A j) = !A i
    rw [h1.1 j hj]
  · show (!A j) = !A i
    rw [h1.2.1 j hj]
  · show (!A j) = !A i
    rw [h1.2.2 j hj]

theorem stepAt_other {A : Nat → Bool} {s : Step} (h : stepAt A s = true) : stepAt (fun i => !A i) s = false := by
  cases s with
  | check q =>
    have h : (!q.consoles.isEmpty && q.consoles.all A) = true := h
    cases hq : q.consoles with
    | nil => simp [stepAt, hq]
    | cons x l =>
      rw [hq] at h
      simp only [List.all_cons, Bool.and_eq_true] at h
      simp [stepAt, hq, h.2.1]
  | _ => simp_all [stepAt]

structure Twin (A : Nat → Bool) (v0 w v : World) : Prop where
  part : w.part A = v.part A
  sw : Sep A w
  sv : Sep A v
  dw : DInv w
  dv : DInv v
  out : OutOf (fun i => !A i) v0 v

theorem Twin.run {A : Nat → Bool} (env : Env) {v0 : World} (h : List Step) : ∀ {w v w' : World}, Twin A v0 w v →
    GrantsApart env A w h → w.run env h = some w' →
    ∃ h' v', v.run env h' = some v' ∧ Twin A v0 w' v' ∧ (∀ s ∈ h', stepAt A s = true ∨ s = idle) ∧
      stepsAt A h' = stepsAt A h := by
  induction h with
  | nil =>
    intro w v w' t _ hr
    cases hr
    exact ⟨[], v, rfl, t, fun s hs => (nomatch hs), rfl⟩
  | cons s h ih =>
    intro w v w' t hg hr
    simp only [World.run, Option.bind_eq_some_iff] at hr
    obtain ⟨w1, hs, hr⟩ := hr
    have hq : ∀ c k q, s = .grant c k → w.wait[k]? = some q → ∀ x ∈ q.consoles, A x = A c :=
      fun c k q e hk => hg [] c k h w q (by rw [e]; rfl) rfl hk
    have hg' : GrantsApart env A ({ w1 with tick := w1.tick + 1 } : World) h := by
      intro h1 c k h2 w2 q e hr1 hk
      refine hg (s :: h1) c k h2 w2 q (by rw [e]; rfl) ?_ hk
      simp only [World.run, hs, Option.bind_some]
      exact hr1
    have dw1 := world_step_inv t.dw env s hs
    cases hon : stepAt A s with
    | false =>
      obtain ⟨sw1, o1⟩ := step_out env t.dw t.sw hon hq hs
      have htick : v.tick = w.tick := (part_eqs t.part).2.2.1.symm
      have hle : v.tick ≤ w1.tick + 1 := by rw [htick]; exact Nat.le_succ_of_le o1.1
      have t1 : Twin A v0 ({ w1 with tick := w1.tick + 1 } : World) ({ v with tick := w1.tick + 1 } : World) := by
        refine ⟨?_, sw1, t.sv, dw1.tick _, t.dv.tick _, ?_⟩
        · have e1 : ({ w1 with tick := w1.tick + 1 } : World).part A = { w1.part A with tick := w1.tick + 1 } := rfl
          have e2 : ({ v with tick := w1.tick + 1 } : World).part A = { v.part A with tick := w1.tick + 1 } := rfl
          rw [e1, e2, o1.2, t.part]
        · exact t.out.trans ⟨hle, rfl⟩
      obtain ⟨h', v', hr', t', hon', hst⟩ := ih t1 hg' hr
      refine ⟨List.replicate (w1.tick + 1 - v.tick) idle ++ h', v', ?_, t', ?_, ?_⟩
      · rw [run_append, idle_run]
        have : v.tick + (w1.tick + 1 - v.tick) = w1.tick + 1 := Nat.add_sub_cancel' hle
        simp only [Option.bind_some, this]
        exact hr'
      · intro x hx
        rcases List.mem_append.1 hx with hx | hx
        · exact Or.inr (List.eq_of_mem_replicate hx)
        · exact hon' x hx
      · unfold stepsAt at hst ⊢
        have hf : (List.replicate (w1.tick + 1 - v.tick) idle).filter (stepAt A) = [] :=
          List.filter_eq_nil_iff.2 (fun a ha => by rw [List.eq_of_mem_replicate ha]; simp [idle, stepAt])
        rw [List.filter_append, hf, List.nil_append, List.filter_cons_of_neg (by rw [hon]; simp)]
        exact hst
    | true =>
      obtain ⟨s', v1, hs', e1, sw1, sv1, hd, hon', hq'⟩ := step_in env t.sw t.sv t.part hon hq hs
      have dv1 := world_step_inv t.dv env s' hs'
      have o1 := step_out (A := fun i => !A i) env t.dv t.sv.other (stepAt_other hon')
        (fun c k q e hk x hx => by show (!A x) = !A c; rw [hq' c k q e hk x hx]) hs'
      have t1 : Twin A v0 ({ w1 with tick := w1.tick + 1 } : World) ({ v1 with tick := v1.tick + 1 } : World) := by
        refine ⟨?_, sw1, sv1, dw1.tick _, dv1.tick _, ?_⟩
        · have f1 : ({ w1 with tick := w1.tick + 1 } : World).part A = { w1.part A with tick := (w1.part A).tick + 1 } := rfl
          have f2 : ({ v1 with tick := v1.tick + 1 } : World).part A = { v1.part A with tick := (v1.part A).tick + 1 } := rfl
          rw [f1, f2, e1]
        · exact (t.out.trans o1.2).trans ⟨Nat.le_succ _, rfl⟩
      obtain ⟨h', v', hr', t', hon2, hst⟩ := ih t1 hg' hr
      refine ⟨s' :: h', v', ?_, t', ?_, ?_⟩
      · simp only [World.run, hs', Option.bind_some]; exact hr'
      · intro x hx
        rcases List.mem_cons.1 hx with rfl | hx
        · exact Or.inl hon'
        · exact hon2 x hx
      · unfold stepsAt at hst ⊢
        rw [List.filter_cons_of_pos hon', List.filter_cons_of_pos hon, List.map_cons, List.map_cons, hd, hst]

theorem boot_sep (cfg : List ConConf) (A : Nat → Bool) (hA : ∀ k, k < cfg.length → A (2 * k + 1) = A (2 * k)) : Sep A (World.boot cfg) := by
  have hp : ∀ i c, cfg[i / 2]? = some c → i % 2 = 0 → A (i + 1) = A i := by
    intro i c hc hi
    have hlt := (List.getElem?_eq_some_iff.1 hc).1
    have h2 := hA _ hlt
    rw [show 2 * (i / 2) = i by omega] at h2
    exact h2
  intro i
  rw [boot_obj]
  cases hc : cfg[i / 2]? with
  | none => exact ⟨fun j hj => (nomatch hj), fun j hj => (nomatch hj), fun j hj => (nomatch hj)⟩
  | some c =>
    by_cases hi : i % 2 = 0
    · simp only [if_pos hi]
      refine ⟨fun j hj => ?_, fun j hj => (nomatch hj), fun j hj => ?_⟩
      · cases hl : c.log with
        | none => simp [hl] at hj
        | some o => simp [hl] at hj; rw [hj]; exact hp i c hc hi
      · cases hl : c.log with
        | none => simp [hl] at hj
        | some o => simp [hl] at hj; rw [← hj]; exact hp i c hc hi
    · simp only [if_neg hi]
      cases hl : c.log with
      | none => exact ⟨fun j hj => (nomatch hj), fun j hj => (nomatch hj), fun j hj => (nomatch hj)⟩
      | some o =>
        refine ⟨fun j hj => (nomatch hj), fun j hj => ?_, fun j hj => (nomatch hj)⟩
        have hj : j ∈ [i - 1] := hj
        rw [List.mem_singleton.1 hj]
        have := hp (i - 1) c (by rw [show (i - 1) / 2 = i / 2 by omega]; exact hc) (by omega)
        rw [show i - 1 + 1 = i by omega] at this
        exact this.symm

/-! ### checking the side condition of a history -/

/-- `GrantsApart` for a given history. -/
def grantsOk (env : Env) (A : Nat → Bool) (w : World) : List Step → Bool
  | [] => true
  | s :: h =>
    (match s with
      | .grant c k => match w.wait[k]? with
        | some q => q.consoles.all (fun x => A x == A c)
        | none => true
      | _ => true) &&
    match w.step env s with
    | none => true
    | some w1 => grantsOk env A { w1 with tick := w1.tick + 1 } h

theorem grantsOk_apart (env : Env) (A : Nat → Bool) (h : List Step) : ∀ w : World, grantsOk env A w h = true →
    GrantsApart env A w h := by
  induction h with
  | nil =>
    intro w _ h1 c k h2 w1 q e
    cases h1 <;> cases e
  | cons s h ih =>
    intro w hc h1 c k h2 w1 q e hr hk
    simp only [grantsOk, Bool.and_eq_true] at hc
    cases h1 with
    | nil =>
      cases e
      cases hr
      have := hc.1
      simp only [hk, List.all_eq_true, beq_iff_eq] at this
      exact this
    | cons s' h1 =>
      cases e
      simp only [World.run, Option.bind_eq_some_iff] at hr
      obtain ⟨w2, hs, hr⟩ := hr
      have h2' := hc.2
      rw [hs] at h2'
      exact ih _ h2' h1 c k h2 w1 q rfl hr hk

end Conman
